import Verif.Spec.Beyond

/-! Specification of step functions: cut points of numerical columns. -/
namespace Verif.Spec

section
variable {V K N N' : Type} [LinearOrder K]

/-- No cut point separates the numbers `x` and `x'`. -/
def NotSeparated (cuts : List K) (x x' : K) : Prop := ∀ t ∈ cuts, x ≤ t ↔ x' ≤ t

/-- The cells are the same, or the column has cut points and the cells are numbers that no cut point separates. -/
def SameStep (num : V → Option K) (cuts : Option (List K)) (c c' : Option V) : Prop :=
  c = c' ∨ ∃ l v v' x x', cuts = some l ∧ c = some v ∧ c' = some v' ∧ num v = some x ∧ num v' = some x' ∧ NotSeparated l x x'

/-- Row `i` of `X` and row `i'` of `X'` are on the same step in all columns. -/
def SameSteps (num : V → Option K) (cuts : List (Option (List K))) (X X' : Dataset N V) (i i' : Nat) : Prop :=
  ∀ (j : Nat) (o : Option (List K)) (c c' : Option V), cuts[j]? = some o → cell X i j = some c → cell X' i' j = some c' → SameStep num o c c'

variable [Field K]

/-- A numerical column has fewer than `maxBins` cut points. Each is halfway between two numbers of the column, but at most `cap`. -/
def CutsOf (maxBins : Nat) (cap : K) (num : V → Option K) (X : Dataset N V) (m : Nat) (cuts : List (Option (List K))) : Prop :=
  ∀ (j : Nat) (l : List K), cuts[j]? = some (some l) → l.length < maxBins ∧ l.Pairwise (· ≤ ·) ∧
    ∀ t ∈ l, ∃ u w, some u ∈ numbersOf num X m j ∧ some w ∈ numbersOf num X m j ∧ t = min ((u + w) / 2) cap

end

end Verif.Spec
