import Verif.Spec.Constant
import Verif.Spec.Quantile

/-! Specification of cells beyond the training data. -/
namespace Verif.Spec

section
variable {L V K F P G W N N' : Type} [LinearOrder K]

/-- Column `j` has a missing cell in the `m` rows of `X`. -/
def HasMissing (X : Dataset N V) (m j : Nat) : Prop := ∃ r < m, cell X r j = some none

/-- The number of the cell `v` compares with all numbers in the `m` rows of column `j` of `X` by `R`. `num'` and `num` convert `v` and the cells of `X`. -/
def Compares (R : K → K → Prop) (num' num : V → Option K) (X : Dataset N V) (m j : Nat) (v : V) : Prop :=
  ∀ x, num' v = some x → ∀ r < m, ∀ w y, cell X r j = some (some w) → num w = some y → R x y

/-- Two cells for column `j` lie on the same side of the training data:
* both are numbers and at most the smallest number of the column, or
* both are missing or at least the largest number, and the column has no missing cell, or
* both are numbers and at least the largest number, and the column has at most `maxBins` distinct numbers, or
* both are numbers above the largest number. -/
def SameSide (maxBins : Nat) (num' num : V → Option K) (X : Dataset N V) (m j : Nat) (c c' : Option V) : Prop :=
  (∃ v v', c = some v ∧ c' = some v' ∧ Compares (· ≤ ·) num' num X m j v ∧ Compares (· ≤ ·) num' num X m j v') ∨
  (¬HasMissing X m j ∧ (∀ v, c = some v → Compares (· ≥ ·) num' num X m j v) ∧ ∀ v', c' = some v' → Compares (· ≥ ·) num' num X m j v') ∨
  ∃ v v', c = some v ∧ c' = some v' ∧
    ((nDistinct (numbersOf num X m j) ≤ maxBins ∧ Compares (· ≥ ·) num' num X m j v ∧ Compares (· ≥ ·) num' num X m j v') ∨
      (Compares (· > ·) num' num X m j v ∧ Compares (· > ·) num' num X m j v'))

/-- The cells of the `n` rows of `X1` and `X2` are the same, or in a column treated as numerical, on the same side of the training data `X`. -/
def SameOrBeyond (maxBins : Nat) (isCat : List Bool) (num' num : V → Option K) (m : Nat) (X : Dataset N V) (n : Nat) (X1 X2 : Dataset N' V) : Prop :=
  ∀ i < n, ∀ j, cell X1 i j = cell X2 i j ∨
    ∃ c c', cell X1 i j = some c ∧ cell X2 i j = some c' ∧ isCat[j]? = some false ∧ SameSide maxBins num' num X m j c c'

end

end Verif.Spec
