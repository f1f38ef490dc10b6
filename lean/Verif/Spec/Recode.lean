import Verif.Spec.Encoder
import Mathlib.Order.Monotone.Defs

/-! # Transforming the values of numerical columns (C64, C65) -/
namespace Verif.Spec

variable {N V K : Type}

/-- The dataset with the function `ch j` applied to every non-missing cell of column `j`. -/
def recode (ch : Nat → V → V) : Dataset N V → Dataset N V
  | .frame X => .frame (X.mapIdx fun j p => (p.1, { p.2 with cells := p.2.cells.map (Option.map (ch j)) }))
  | .array kind X => .array kind (X.mapIdx fun j c => c.map (Option.map (ch j)))

/-- Column `j` has a numerical dtype. -/
def NumericDtype (D : Dataset N V) (j : Nat) : Prop :=
  match D with
  | .frame X => ∀ p, X[j]? = some p → p.2.kind = .uif
  | .array kind _ => kind = .uif

/-- The values of column `j`. -/
def InColumn (D : Dataset N V) (j : Nat) (v : V) : Prop := ∃ i, cell D i j = some (some v)

/-- `f` changes the numbers in column `j` by an increasing function `φ`, below the bound `cap` on numbers; different values stay different. -/
structure Increasing [LinearOrder K] (cv : Conv V K) (cap : K) (D : Dataset N V) (j : Nat) (f : V → V) (φ : K → K) : Prop where
  dtype : NumericDtype D j
  number : ∀ v, InColumn D j v → ∃ x, cv.toFloat v = some x ∧ x ≤ cap ∧ φ x ≤ cap ∧ cv.toFloat (f v) = some (φ x)
  mono : ∀ v w x y, InColumn D j v → InColumn D j w → cv.toFloat v = some x → cv.toFloat w = some y → x < y → φ x < φ y
  inj : ∀ v w, InColumn D j v → InColumn D j w → f v = f w → v = w

/-- `f` changes the unit and the origin of the numbers in column `j`. -/
structure Affine [LinearOrder K] [Field K] (cv : Conv V K) (D : Dataset N V) (j : Nat) (f : V → V) (α β : K) : Prop where
  dtype : NumericDtype D j
  number : ∀ v, InColumn D j v → cv.toFloat (f v) = (cv.toFloat v).map fun x => α * x + β

end Verif.Spec
