import Verif.Model.Estimator
import Verif.Spec.Real

/-! Other names for the classes. -/
namespace Verif.Spec

variable {L F : Type} [DecidableEq L]

/-- The probability of class `l` in a row of `predict_proba`: column number `k` belongs to `classes_[k]`. -/
def probaOf (classes : List L) (row : List F) (l : L) : Option F := row[classes.idxOf l]?

/-- The rows give every label `l` in `y` and its new name `ρ l` the same probability. -/
def SameProba (ρ : L → L) (y classes classes' : List L) (rows rows' : List (List F)) : Prop :=
  List.Forall₂ (fun row row' => ∀ l ∈ y, ∃ v, probaOf classes row l = some v ∧ probaOf classes' row' (ρ l) = some v) rows rows'

/-- Exact arithmetic with fractions. `log` and `exp` are not used without aggregation and with the Gini criterion. -/
@[reducible] def ratNum : Num ℚ where
  zero := 0
  one := 1
  half := 1 / 2
  ofNat n := n
  toNat q := q.floor.toNat
  add := (· + ·)
  sub := (· - ·)
  mul := (· * ·)
  div := (· / ·)
  neg := Neg.neg
  lt a b := decide (a < b)
  le a b := decide (a ≤ b)
  log x := x
  exp x := x
  gtNegInf _ := true

/-- Positions in the order of the numbers. -/
def ratArgsort (l : List ℚ) : List Nat := (List.range l.length).insertionSort fun a b => l.getD a 0 ≤ l.getD b 0

end Verif.Spec
