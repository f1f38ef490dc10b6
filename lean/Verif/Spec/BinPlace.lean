import Mathlib.Order.Defs.LinearOrder
import Mathlib.Data.List.Count

/-! Specification of the place of binning thresholds. -/
namespace Verif.Spec

/-- `v` is the value number `i` (from 0) of the list in increasing order, counted with repetitions. -/
def OrderStat {K : Type} [LinearOrder K] (l : List K) (i : Nat) (v : K) : Prop :=
  v ∈ l ∧ l.countP (fun x => decide (x < v)) ≤ i ∧ i < l.countP (fun x => decide (x ≤ v))

end Verif.Spec
