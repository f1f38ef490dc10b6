import Mathlib.Order.Defs.LinearOrder
import Mathlib.Data.Finset.Sort

/-! Specification of binning. -/
namespace Verif.Spec

/-- The documented rule (_binning.py:43-45): "a value x will be mapped into bin value i iff
binning_thresholds[i - 1] < x <= binning_thresholds[i]", with open ends. -/
def IsBin {K : Type} [LinearOrder K] (thr : List K) (x : K) (i : Nat) : Prop :=
  i ≤ thr.length ∧
  (∀ t, thr[i]? = some t → x ≤ t) ∧
  (∀ j t, j + 1 = i → thr[j]? = some t → t < x)

/-- Number of distinct non-missing values of a column strictly below `x`. -/
def rank {K : Type} [LinearOrder K] (col : List (Option K)) (x : K) : Nat :=
  ((col.filterMap id).toFinset.filter (· < x)).card

/-- Number of distinct non-missing values of a column. -/
def nDistinct {K : Type} [LinearOrder K] (col : List (Option K)) : Nat :=
  (col.filterMap id).toFinset.card

end Verif.Spec
