import Verif.Model.Basic
import Mathlib.Order.Defs.LinearOrder
import Mathlib.Algebra.Field.Defs
import Mathlib.Data.List.Dedup

/-! # Binning of continuous columns (/repo/wildwood/preprocessing/_binning.py)

The numbers are an arbitrary linear order `K` (a field for the thresholds). `none` is NaN / missing. -/
namespace Verif

/-- The `while left < right` loop of `_bin_continuous_column`, _binning.py:107-116. The loop bound is the
fuel argument; theorem C03 shows that it never runs out. -/
def binSearch {K : Type} [LinearOrder K] (thr : List K) (x : K) : Nat → Nat → Nat → M Nat
  | 0, left, right => if left < right then .error .fuel else .ok left
  | fuel + 1, left, right =>
    if left < right then do
      let middle := left + (right - left - 1) / 2
      let t ← rd thr middle
      if x ≤ t then binSearch thr x fuel left middle
      else binSearch thr x fuel (middle + 1) right
    else .ok left

/-- One iteration of the `for` loop of `_bin_continuous_column`, _binning.py:103-116. -/
def binValue {K : Type} [LinearOrder K] (thr : List K) (missingBin : Nat) : Option K → M Nat
  | none => .ok missingBin
  | some x => binSearch thr x thr.length 0 thr.length

/-- `_bin_continuous_column`, _binning.py:89-116: returns the column written in `binned_col`. -/
def binContinuousColumn {K : Type} [LinearOrder K] (col : List (Option K)) (thr : List K)
    (missingBin : Nat) : M (List Nat) :=
  col.mapM (binValue thr missingBin)

section
variable {K : Type} [LinearOrder K]

/-- `np.sort`. -/
def sortAsc (l : List K) : List K := l.mergeSort (fun a b => decide (a ≤ b))

/-- `np.unique`: sorted distinct values, _binning.py:63. -/
def npUnique (l : List K) : List K := sortAsc l.dedup

variable [Field K]

/-- `(uniques[:-1] + uniques[1:]) * 0.5`, _binning.py:66-67. -/
def middles : List K → List K
  | a :: b :: l => (a + b) / 2 :: middles (b :: l)
  | _ => []

/-- `np.percentile(col, 100 * k / max_bins, method="midpoint")` on the sorted column, for one `k`
(_binning.py:70-73): the mean of the order statistics at the floor and the ceiling of the virtual index
`(n - 1) * k / max_bins`. Simplification: the virtual index is exact (numpy computes it in float64). -/
def percentileMidpoint (sorted : List K) (maxBins k : Nat) : M K := do
  let lo := (sorted.length - 1) * k / maxBins
  let hi := ((sorted.length - 1) * k + maxBins - 1) / maxBins
  let a ← rd sorted lo
  let b ← rd sorted hi
  return (a + b) / 2

/-- `_find_binning_thresholds`, _binning.py:22-79. Missing values are dropped (lines 52-59); `cap` is
`ALMOST_INF = 1e300` (line 16), used by `np.clip(..., a_max=ALMOST_INF)` (line 78). -/
def findBinningThresholds (cap : K) (col : List (Option K)) (maxBins : Nat) : M (List K) := do
  let vals := col.filterMap id
  let uniques := npUnique vals
  let mids ←
    if uniques.length ≤ maxBins then .ok (middles uniques)
    else
      let sorted := sortAsc vals
      -- np.linspace(0, 100, num=max_bins + 1)[1:-1]
      ((List.range (maxBins - 1)).map (· + 1)).mapM (percentileMidpoint sorted maxBins)
  return mids.map fun t => min t cap

end

end Verif
