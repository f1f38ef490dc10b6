import Verif.Spec.BinPlace
import Verif.Spec.Checks
import Verif.Spec.Estimator

/-! Specification of how `fit` treats the columns, in terms of the hyperparameters. -/
namespace Verif.Spec

section
variable {V K : Type} [LinearOrder K] [Field K]

/-- The thresholds of a column with the values `xs` (missing ones are none): one less than the number of distinct values, at most `maxBins - 1`, in
increasing order; half way between neighbours when there are few distinct values, otherwise at the quantiles of levels `(i + 1) / maxBins` (midpoint
method); values above `cap` are cut. -/
structure ThresholdsOf (cap : K) (xs : List (Option K)) (maxBins : Nat) (thr : List K) : Prop where
  count : thr.length + 1 = min maxBins (max 1 (nDistinct xs))
  sorted : thr.Pairwise (· ≤ ·)
  few : nDistinct xs ≤ maxBins → ∀ (i : Nat) t, thr[i]? = some t →
    ∃ a b, some a ∈ xs ∧ some b ∈ xs ∧ rank xs a = i ∧ rank xs b = i + 1 ∧ t = min ((a + b) / 2) cap
  many : maxBins < nDistinct xs → ∀ (i : Nat) t, thr[i]? = some t →
    ∃ lo hi a b, OrderStat (xs.filterMap id) lo a ∧ OrderStat (xs.filterMap id) hi b ∧
      lo * maxBins ≤ ((xs.filterMap id).length - 1) * (i + 1) ∧ ((xs.filterMap id).length - 1) * (i + 1) < (lo + 1) * maxBins ∧
      ((xs.filterMap id).length - 1) * (i + 1) ≤ hi * maxBins ∧ hi * maxBins < ((xs.filterMap id).length - 1) * (i + 1) + maxBins ∧
      t = min ((a + b) / 2) cap

/-- The values of a column at the given rows. -/
def ValuesAt (num : V → Option K) (cells : List (Option V)) (rows : List Nat) (xs : List (Option K)) : Prop :=
  List.Forall₂ (fun i x => (cells[i]? = some none ∧ x = none) ∨ ∃ v y, cells[i]? = some (some v) ∧ num v = some y ∧ x = some y) rows xs

/-- The rows from which thresholds are learnt: all of them, or `subsample` of them when there are more. -/
def LearningRows (subsample : Option Nat) (n : Nat) (rows : List Nat) : Prop :=
  match subsample with
  | some k => if k < n then IsSample n k rows else rows = List.range n
  | none => rows = List.range n

/-- What the argument `categorical_features` of `fit` says of column `j`: nothing when it is missing or empty. -/
def declaration : CatFeatures → Nat → Option Bool
  | .ints l, j => if l = [] then none else some (decide ((j : Int) ∈ l))
  | .bools l, j => if l = [] then none else some (l.getD j false)
  | _, _ => none

/-- A column is fitted by the documented rules: `nun` is its number of distinct values and `m` the value of `cat_min_categories`. -/
structure FittedByRules (num : V → Option K) (cap : K) (maxBins m : Nat) (rows : List Nat) (kind : Kind) (decl : Option Bool) (nun : Nat)
    (cells : List (Option V)) (fc : FitCol V K) : Prop where
  typed : (decl = some false → kind = .uif) → ((∃ cs, fc = .cat cs) ↔ ShouldBeCategorical kind decl nun m)
  binned : ∀ thr, fc = .num thr → ∃ xs, ValuesAt num cells rows xs ∧ ThresholdsOf cap xs maxBins thr

end

section
variable {L V K F P G W N : Type} [LinearOrder L] [DecidableEq V] [DecidableEq N] [LinearOrder K] [Field K] [FloorSemiring K] [Num F]

/-- `cat_min_categories` for `n` rows: the number, or the integer part of the logarithm or of the square root of `n`, but at least 2. -/
def MinCategories (lib : Lib V K F G W) (n m : Nat) : CatMin → Prop
  | .int k => m = k
  | .log => (m = lib.flog n ∧ 2 ≤ m) ∨ (m = 2 ∧ lib.flog n < 2)
  | .sqrt => (m = lib.fsqrt n ∧ 2 ≤ m) ∨ (m = 2 ∧ lib.fsqrt n < 2)

/-- All columns of `X` are fitted by the documented rules with the hyperparameters of `e`: `kinds` selects dataframes and numerical arrays, the number of distinct
values of a dataframe column does not count missing values. -/
def ColumnsByRules (lib : Lib V K F G W) (e : Est L V K F P G) (a : FitArgs N V) (rows : List Nat) (m : Nat) (enc : List (FitCol V K)) : Prop :=
  match a.X with
  | .frame X => ∀ (j : Nat) name s, X[j]? = some (name, s) → ∃ fc, enc[j]? = some fc ∧
      FittedByRules lib.conv.toFloat lib.cap e.maxBins m rows s.kind (declaration a.categorical j) (s.cells.filterMap id).dedup.length s.cells fc
  | .array kind X => kind = .uif → ∀ (j : Nat) c, X[j]? = some c → ∃ fc, enc[j]? = some fc ∧
      FittedByRules lib.conv.toFloat lib.cap e.maxBins m rows .uif (declaration a.categorical j) c.dedup.length c fc

/-- The encoder of a fitted estimator `e'` follows the hyperparameters of `e`; with `handle_unknown="error"` rows with an unknown category are refused, and
otherwise they are encoded. -/
def EncoderByRules (lib : Lib V K F G W) (e e' : Est L V K F P G) (a : FitArgs N V) : Prop :=
  ∃ cfg enc rows m, e'.encoder = some (cfg, enc) ∧ LearningRows e.subsample a.nRows rows ∧ MinCategories lib a.nRows m e.catMin ∧
    ColumnsByRules lib e a rows m enc ∧ e'.isCategorical_ = (enc.map fun fc => match fc with | .cat _ => true | .num _ => false) ∧
    ∀ (N' : Type) [DecidableEq N'] (n : Nat) (X : Dataset N' V), 0 < n → GoodInput n X → ∀ i j cs v, enc[j]? = some (.cat cs) → cell X i j = some (some v) → v ∉ cs →
      if e.handleUnknownError then e'.encode lib n X = .error .valueError
      else ∀ fba, e'.encode lib n X = .ok fba → fba.getValue i j = .ok cs.length

end

end Verif.Spec
