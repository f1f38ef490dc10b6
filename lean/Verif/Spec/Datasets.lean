import Verif.Model.Datasets
import Mathlib.Data.Finset.Card
import Mathlib.Analysis.Real.Sqrt

/-! What a data set gives to a forest: rows, columns and labels that describe the same data frame. -/
namespace Verif.Spec

section
variable {N C K : Type} [DecidableEq N] [LinearOrder C] [Field K] [LinearOrder K]

/-- Cell of a frame. -/
def cellOf (df : DFrame N C) (n : N) (row : Nat) : Option C := (df.lookup n).bind fun c => c.cells[row]?

/-- `n` is a column other than the label, and its dtype is (or is not) `category`. -/
def IsFeature (df : DFrame N C) (label n : N) (category : Bool) : Prop := n ≠ label ∧ ∃ c, df.lookup n = some c ∧ c.category = category

/-- The names are distinct and all columns have `n` rows. -/
structure FrameOK (df : DFrame N C) (n : Nat) : Prop where
  names : (df.map Prod.fst).Nodup
  rows : ∀ p ∈ df, p.2.cells.length = n

/-- `train_test_split` splits the rows in two parts that are not empty. -/
def PartsOK (lib : DataLib C K) : Prop :=
  ∀ n s tr te, lib.split n s = .ok (tr, te) → (tr ++ te).Perm (List.range n) ∧ tr ≠ [] ∧ te ≠ []

/-- `np.sqrt` on positive numbers. -/
def SqrtOK (sqrt : K → K) : Prop := ∀ v, 0 < v → 0 < sqrt v ∧ sqrt v * sqrt v = v

/-- The columns given to the constructor are those of the frame, in its order: continuous columns are those whose dtype is not `category`. -/
structure Declared (cfg : DatasetCfg N) (df : DFrame N C) : Prop where
  contOrder : (cfg.continuous.getD []).Sublist (df.map Prod.fst)
  catOrder : (cfg.categorical.getD []).Sublist (df.map Prod.fst)
  cont : ∀ n, n ∈ cfg.continuous.getD [] ↔ IsFeature df cfg.label n false
  cat : ∀ n, n ∈ cfg.categorical.getD [] ↔ IsFeature df cfg.label n true

/-- Row `i` of the column is about row `rows[i]` of the frame: its entry is related to the cell of feature `n`. -/
def HoldsIn (df : DFrame N C) (n : N) (rows : List Nat) (col : List K) (rel : C → K → Prop) : Prop :=
  col.length = rows.length ∧ ∀ (i row : Nat), rows[i]? = some row → ∃ c v, cellOf df n row = some c ∧ col[i]? = some v ∧ rel c v

/-- The value occurs in the training rows. -/
def Seen (df : DFrame N C) (n : N) (tr : List Nat) (c : C) : Prop := ∃ row ∈ tr, cellOf df n row = some c

/-- Number of different values in the training rows that are smaller. -/
def rankOf (df : DFrame N C) (n : N) (tr : List Nat) (c : C) : Nat := ((tr.filterMap (cellOf df n)).toFinset.filter (· < c)).card

/-- Number of different values in the training rows. -/
def levelsOf (df : DFrame N C) (n : N) (tr : List Nat) : Nat := (tr.filterMap (cellOf df n)).toFinset.card

/-- The columns are the numbers of the feature after a change of unit and origin, which is such that the training rows have mean 0 and variance 1; all of
them are 0 if the feature is constant there. -/
def Standardised (toFloat : C → Option K) (df : DFrame N C) (n : N) (tr te : List Nat) (u v : List K) : Prop :=
  (∃ a b, 0 < a ∧ HoldsIn df n tr u (fun c z => ∃ x, toFloat c = some x ∧ z = a * x + b) ∧
    HoldsIn df n te v (fun c z => ∃ x, toFloat c = some x ∧ z = a * x + b)) ∧
  u.sum = 0 ∧ ((∀ z ∈ u, z = 0) ∨ (u.map (· ^ 2)).sum = (tr.length : K))

/-- The columns of `X_train` and `X_test` hold what their name says. -/
def ColumnOK (toFloat : C → Option K) (cfg : DatasetCfg N) (df : DFrame N C) (tr te : List Nat) : ColName N → List K → List K → Prop
  | .plain n, u, v =>
    (IsFeature df cfg.label n false ∧ cfg.standardize = true ∧ Standardised toFloat df n tr te u v) ∨
    (IsFeature df cfg.label n false ∧ cfg.standardize = false ∧ HoldsIn df n tr u (fun c z => toFloat c = some z) ∧
      HoldsIn df n te v (fun c z => toFloat c = some z)) ∨
    (IsFeature df cfg.label n true ∧ cfg.oneHot = false ∧ HoldsIn df n tr u (fun c z => Seen df n tr c ∧ z = rankOf df n tr c) ∧
      HoldsIn df n te v (fun c z => (Seen df n tr c ∧ z = rankOf df n tr c) ∨ (¬ Seen df n tr c ∧ z = -1)))
  | .level n k, u, v =>
    IsFeature df cfg.label n true ∧ cfg.oneHot = true ∧ k < levelsOf df n tr ∧
      HoldsIn df n tr u (fun c z => (rankOf df n tr c = k ∧ z = 1) ∨ (rankOf df n tr c ≠ k ∧ z = 0)) ∧
      HoldsIn df n te v (fun c z => (Seen df n tr c ∧ rankOf df n tr c = k ∧ z = 1) ∨ (¬ (Seen df n tr c ∧ rankOf df n tr c = k) ∧ z = 0))

/-- The labels: as they are (regression), or as numbers of classes, where the classes are the different training labels in increasing order. -/
def TargetsOK (cfg : DatasetCfg N) (df : DFrame N C) (tr rows : List Nat) (classes : Option (List C)) : Targets C → Prop
  | .raw l => cfg.regression = true ∧ l.length = rows.length ∧ ∀ (i row : Nat), rows[i]? = some row → ∃ c, cellOf df cfg.label row = some c ∧ l[i]? = some c
  | .codes l => cfg.regression = false ∧ l.length = rows.length ∧ ∃ cs, classes = some cs ∧ cs.Pairwise (· < ·) ∧
      (∀ c, c ∈ cs ↔ Seen df cfg.label tr c) ∧
      ∀ (i row : Nat), rows[i]? = some row → ∃ c k, cellOf df cfg.label row = some c ∧ l[i]? = some k ∧ cs[k]? = some c

/-- What `extract` should return for the rows `tr` and `te`: one name for each column, each feature and each level once; every column holds what its name
says; the mask marks the categorical features; labels belong to the same rows. -/
structure ExtractOK (toFloat : C → Option K) (cfg : DatasetCfg N) (df : DFrame N C) (tr te : List Nat) (r : Extracted N C K) : Prop where
  width : r.xTrain.length = r.columns.length ∧ r.xTest.length = r.columns.length
  names : r.columns.Nodup
  continuous : ∀ n, IsFeature df cfg.label n false → ColName.plain n ∈ r.columns
  categorical : ∀ n, IsFeature df cfg.label n true → if cfg.oneHot then ∀ k < levelsOf df n tr, ColName.level n k ∈ r.columns else ColName.plain n ∈ r.columns
  columns : ∀ (j : Nat) cn u v, r.columns[j]? = some cn → r.xTrain[j]? = some u → r.xTest[j]? = some v → ColumnOK toFloat cfg df tr te cn u v
  mask : cfg.oneHot = false → (∃ n, IsFeature df cfg.label n true) → ∃ m, r.mask = some m ∧ m.length = r.columns.length ∧
    ∀ (j : Nat) n, r.columns[j]? = some (.plain n) → (m[j]? = some true ↔ IsFeature df cfg.label n true)
  yTrain : TargetsOK cfg df tr tr r.classes r.yTrain
  yTest : TargetsOK cfg df tr te r.classes r.yTest

/-- Two frames with the same names and dtypes, in the same order. -/
def SameColumns (df df' : DFrame N C) : Prop := df'.map (fun p => (p.1, p.2.category)) = df.map fun p => (p.1, p.2.category)

/-- The parts into which `extract` splits the rows. -/
def PartsOf (lib : DataLib C K) (cfg : DatasetCfg N) (df : DFrame N C) (n : Nat) (tr te : List Nat) : Prop :=
  ∃ c, df.lookup cfg.label = some c ∧ lib.split n (if cfg.regression then none else some c.cells) = .ok (tr, te)

/-- The libraries differ only in the way they split. -/
def SameConversions (lib lib' : DataLib C K) : Prop := lib'.toFloat = lib.toFloat ∧ lib'.sqrt = lib.sqrt

/-- What `extract` returns about the training rows, and what it has learnt from them. -/
structure SameTraining (r r' : Extracted N C K) : Prop where
  xTrain : r'.xTrain = r.xTrain
  yTrain : r'.yTrain = r.yTrain
  columns : r'.columns = r.columns
  mask : r'.mask = r.mask
  classes : r'.classes = r.classes

/-- Row `i` of the labels. -/
def targetAt : Targets C → Nat → Option (C ⊕ Nat)
  | .raw l, i => (l[i]?).map .inl
  | .codes l, i => (l[i]?).map .inr

/-- Row `i` of one test set is row `i'` of the other one: equal in all columns and in the label. -/
def SameTestRow (r r' : Extracted N C K) (i i' : Nat) : Prop :=
  r'.xTest.map (·[i']?) = r.xTest.map (·[i]?) ∧ targetAt r'.yTest i' = targetAt r.yTest i

end

end Verif.Spec
