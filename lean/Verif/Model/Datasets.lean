import Verif.Model.Estimator

/-! # The data sets of `wildwood.datasets`

Data frames are given by their columns. The names of the columns are distinct (`pd.read_csv` renames duplicates) and no cell is missing. -/
namespace Verif

/-- A column of a pandas data frame: whether its dtype is `category`, and its cells. -/
structure DCol (C : Type) where
  category : Bool
  cells : List C

/-- A pandas data frame. -/
abbrev DFrame (N C : Type) := List (N × DCol C)

/-- The argument `drop` of `OneHotEncoder`; other values than None and "first" are left out. -/
inductive DropArg
  | none
  | first

/-- The attributes of `Dataset` that `extract` reads, /repo/wildwood/datasets/dataset.py:107-157: `regression` stands for `task == "regression"`, `asFrame` for
`pd_df_categories`; `sparse` is left out, since it changes only the way the matrix is stored. -/
structure DatasetCfg (N : Type) where
  regression : Bool
  label : N
  continuous : Option (List N)
  categorical : Option (List N)
  standardize : Bool
  oneHot : Bool
  drop : DropArg
  asFrame : Bool

/-- External code: conversion of a cell to a float (`none`: ValueError), square root, and `train_test_split(df, test_size, shuffle=True, random_state,
stratify)`, which gets the number of rows and the labels if it has to stratify, and returns the rows of both parts. -/
structure DataLib (C K : Type) where
  toFloat : C → Option K
  sqrt : K → K
  split : Nat → Option (List C) → M (List Nat × List Nat)

/-- Name of a column of `X`: the name of a feature, or `name + "#" + str(idx)`. (The names of categorical features are strings; for others `+` raises
TypeError.) -/
inductive ColName (N : Type)
  | plain (n : N)
  | level (n : N) (k : Nat)
deriving DecidableEq

/-- A feature of the fitted `FeatureUnion`. -/
inductive FitFeature (N C K : Type)
  | scaled (n : N) (mean scale : K)
  | kept (n : N)
  | oneHot (n : N) (levels : List C)
  | ordinal (n : N) (levels : List C)

/-- The attribute `categories_` of the encoders, one list for each feature; continuous features have none. -/
def FitFeature.levels? {N C K : Type} : FitFeature N C K → Option (List C)
  | .oneHot _ l => some l
  | .ordinal _ l => some l
  | _ => none

/-- The values of the labels: the column itself (regression), or the codes of `LabelEncoder`. -/
inductive Targets (C : Type)
  | raw (cells : List C)
  | codes (codes : List Nat)

/-- What `extract` returns and stores. The matrices are given by their columns. -/
structure Extracted (N C K : Type) where
  xTrain : List (List K)
  xTest : List (List K)
  yTrain : Targets C
  yTest : Targets C
  columns : List (ColName N)
  mask : Option (List Bool)
  nCategorical : Nat
  nContinuous : Nat
  classes : Option (List C)
  scaledGini : Option K

section
variable {N C K : Type} [DecidableEq N] [LinearOrder C] [Field K] [DecidableEq K]

/-- `gini`, dataset.py:29-30. -/
def gini (probs : List K) : K := 1 - (probs.map fun p => p ^ 2).sum

/-- `scaled_gini`, dataset.py:33-36. The result is `none` (NaN or infinite) when the denominator is zero. -/
def scaledGini (probs : List K) : Option K :=
  let m := gini ((List.range probs.length).map fun _ => (1 : K) / probs.length)
  if m = 0 then none else some (gini probs / m)

/-- `np.bincount(LabelEncoder().fit_transform(labels)) / n`, dataset.py:400-402. -/
def labelProbs (labels : List C) : List K := (sortedUnique labels).map fun c => (labels.count c : K) / labels.length

/-- `Dataset.from_dtype`, dataset.py:171-190; the items of `dtype` with the question whether the dtype is "category". -/
def fromDtype (regression : Bool) (label : N) (dtype : List (N × Bool)) (oneHot : Bool) : DatasetCfg N where
  regression := regression
  label := label
  continuous := some ((dtype.filter fun p => !p.2).map Prod.fst)
  categorical := some ((dtype.filter fun p => p.2).map Prod.fst)
  standardize := true
  oneHot := oneHot
  drop := .none
  asFrame := false

/-- A column selected by name; scikit-learn raises ValueError if there is none. -/
def DFrame.col (df : DFrame N C) (n : N) : M (List C) :=
  match df.lookup n with
  | some c => .ok c.cells
  | none => .error .valueError

/-- `df[self.label_column]`, dataset.py:330: KeyError if there is no such column. (For regression it is raised later, in line 392.) -/
def DFrame.labels (df : DFrame N C) (n : N) : M (List C) :=
  match df.lookup n with
  | some c => .ok c.cells
  | none => .error .keyError

/-- The given rows of a data frame. -/
def DFrame.rows (df : DFrame N C) (rows : List Nat) : M (DFrame N C) :=
  df.mapM fun p => do
    let cells ← rows.mapM (rd p.2.cells)
    return (p.1, { category := p.2.category, cells := cells })

/-- Conversion of cells to floats. (`FunctionTransformer` does not convert: there the result of `extract` would be an array of objects.) -/
def DataLib.floats (lib : DataLib C K) (cells : List C) : M (List K) :=
  cells.mapM fun c => match lib.toFloat c with
    | some x => .ok x
    | none => .error .valueError

/-- `StandardScaler().fit`: mean and standard deviation, the latter replaced by 1 if it is zero. -/
def scalerFit (sqrt : K → K) (xs : List K) : K × K :=
  let m : K := xs.sum / xs.length
  let v : K := (xs.map fun x : K => (x - m) ^ 2).sum / (xs.length : K)
  (m, if v = 0 then 1 else sqrt v)

/-- `_build_transform`, dataset.py:213-287, followed by `transformer.fit(df_train)`, dataset.py:340. A `FeatureUnion` of nothing raises ValueError. -/
def fitFeatures (lib : DataLib C K) (cfg : DatasetCfg N) (train : DFrame N C) : M (List (FitFeature N C K)) := do
  let cont ← (cfg.continuous.getD []).mapM fun n => do
    let cells ← train.col n
    if cfg.standardize then do
      let xs ← lib.floats cells
      return .scaled n (scalerFit lib.sqrt xs).1 (scalerFit lib.sqrt xs).2
    else return .kept n
  let cat ← (cfg.categorical.getD []).mapM fun n => do
    let cells ← train.col n
    return if cfg.oneHot then .oneHot n (sortedUnique cells) else .ordinal n (sortedUnique cells)
  if (cont ++ cat).isEmpty then .error .valueError else return cont ++ cat

/-- The columns of `transform` for one feature: `StandardScaler`, `FunctionTransformer`, `OneHotEncoder(handle_unknown="ignore")`,
`OrdinalEncoder(handle_unknown="use_encoded_value", unknown_value=-1)`. -/
def transformFeature (lib : DataLib C K) (drop : DropArg) (df : DFrame N C) : FitFeature N C K → M (List (List K))
  | .scaled n m s => do
    let cells ← df.col n
    let xs ← lib.floats cells
    return [xs.map fun x => (x - m) / s]
  | .kept n => do
    let cells ← df.col n
    let xs ← lib.floats cells
    return [xs]
  | .oneHot n levels => do
    let cells ← df.col n
    return (match drop with | .none => levels | .first => levels.tail).map fun l => cells.map fun c => if c = l then 1 else 0
  | .ordinal n levels => do
    let cells ← df.col n
    return [cells.map fun c => if c ∈ levels then (levels.idxOf c : K) else -1]

/-- `transformer.transform(df)`, dataset.py:341-342. -/
def transformFrame (lib : DataLib C K) (drop : DropArg) (fs : List (FitFeature N C K)) (df : DFrame N C) : M (List (List K)) := do
  let cols ← fs.mapM (transformFeature lib drop df)
  return cols.flatten

/-- The names of the columns other than the label with the given kind of dtype, dataset.py:304-315. -/
def featureNames (df : DFrame N C) (label : N) (category : Bool) : List N :=
  (df.filter fun p => decide (p.1 ≠ label) && (p.2.category == category)).map Prod.fst

/-- `transformer_list[-1][1].transformers_[0][1].categories_`, dataset.py:352-356: AttributeError if the last transformer is that of the continuous columns. -/
def allModalities (cfg : DatasetCfg N) (fs : List (FitFeature N C K)) : M (List (List C)) :=
  if (cfg.categorical.getD []).isEmpty then .error .attributeError
  else .ok (fs.filterMap FitFeature.levels?)

/-- The names of all columns, dataset.py:344-372. -/
def columnNames (cfg : DatasetCfg N) (df : DFrame N C) (fs : List (FitFeature N C K)) : M (List (ColName N)) := do
  let cont := (featureNames df cfg.label false).map ColName.plain
  let cats := featureNames df cfg.label true
  if cats.isEmpty then return cont
  else if cfg.oneHot then do
    let mods ← allModalities cfg fs
    return cont ++ (cats.zip mods).flatMap fun p => (List.range p.2.length).map (ColName.level p.1)
  else return cont ++ cats.map ColName.plain

/-- The conversion to data frames, dataset.py:374-384: ValueError for a wrong number of names, KeyError for names that are not columns. -/
def checkFrame (cfg : DatasetCfg N) (columns : List (ColName N)) (width : Nat) : M Unit :=
  if !cfg.asFrame then .ok ()
  else if columns.length ≠ width then .error .valueError
  else if (cfg.categorical.getD []).all fun n => decide (ColName.plain n ∈ columns) then .ok ()
  else .error .keyError

/-- `label_encoder.transform`: ValueError for a label that `fit` has not seen. -/
def encodeLabels (classes labels : List C) : M (List Nat) :=
  labels.mapM fun c => if c ∈ classes then .ok (classes.idxOf c) else .error .valueError

/-- The labels, dataset.py:392-394 and 290-293. -/
def encodeTargets (regression : Bool) (train cells : List C) : M (Targets C) :=
  if regression then .ok (.raw cells)
  else do
    let k ← encodeLabels (sortedUnique train) cells
    return .codes k

/-- `Dataset.extract`, dataset.py:297-405. A missing label column raises KeyError. The attributes of the object that are set before an exception are not
modelled. -/
def extract (lib : DataLib C K) (cfg : DatasetCfg N) (df : DFrame N C) (n : Nat) : M (Extracted N C K) := do
  let labels ← df.labels cfg.label
  let parts ← lib.split n (if cfg.regression then none else some labels)
  let dfTrain ← df.rows parts.1
  let dfTest ← df.rows parts.2
  let fs ← fitFeatures lib cfg dfTrain
  let xTrain ← transformFrame lib cfg.drop fs dfTrain
  let xTest ← transformFrame lib cfg.drop fs dfTest
  let columns ← columnNames cfg df fs
  checkFrame cfg columns xTrain.length
  let lTrain ← dfTrain.col cfg.label
  let lTest ← dfTest.col cfg.label
  let yTrain ← encodeTargets cfg.regression lTrain lTrain
  let yTest ← encodeTargets cfg.regression lTrain lTest
  let nCat := (featureNames df cfg.label true).length
  let nCont := (featureNames df cfg.label false).length
  return { xTrain := xTrain, xTest := xTest, yTrain := yTrain, yTest := yTest, columns := columns
           mask := if !cfg.oneHot && decide (0 < nCat) then some (List.replicate nCont false ++ List.replicate nCat true) else none
           nCategorical := nCat, nContinuous := nCont
           classes := if cfg.regression then none else some (sortedUnique lTrain)
           scaledGini := if cfg.regression then none else Verif.scaledGini (labelProbs labels) }

end

end Verif
