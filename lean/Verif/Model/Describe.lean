import Verif.Model.DatasetObj

/-! # `describe_datasets` (/repo/wildwood/datasets/loaders.py:993-1062) -/
namespace Verif

/-- A `Dataset` as a loader returns it (with `df_raw` of `n` rows), and the split that `extract(random_state)` will draw. -/
structure LoadedDataset (N C K : Type) where
  name : String
  lib : DataLib C K
  cfg : DatasetCfg N
  df : DFrame N C
  n : Nat

/-- A line of the description. A value is `none` where the attribute is None. -/
structure DescribeRow (K : Type) where
  name : String
  regression : Bool
  nSamples : Option Nat
  nTrain : Option Nat
  nTest : Option Nat
  nCategorical : Option Nat
  nContinuous : Option Nat
  nFeatures : Option Nat
  nClasses : Option Nat
  nColumns : Nat
  scaledGini : Option (Option K)

section
variable {N C K : Type} [DecidableEq N] [LinearOrder C] [Field K] [DecidableEq K]

/-- The body of the loop, loaders.py:1013-1029. The numbers of rows of `X_train` and `X_test` are taken from the attributes that `extract` sets to them (dataset.py:386-390), since a matrix is a list of columns here;
`n_features_in_` is the sum of dataset.py:319. -/
def describeOne (loader : M (LoadedDataset N C K)) : M (DescribeRow K) := do
  let d ← loader
  match (extractObj d.lib { d.cfg with oneHot := true, standardize := true } d.df d.n).run .init with
  | (.error e, _) => .error e
  | (.ok v, a) =>
    .ok { name := d.name, regression := d.cfg.regression, nSamples := a.nSamples, nTrain := a.nTrain, nTest := a.nTest
          nCategorical := a.categoricalColumns.map List.length, nContinuous := a.continuousColumns.map List.length
          nFeatures := a.categoricalColumns.bind fun l => a.continuousColumns.map fun m => l.length + m.length
          nClasses := a.classes.map List.length, nColumns := v.1.length, scaledGini := a.scaledGini }

/-- `describe_datasets(include)`, loaders.py:993-1062, where the two lists stand for `loaders_small_classification` and `loaders_small_regression`. The Boolean says whether the frame has the columns "n_classes" and
"scaled_gini". -/
def describeDatasets (incl : String) (classification regression : List (M (LoadedDataset N C K))) : M (Bool × List (DescribeRow K)) :=
  if incl = "small-classification" then do
    let rows ← classification.mapM describeOne
    return (true, rows)
  else if incl = "small-regression" then do
    let rows ← regression.mapM describeOne
    return (false, rows)
  else .error .valueError

end

end Verif
