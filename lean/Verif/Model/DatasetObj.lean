import Verif.Model.Datasets

/-! # `Dataset` objects whose `extract` is called several times (/repo/wildwood/datasets/dataset.py) -/
namespace Verif

/-- The attributes that `extract` sets, dataset.py:140-157 (without `label_encoder`, which holds `classes_`, and `df_raw`); `none` is the None of the constructor. The numbers `n_features_categorical_`, `n_features_continuous_`, `n_features_in_` and `n_classes_` are left out: they
are set together with the lists they count. -/
structure DatasetAttrs (N C K : Type) where
  nSamples : Option Nat
  categoricalColumns : Option (List N)
  continuousColumns : Option (List N)
  mask : Option (List Bool)
  transformer : Option (List (FitFeature N C K))
  columns : Option (List (ColName N))
  nColumns : Option Nat
  nTrain : Option Nat
  nTest : Option Nat
  classes : Option (List C)
  scaledGini : Option (Option K)

/-- The attributes after `__init__`, dataset.py:140-157. -/
def DatasetAttrs.init {N C K : Type} : DatasetAttrs N C K := ⟨none, none, none, none, none, none, none, none, none, none, none⟩

/-- Code that reads and sets attributes and can raise; attributes that were set before an exception stay. -/
def Act (A α : Type) := A → M α × A

namespace Act
variable {A α β : Type}

def bind (m : Act A α) (k : α → Act A β) : Act A β := fun a => match m a with
  | (.ok x, a') => k x a'
  | (.error e, a') => (.error e, a')

def run (m : Act A α) (a : A) : M α × A := m a

instance : Monad (Act A) where
  pure x := fun a => (.ok x, a)
  bind := bind

def lift (m : M α) : Act A α := fun a => (m, a)

def modify (f : A → A) : Act A Unit := fun a => (.ok (), f a)

end Act

section
variable {N C K : Type} [DecidableEq N] [LinearOrder C] [Field K] [DecidableEq K]

/-- `categorical_features_`, dataset.py:321-328. -/
def categoricalMask (df : DFrame N C) (label : N) : List Bool :=
  List.replicate (featureNames df label false).length false ++ List.replicate (featureNames df label true).length true

/-- `Dataset.extract`, dataset.py:297-405, on an object: the assignments to attributes in the order of the code. As in `extract`, a missing label column is noticed before the split; while the transformer is being
fitted, `transformer` is one that is not fitted (here: None). `df_raw` is read, not changed. -/
def extractObj (lib : DataLib C K) (cfg : DatasetCfg N) (df : DFrame N C) (n : Nat) : Act (DatasetAttrs N C K) (List (List K) × List (List K) × Targets C × Targets C) := do
  Act.modify fun a => { a with transformer := none }
  Act.modify fun a => { a with nSamples := some n, categoricalColumns := some (featureNames df cfg.label true), continuousColumns := some (featureNames df cfg.label false) }
  Act.modify fun a => if !cfg.oneHot && decide (0 < (featureNames df cfg.label true).length) then { a with mask := some (categoricalMask df cfg.label) } else a
  let labels ← Act.lift (df.labels cfg.label)
  let parts ← Act.lift (lib.split n (if cfg.regression then none else some labels))
  let dfTrain ← Act.lift (df.rows parts.1)
  let dfTest ← Act.lift (df.rows parts.2)
  let fs ← Act.lift (fitFeatures lib cfg dfTrain)
  Act.modify fun a => { a with transformer := some fs }
  let xTrain ← Act.lift (transformFrame lib cfg.drop fs dfTrain)
  let xTest ← Act.lift (transformFrame lib cfg.drop fs dfTest)
  let columns ← Act.lift (columnNames cfg df fs)
  Act.modify fun a => { a with columns := some columns }
  Act.lift (checkFrame cfg columns xTrain.length)
  Act.modify fun a => { a with nColumns := some xTrain.length, nTrain := some parts.1.length, nTest := some parts.2.length }
  let lTrain ← Act.lift (dfTrain.col cfg.label)
  let lTest ← Act.lift (dfTest.col cfg.label)
  let yTrain ← Act.lift (encodeTargets cfg.regression lTrain lTrain)
  let yTest ← Act.lift (encodeTargets cfg.regression lTrain lTest)
  Act.modify fun a => if cfg.regression then a else { a with classes := some (sortedUnique lTrain), scaledGini := some (Verif.scaledGini (labelProbs labels)) }
  return (xTrain, xTest, yTrain, yTest)

end

end Verif
