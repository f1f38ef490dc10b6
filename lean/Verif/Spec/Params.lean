import Verif.Model.Params

/-! # The documented values of the hyperparameters -/
namespace Verif.Spec

section
variable {K : Type} [Field K] [LinearOrder K]

/-- The value is the integer `i`; in Python True and False are the integers 1 and 0. -/
def IsInt (v : PyVal K) (i : Int) : Prop := v = .int i ∨ (v = .bool true ∧ i = 1) ∨ (v = .bool false ∧ i = 0)

/-- The hyperparameter exists for this class of forests. -/
def HasParam (k : ForestKind) (p : Param) : Prop :=
  k = .classifier ∨ (p ≠ .dirichlet ∧ p ≠ .classWeight ∧ p ≠ .multiclass ∧ p ≠ .catSplitStrategy)

/-- The allowed values, as given in the docstrings (forest.py:942-1051 and 1460-1577) and the messages of the exceptions. -/
def Allowed (k : ForestKind) : Param → PyVal K → Prop
  | .nEstimators, v => ∃ i, IsInt v i ∧ 1 ≤ i
  | .criterion, v => (k = .classifier ∧ (v = .str "gini" ∨ v = .str "entropy")) ∨ (k = .regressor ∧ v = .str "mse")
  | .loss, v => (k = .classifier ∧ v = .str "log") ∨ (k = .regressor ∧ v = .str "mse")
  | .step, v => ∃ x, v = .float (some x) ∧ 0 < x
  | .aggregation, v => ∃ b, v = .bool b
  | .dirichlet, v => ∃ x, v = .float (some x) ∧ 0 ≤ x
  | .maxDepth, v => v = .none ∨ ∃ i, IsInt v i ∧ 2 ≤ i
  | .minSamplesSplit, v => ∃ i, IsInt v i ∧ 2 ≤ i
  | .minSamplesLeaf, v => ∃ i, IsInt v i ∧ 1 ≤ i
  | .maxBins, v => ∃ i, IsInt v i ∧ 3 ≤ i
  | .categoricalFeatures, _ => True
  | .maxFeatures, v => v = .none ∨ v = .str "auto" ∨ v = .str "sqrt" ∨ v = .str "log2" ∨ (∃ i, IsInt v i ∧ 1 ≤ i) ∨
      ∃ x, v = .float (some x) ∧ 0 < x ∧ x ≤ 1
  | .handleUnknown, v => v = .str "error" ∨ v = .str "consider_missing"
  | .catMinCategories, v => v = .str "log" ∨ v = .str "sqrt" ∨ ∃ i, IsInt v i ∧ 3 < i
  | .subsample, v => v = .none ∨ (∃ i, IsInt v i ∧ 50000 ≤ i) ∨ ∃ x, v = .float (some x) ∧ 50000 ≤ x
  | .nJobs, v => ∃ i, IsInt v i ∧ (i = -1 ∨ 1 ≤ i)
  | .randomState, v => v = .none ∨ (∃ i, IsInt v i ∧ 0 ≤ i) ∨ ∃ id, v = .rng id
  | .verbose, v => ∃ b, v = .bool b
  | .classWeight, v => v = .none ∨ v = .str "balanced"
  | .multiclass, v => v = .str "multinomial" ∨ v = .str "ovr"
  | .catSplitStrategy, v => v = .str "binary" ∨ v = .str "all" ∨ v = .str "random"

/-- The hyperparameter must not change after `fit`. -/
def Locked (k : ForestKind) (p : Param) : Prop :=
  p = .nEstimators ∨ p = .randomState ∨ (k = .classifier ∧ (p = .multiclass ∨ p = .catSplitStrategy))

/-- The hyperparameters whose setters check their values. -/
def Checked (p : Param) : Prop := p ≠ .handleUnknown ∧ p ≠ .catMinCategories ∧ p ≠ .subsample

/-- NaN for one of the three hyperparameters that take floats. -/
def NanPasses (p : Param) (v : PyVal K) : Prop := v = .float none ∧ (p = .step ∨ p = .dirichlet ∨ p = .maxFeatures)

/-- What a call of `fit`, which may fail, can do to the hyperparameters, see C69. -/
def FitMay (o o' : PObj K) : Prop :=
  o'.kind = o.kind ∧ (o.fitted = true → o'.fitted = true) ∧
  ∀ p, o'.vals p = o.vals p ∨ (p = .categoricalFeatures ∧ (o'.vals p).isSome) ∨
    (p = .multiclass ∧ o.vals p = some (.str "ovr") ∧ o'.vals p = some (.str "multinomial"))

/-- The objects that a program can have: constructed, then any assignments, calls of `set_params` and of `fit`, each of which may raise. -/
inductive Reach (k : ForestKind) : PObj K → Prop
  | new {args : Param → PyVal K} {o : PObj K} : construct k args = .ok o → Reach k o
  | assign {o : PObj K} (p : Param) (v : PyVal K) : Reach k o → HasParam k p → Reach k (assign p v o).2
  | setParams {o : PObj K} (kvs : List (Option Param × PyVal K)) : Reach k o → Reach k (setParams kvs o).2
  | fit {o o' : PObj K} : Reach k o → FitMay o o' → Reach k o'

end

section
variable {L V K F P G : Type}

/-- The hyperparameters that `fit` reads are the same, except for `categorical_features` and `multiclass`. -/
structure SameHyper (e e' : Est L V K F P G) : Prop where
  nEstimators : e'.nEstimators = e.nEstimators
  criterion : e'.criterion = e.criterion
  step : e'.step = e.step
  dirichlet : e'.dirichlet = e.dirichlet
  aggregation : e'.aggregation = e.aggregation
  maxDepth : e'.maxDepth = e.maxDepth
  minSplit : e'.minSplit = e.minSplit
  minLeaf : e'.minLeaf = e.minLeaf
  maxBins : e'.maxBins = e.maxBins
  maxFeatures : e'.maxFeatures = e.maxFeatures
  subsample : e'.subsample = e.subsample
  catMin : e'.catMin = e.catMin
  handleUnknown : e'.handleUnknownError = e.handleUnknownError
  randomState : e'.randomState = e.randomState
  balanced : e'.balanced = e.balanced
  strategy : e'.strategy = e.strategy

/-- As the constructor leaves an estimator. -/
structure Fresh (e : Est L V K F P G) : Prop where
  fitted : e.fitted = false
  classes : e.classes = []
  counts : e.nClasses = 0 ∧ e.nTrees = 0 ∧ e.nClassesPerTree = 0 ∧ e.maxFeatures_ = 0 ∧ e.nSamples = 0 ∧ e.nFeatures = 0
  lists : e.seeds = [] ∧ e.isCategorical_ = [] ∧ e.trees = []
  encoder : e.encoder = none

end

section
variable {L V K F P G : Type} [LinearOrder K] [Field K]

/-- The estimator `e` of the model holds the hyperparameters of the object `o`. `toF`: the float of a Python number; `cats`: the meaning of
`categorical_features`. -/
structure SameValues (toF : Option K → F) (cats : PyVal K → CatFeatures) (o : PObj K) (e : Est L V K F P G) : Prop where
  nEstimators : ∃ v, o.vals .nEstimators = some v ∧ IsInt v e.nEstimators
  step : ∃ x, o.vals .step = some (.float x) ∧ e.step = toF x
  aggregation : o.vals .aggregation = some (.bool e.aggregation)
  maxDepth : ∃ v, o.vals .maxDepth = some v ∧ (match e.maxDepth with | none => v = .none | some m => IsInt v m)
  minSplit : ∃ v, o.vals .minSamplesSplit = some v ∧ IsInt v e.minSplit
  minLeaf : ∃ v, o.vals .minSamplesLeaf = some v ∧ IsInt v e.minLeaf
  maxBins : ∃ v, o.vals .maxBins = some v ∧ IsInt v e.maxBins
  categoricalFeatures : ∃ v, o.vals .categoricalFeatures = some v ∧ e.categoricalFeatures = cats v
  maxFeatures : ∃ v, o.vals .maxFeatures = some v ∧
    (match e.maxFeatures with | .none => v = .none | .str s => v = .str s | .int i => IsInt v i | .float x => v = .float x | .other => False)
  subsample : ∃ v, o.vals .subsample = some v ∧
    (match e.subsample with | none => v = .none | some k => IsInt v k ∨ ∃ x, v = .float (some x) ∧ (k : K) ≤ x ∧ x < k + 1)
  catMin : ∃ v, o.vals .catMinCategories = some v ∧ (match e.catMin with | .log => v = .str "log" | .sqrt => v = .str "sqrt" | .int k => IsInt v k)
  handleUnknown : o.vals .handleUnknown = some (.str (if e.handleUnknownError then "error" else "consider_missing"))
  randomState : ∃ v, o.vals .randomState = some v ∧ (e.randomState = some none ∧ v = .none ∨ ∃ m, e.randomState = some (some m) ∧ IsInt v m)
  classifier : o.kind = .classifier →
    o.vals .criterion = some (.str (match e.criterion with | .gini => "gini" | .entropy => "entropy")) ∧
    (∃ x, o.vals .dirichlet = some (.float x) ∧ e.dirichlet = toF x) ∧
    o.vals .classWeight = some (if e.balanced then .str "balanced" else .none) ∧
    o.vals .multiclass = some (.str (if e.ovr then "ovr" else "multinomial")) ∧
    o.vals .catSplitStrategy = some (.str (match e.strategy with | .binary => "binary" | .all => "all" | .random => "random"))

end

end Verif.Spec
