import Verif.Model.Estimator

/-! # Hyperparameters as Python values: constructor, properties, `get_params`, `set_params`, `clone` (/repo/wildwood/forest.py) -/
namespace Verif

/-- A Python value. A float is a number, or NaN (`float none`); infinite floats are left out. `rng`: a numpy `RandomState`. `other`: all other
objects, such as lists, arrays and numpy scalars, which are no instances of int, float, bool or str (np.float64, which is one of float, counts as
float here). -/
inductive PyVal (K : Type)
  | none
  | bool (b : Bool)
  | int (i : Int)
  | float (x : Option K)
  | str (s : String)
  | rng (id : Nat)
  | other (id : Nat)
  deriving DecidableEq

/-- The names of the hyperparameters, forest.py:1086-1108. -/
inductive Param
  | nEstimators | criterion | loss | step | aggregation | dirichlet | maxDepth | minSamplesSplit | minSamplesLeaf | maxBins | categoricalFeatures
  | maxFeatures | handleUnknown | catMinCategories | subsample | nJobs | randomState | verbose | classWeight | multiclass | catSplitStrategy
  deriving DecidableEq

/-- The two classes of forests. -/
inductive ForestKind
  | classifier
  | regressor
  deriving DecidableEq

/-- A forest object with its hyperparameters only; `vals p = none`: the attribute does not exist. -/
structure PObj (K : Type) where
  kind : ForestKind
  fitted : Bool
  vals : Param → Option (PyVal K)

/-- What a property setter does with a value: it stores it, does nothing, or raises. -/
inductive Decision
  | store
  | ignore
  | raise (e : Err)

section
variable {K : Type} [Field K] [LinearOrder K]

/-- The value if `isinstance(val, int)`; a bool is an int in Python. -/
def PyVal.int? : PyVal K → Option Int
  | .int i => some i
  | .bool b => some (if b then 1 else 0)
  | _ => .none

/-- `if ok: store else: raise ValueError`. -/
def Decision.check (ok : Bool) : Decision := if ok then .store else .raise .valueError

/-- `isinstance(val, int) and val >= k`. -/
def PyVal.intGe (k : Int) (v : PyVal K) : Bool :=
  match v.int? with
  | some i => decide (k ≤ i)
  | .none => false

/-- The value is one of these strings. -/
def PyVal.strIn (l : List String) : PyVal K → Bool
  | .str s => decide (s ∈ l)
  | _ => false

/-- The value is True or False. -/
def PyVal.isBool : PyVal K → Bool
  | .bool _ => true
  | _ => false

/-- The setters, forest.py:664-881, 1333-1454 and 1718-1745, as far as the hyperparameters are concerned. `step` and `dirichlet` of a fitted forest
also go to the trees, see `ForestObj.setStep` and C36. `categorical_features`, `subsample`, `cat_min_categories` and `handle_unknown` are plain
attributes (forest.py:222-228), and so is any other name. -/
def setter (k : ForestKind) (fitted : Bool) : Param → PyVal K → Decision
  | .nEstimators, v => if fitted then .raise .valueError else .check (v.intGe 1)
  | .criterion, v => .check (v.strIn (match k with | .classifier => ["gini", "entropy"] | .regressor => ["mse"]))
  | .loss, v => .check (v.strIn (match k with | .classifier => ["log"] | .regressor => ["mse"]))
  | .step, v => match v with
    | .float (some x) => .check (!decide (x ≤ 0))
    | .float .none => .store
    | _ => .raise .valueError
  | .aggregation, v => .check v.isBool
  | .dirichlet, v => match k, v with
    | .regressor, _ => .store
    | .classifier, .float (some x) => .check (!decide (x < 0))
    | .classifier, .float .none => .store
    | .classifier, _ => .raise .valueError
  | .maxDepth, v => match v with
    | .none => .store
    | v => .check (v.intGe 2)
  | .minSamplesSplit, v => .check (v.intGe 2)
  | .minSamplesLeaf, v => .check (v.intGe 1)
  | .maxBins, v => .check (v.intGe 3)
  | .maxFeatures, v => match v with
    | .none => .store
    | .str s => .check (PyVal.strIn (K := K) ["sqrt", "log2", "auto"] (.str s))
    | .float (some x) => .check (!(decide (1 < x) || decide (x ≤ 0)))
    | .float .none => .store
    | v => .check (v.intGe 1)
  | .nJobs, v => match v.int? with
    | some i => .check (!(decide (i < -1) || decide (i = 0)))
    | .none => .raise .valueError
  | .randomState, v =>
    if fitted then .raise .valueError
    else match v with
      | .none => .store
      | v => if v.intGe 0 then .store else .ignore
  | .verbose, v => .check v.isBool
  | .classWeight, v => match k, v with
    | .regressor, _ => .store
    | .classifier, .none => .store
    | .classifier, v => .check (v.strIn ["balanced"])
  | .multiclass, v => match k with
    | .regressor => .store
    | .classifier => if fitted then .raise .attributeError else .check (v.strIn ["multinomial", "ovr"])
  | .catSplitStrategy, v => match k with
    | .regressor => .store
    | .classifier => if fitted then .raise .attributeError else .check (v.strIn ["binary", "all", "random"])
  | .categoricalFeatures, _ | .subsample, _ | .catMinCategories, _ | .handleUnknown, _ => .store

/-- `forest.p = v`. -/
def assign (p : Param) (v : PyVal K) : Py (PObj K) Unit := fun o =>
  match setter o.kind o.fitted p v with
  | .store => (.ok (), { o with vals := Function.update o.vals p (some v) })
  | .ignore => (.ok (), o)
  | .raise e => (.error e, o)

/-- The arguments of the constructors in the order of the assignments, forest.py:214-231 and 1131-1134. -/
def ctorOrder (k : ForestKind) : List Param :=
  [.nEstimators, .criterion, .loss, .step, .aggregation, .maxDepth, .minSamplesSplit, .minSamplesLeaf, .maxBins, .categoricalFeatures,
    .maxFeatures, .subsample, .catMinCategories, .handleUnknown, .nJobs, .randomState, .verbose] ++
  match k with
  | .regressor => []
  | .classifier => [.dirichlet, .classWeight, .multiclass, .catSplitStrategy]

/-- Several assignments, up to the first exception. -/
def assignEach : List (Param × PyVal K) → Py (PObj K) Unit
  | [] => Py.pure ()
  | (p, v) :: l => do
    assign p v
    assignEach l

/-- The constructors, forest.py:182-231 and 1084-1134; `args` with the defaults. An exception leaves no object behind. Simplification:
`class_weight` and `multiclass`, which are preset to None, do not exist before their assignment here. -/
def construct (k : ForestKind) (args : Param → PyVal K) : M (PObj K) :=
  match assignEach ((ctorOrder k).map fun p => (p, args p)) ⟨k, false, fun _ => none⟩ with
  | (.ok _, o) => .ok o
  | (.error e, _) => .error e

/-- `get_params()` of sklearn's `BaseEstimator`: reads the attribute for each argument of the constructor. -/
def getParams (o : PObj K) : M (List (Param × PyVal K)) :=
  (ctorOrder o.kind).mapM fun p =>
    match o.vals p with
    | some v => .ok (p, v)
    | none => .error .attributeError

/-- The assignments of `set_params`: a name that the constructor does not have raises ValueError when its turn comes. `none`: a name that
is not in `Param`. -/
def setAll : List (Option Param × PyVal K) → Py (PObj K) Unit
  | [] => Py.pure ()
  | (p, v) :: l => do
    let k ← Py.read (·.kind)
    match p with
    | some p =>
      if p ∈ ctorOrder k then do
        assign p v
        setAll l
      else Py.throw .valueError
    | none => Py.throw .valueError

/-- `set_params(**kvs)` of sklearn's `BaseEstimator`: nothing for no arguments; otherwise `get_params` is called first, then the values are
assigned in the order of the keywords. -/
def setParams (kvs : List (Option Param × PyVal K)) : Py (PObj K) Unit := fun o =>
  match kvs with
  | [] => (.ok (), o)
  | kvs =>
    match getParams o with
    | .error e => (.error e, o)
    | .ok _ => setAll kvs o

/-- The value of the attribute in `get_params`. -/
def lookup (l : List (Param × PyVal K)) (p : Param) : PyVal K := ((l.find? fun x => x.1 == p).map (·.2)).getD .none

/-- sklearn's `clone`: the constructor is called with the results of `get_params`, copied (deepcopy of the values; equal here). The check that
the constructor stores its arguments unchanged is left out. -/
def clone (o : PObj K) : M (PObj K) := do
  let l ← getParams o
  construct o.kind (lookup l)

end

/-! ## The estimator model of a forest object -/

section
variable {L V K F P G : Type} [LinearOrder K] [Field K] [FloorSemiring K]

/-- `max_features` of the estimator model. -/
def PyVal.maxFeatures? : PyVal K → Option (MaxFeatures K)
  | .none => some .none
  | .str s => some (.str s)
  | .float x => some (.float x)
  | v => v.int?.map .int

/-- `subsample` of the encoder, encoder.py:726-735: `int(val)` for a float. -/
def PyVal.subsample? : PyVal K → Option (Option Nat)
  | .none => some Option.none
  | .float (some x) => some (some ⌊x⌋₊)
  | v => v.int?.map fun i => some i.toNat

/-- `cat_min_categories` of the estimator model. -/
def PyVal.catMin? : PyVal K → Option CatMin
  | .str s => if s = "log" then some .log else if s = "sqrt" then some .sqrt else Option.none
  | v => v.int?.map fun i => .int i.toNat

/-- `cat_split_strategy` of the estimator model. -/
def PyVal.strategy? : PyVal K → Option CatStrategy
  | .str s => if s = "binary" then some .binary else if s = "all" then some .all else if s = "random" then some .random else Option.none
  | _ => Option.none

/-- `max_depth` of the estimator model. -/
def PyVal.maxDepth? : PyVal K → Option (Option Nat)
  | .none => some Option.none
  | v => v.int?.map fun i => some i.toNat

/-- The estimator of Model/Estimator.lean with the hyperparameters of the object, which is not fitted. `toF`: the number that numba makes of a
Python float; `cats`: the meaning of `categorical_features`. `none` for values that `Est` cannot hold. For a regressor the attributes of
classifiers get fixed values. -/
def PObj.toEst (toF : Option K → F) (cats : PyVal K → CatFeatures) (o : PObj K) : Option (Est L V K F P G) := do
  let ne ← o.vals .nEstimators >>= PyVal.int?
  let step ← o.vals .step >>= fun v => match v with | .float x => some (toF x) | _ => none
  let agg ← o.vals .aggregation
  let depth ← o.vals .maxDepth >>= PyVal.maxDepth?
  let split ← o.vals .minSamplesSplit >>= PyVal.int?
  let leaf ← o.vals .minSamplesLeaf >>= PyVal.int?
  let bins ← o.vals .maxBins >>= PyVal.int?
  let cf ← o.vals .categoricalFeatures
  let mf ← o.vals .maxFeatures >>= PyVal.maxFeatures?
  let sub ← o.vals .subsample >>= PyVal.subsample?
  let cm ← o.vals .catMinCategories >>= PyVal.catMin?
  let hu ← o.vals .handleUnknown
  let base : Est L V K F P G :=
    { fitted := false, nEstimators := ne.toNat, criterion := .gini, step := step, dirichlet := toF (some 0), aggregation := decide (agg = .bool true),
      maxDepth := depth, minSplit := split.toNat, minLeaf := leaf.toNat, maxBins := bins.toNat, categoricalFeatures := cats cf, maxFeatures := mf,
      subsample := sub, catMin := cm, handleUnknownError := decide (hu = .str "error"),
      randomState := (o.vals .randomState).map fun v => v.int?.map Int.toNat,
      balanced := false, ovr := false, strategy := .binary, classes := [], nClasses := 0, nTrees := 0, nClassesPerTree := 0, maxFeatures_ := 0, seeds := [],
      isCategorical_ := [], encoder := none, trees := [], nSamples := 0, nFeatures := 0 }
  match o.kind with
  | .regressor => some base
  | .classifier => do
    let crit ← o.vals .criterion
    let dir ← o.vals .dirichlet >>= fun v => match v with | .float x => some (toF x) | _ => none
    let cw ← o.vals .classWeight
    let mc ← o.vals .multiclass
    let st ← o.vals .catSplitStrategy >>= PyVal.strategy?
    some { base with criterion := if crit = .str "entropy" then .entropy else .gini, dirichlet := dir, balanced := decide (cw = .str "balanced"),
                     ovr := decide (mc = .str "ovr"), strategy := st }

/-- `clone` for the estimator model: `get_params` fails when there is no attribute `random_state`; the constructor sets all other attributes
anew, forest.py:204-212 and 1126-1130. -/
def Est.clone (e : Est L V K F P G) : M (Est L V K F P G) :=
  match e.randomState with
  | none => .error .attributeError
  | some _ => .ok { e with fitted := false, classes := [], nClasses := 0, nTrees := 0, nClassesPerTree := 0, maxFeatures_ := 0, seeds := [],
                           isCategorical_ := [], encoder := none, trees := [], nSamples := 0, nFeatures := 0 }

end

end Verif
