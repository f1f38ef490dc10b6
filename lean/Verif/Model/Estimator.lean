import Verif.Model.Encoder
import Verif.Model.Sampling
import Verif.Model.Forest
import Mathlib.Data.List.Sort

/-! # The forest estimators: attributes, `fit` with its side effects, `predict` (/repo/wildwood/forest.py) -/
namespace Verif

/-- Python code that acts on a state: the changes made before an exception stay. -/
def Py (S α : Type) := S → M α × S

namespace Py
variable {S α β : Type}

/-- Sequential composition; an exception ends the computation. -/
def bind (m : Py S α) (f : α → Py S β) : Py S β := fun s =>
  match m s with
  | (.ok a, s') => f a s'
  | (.error e, s') => (.error e, s')

/-- No effect. -/
def pure (a : α) : Py S α := fun s => (.ok a, s)

instance : Monad (Py S) where
  pure := Py.pure
  bind := Py.bind

/-- `raise`. -/
def throw (e : Err) : Py S α := fun s => (.error e, s)
/-- Code without effects on the state. -/
def lift (m : M α) : Py S α := fun s => (m, s)
/-- Reading a part of the state. -/
def read (f : S → α) : Py S α := fun s => (.ok (f s), s)
/-- Assignment. -/
def modify (f : S → S) : Py S Unit := fun s => (.ok (), f s)
/-- `if b: raise e`. -/
def raiseIf (b : Bool) (e : Err) : Py S Unit := if b then throw e else pure ()

end Py

/-- `cat_min_categories`: an integer, "log", or anything else ("sqrt"), encoder.py:190-195. -/
inductive CatMin
  | int (n : Nat)
  | log
  | sqrt

/-- The attributes of `ForestClassifier` and `ForestRegressor`, forest.py:183-231 and 1085-1136, without `loss`, `n_jobs`, `verbose` and the
numbers of threads. `L` is the type of labels. For a regressor the attributes of classifiers are not used. `randomState = none`: the
attribute does not exist. `balanced`: class_weight = "balanced"; `ovr`: multiclass = "ovr". -/
structure Est (L V K F P G : Type) where
  fitted : Bool
  nEstimators : Nat
  criterion : Criterion
  step : F
  dirichlet : F
  aggregation : Bool
  maxDepth : Option Nat
  minSplit : Nat
  minLeaf : Nat
  maxBins : Nat
  categoricalFeatures : CatFeatures
  maxFeatures : MaxFeatures K
  subsample : Option Nat
  catMin : CatMin
  handleUnknownError : Bool
  randomState : Option (Option Nat)
  balanced : Bool
  ovr : Bool
  strategy : CatStrategy
  classes : List L
  nClasses : Nat
  nTrees : Nat
  nClassesPerTree : Nat
  maxFeatures_ : Nat
  seeds : List Nat
  isCategorical_ : List Bool
  encoder : Option (EncCfg K × List (FitCol V K))
  trees : List (TreeObj F P G)
  nSamples : Nat
  nFeatures : Nat

/-- What a call of `fit` can change: the estimator, the array `sample_weight` of the caller, the global numpy generator. -/
structure World (L V K F P G W : Type) where
  self : Est L V K F P G
  weights : List F
  np : W

/-- External code and machine state. `seeded s n`: `RandomState(s).randint(np.iinfo(np.uint32).max, size=n)`; `seededGlobal`: the same on the
global generator; `choice w n k`: `choice(n, k, replace=False)` on the global generator; `depth`: `np.random.randint(3, 51)`; `boot n s`:
`RandomState(s).randint(0, n, n)`; `frames`: stack frames for the recursion in the bootstrap; `flog n`, `fsqrt n`: `floor(log(n))`,
`floor(sqrt(n))`; `cap`: 1e300; `words`, `garbage`: uninitialised memory. -/
structure Lib (V K F G W : Type) where
  seeded : Nat → Nat → List Nat
  seededGlobal : W → Nat → List Nat × W
  choice : W → Nat → Nat → List Nat × W
  depth : W → Nat × W
  boot : Nat → Nat → List Nat
  frames : Nat
  flog : Nat → Nat
  fsqrt : Nat → Nat
  cap : K
  words : Nat → Word
  garbage : Nat → Garbage F
  rng : Rng G
  argsort : List F → List Nat
  conv : Conv V K

/-- The other arguments of `fit`: `X` with its number of rows; `weights`: `none` when `sample_weight` is None, otherwise whether
`_check_sample_weight(…, dtype=np.float32)` returns the array of the caller itself (this is so for a contiguous float32 array) and not a copy;
`targetsOK`: whether `check_classification_targets(y)` accepts the labels. -/
structure FitArgs (N V : Type) where
  X : Dataset N V
  nRows : Nat
  weights : Option Bool
  categorical : CatFeatures
  randomizedDepth : Bool
  targetsOK : Bool

/-- `X.shape[1]`. -/
def Dataset.nFeatures {N V : Type} : Dataset N V → Nat
  | .frame X => X.length
  | .array _ X => X.length

section
variable {L V K F Y P G W N : Type} [LinearOrder L] [DecidableEq V] [DecidableEq N] [LinearOrder K] [Field K] [FloorSemiring K] [Num F]

/-! ## Setters -/

/-- A Python value given for `random_state`. -/
inductive PyState
  | none
  | int (n : Int)
  | other

/-- Setter of `random_state`, forest.py:854-870. The two lines `ValueError(…)` create an exception without raising it. -/
def Est.setRandomState (v : PyState) (e : Est L V K F P G) : M (Est L V K F P G) :=
  if e.fitted then .error .valueError
  else match v with
    | .none => .ok { e with randomState := some .none }
    | .int n => if 0 ≤ n then .ok { e with randomState := some (some n.toNat) } else .ok e
    | .other => .ok e

/-- Reading `random_state`, forest.py:850-852. -/
def Est.getRandomState (e : Est L V K F P G) : M (Option Nat) :=
  match e.randomState with
  | some v => .ok v
  | none => .error .attributeError

/-- Setter of `multiclass` for one of its two values, forest.py:1422-1434. -/
def setMulticlass (ovr : Bool) : Py (World L V K F P G W) Unit := do
  let fitted ← Py.read (·.self.fitted)
  Py.raiseIf fitted .attributeError
  Py.modify fun s => { s with self := { s.self with ovr := ovr } }

/-! ## `fit` -/

/-- `np.unique(y)`: the labels in increasing order. -/
def sortedUnique (y : List L) : List L := y.dedup.insertionSort (· ≤ ·)

/-- `LabelEncoder().fit_transform(y)`: index of each label in the classes. -/
def labelCodes (classes y : List L) : List Nat := y.map fun l => classes.idxOf l

/-- Column `k` of `LabelBinarizer().fit_transform(y)` for at least three classes. -/
def oneHot (classes y : List L) (k : Nat) : List Nat := y.map fun l => if classes.idxOf l = k then 1 else 0

/-- `compute_sample_weight("balanced", y)` of scikit-learn: number of samples divided by number of classes times the number of samples of
the class. -/
def balancedWeights (y : List Nat) : List F :=
  y.map fun k => Num.div (Num.ofNat y.length) (Num.mul (Num.ofNat y.dedup.length) (Num.ofNat (y.count k)))

/-- `if categorical_features is not None: self.categorical_features = categorical_features`, forest.py:301-302. -/
def keepCategorical (cf : CatFeatures) : Py (World L V K F P G W) Unit :=
  match cf with
  | .none => Py.pure ()
  | cf => Py.modify fun s => { s with self := { s.self with categoricalFeatures := cf } }

/-- The beginning of `fit`, forest.py:300-311: returns the weights. -/
def fitChecks (a : FitArgs N V) (nLabels : Nat) : Py (World L V K F P G W) (List F) := do
  keepCategorical a.categorical
  Py.raiseIf (a.nRows != nLabels) .valueError
  match a.weights with
  | none => Py.pure (List.replicate a.nRows Num.one)
  | some _ => do
    let w ← Py.read (·.weights)
    Py.raiseIf (w.length != a.nRows) .valueError
    Py.pure w

/-- `ForestClassifier._encode_y`, forest.py:1138-1183. For two classes `LabelBinarizer` gives one column with the index of the class, for one
class a column of zeros; it raises ValueError when there is no label. -/
def encodeY (y : List L) (targetsOK : Bool) : Py (World L V K F P G W) (List (List Nat)) := do
  let ovr ← Py.read (·.self.ovr)
  Py.raiseIf (!targetsOK) .valueError
  Py.raiseIf (ovr && y.isEmpty) .valueError
  let classes := sortedUnique y
  Py.modify fun s => { s with self := { s.self with classes := classes, nClasses := classes.length } }
  if ovr then
    if classes.length ≤ 2 then do
      setMulticlass false
      Py.pure [labelCodes classes y]
    else Py.pure ((List.range classes.length).map (oneHot classes y))
  else Py.pure [labelCodes classes y]

/-- What the part of `fit` that treats labels and weights gives to the rest. -/
structure FitData (F Y P G : Type) where
  task : F → Task F Y P G
  ovr : Bool
  ys : List (List F)
  ws : List (List F)

/-- An in-place operation on the weights, which changes the array of the caller when `aliased`. -/
def writeBack (aliased : Bool) (w : List F) : Py (World L V K F P G W) Unit :=
  if aliased then Py.modify fun s => { s with weights := w } else Py.pure ()

/-- `fit` of a classifier, forest.py:316-355. In multinomial mode `sample_weight_ *= …` changes the array of the caller when `sample_weight_` is
that array. -/
def prepClassifier (lib : Lib V K F G W) (a : FitArgs N V) (y : List L) (sw : List F) :
    Py (World L V K F (List F) G W) (FitData F (List F) (List F) G) := do
  let ys ← encodeY y a.targetsOK
  let e ← Py.read (·.self)
  Py.raiseIf (e.aggregation && (Num.le e.dirichlet Num.zero && Num.le Num.zero e.dirichlet)) .valueError
  let perTree := if e.ovr then 2 else e.nClasses
  Py.modify fun s => { s with self := { s.self with nTrees := (if e.ovr then e.nClasses * e.nEstimators else e.nEstimators), nClassesPerTree := perTree } }
  let ws := if e.balanced then ys.map fun y => List.zipWith Num.mul sw (balancedWeights y) else ys.map fun _ => sw
  writeBack (e.balanced && !e.ovr && a.weights == some true) (ws.headD [])
  Py.pure ⟨fun d => classifierTask lib.rng lib.argsort perTree d e.criterion e.strategy, e.ovr, ys.map fun y => y.map Num.ofNat, ws⟩

/-- `fit` of a regressor, forest.py:356-357. -/
def prepRegressor (lib : Lib V K F G W) (y sw : List F) : Py (World L V K F F G W) (FitData F (F × F) F G) :=
  Py.pure ⟨fun _ => regressorTask lib.argsort, false, [y], [sw]⟩

/-- `_generate_random_states`, forest.py:233-257. -/
def generateSeeds (lib : Lib V K F G W) : Py (World L V K F P G W) Unit := do
  let e ← Py.read (·.self)
  let rs ← Py.lift e.getRandomState
  match rs with
  | some n => Py.modify fun s => { s with self := { s.self with seeds := lib.seeded n s.self.nEstimators } }
  | none => Py.modify fun s =>
      { s with self := { s.self with seeds := (lib.seededGlobal s.np s.self.nEstimators).1 }, np := (lib.seededGlobal s.np s.self.nEstimators).2 }
  if e.ovr then
    Py.modify fun s => { s with self := { s.self with seeds := s.self.seeds.flatMap fun x => List.replicate s.self.nClasses x } }
  else Py.pure ()

/-- `cat_min_categories_`, encoder.py:190-195. -/
def CatMin.value (lib : Lib V K F G W) (n : Nat) : CatMin → Nat
  | .int k => k
  | .log => max 2 (lib.flog n)
  | .sqrt => max 2 (lib.fsqrt n)

/-- The configuration of the encoder, forest.py:364-370. -/
def Est.encCfg (lib : Lib V K F G W) (e : Est L V K F P G) (n : Nat) (isCategorical : Option (List Bool)) : EncCfg K :=
  { maxBins := e.maxBins, catMin := e.catMin.value lib n, isCategorical := isCategorical, handleUnknownError := e.handleUnknownError, cap := lib.cap }

/-- The checks of the constructor of `Encoder`, encoder.py:118-144 with the setters at lines 610-620, 716-735 and 741-765. Simplifications: `subsample`
is None or an integer here (floats are truncated to integers by line 731), and `handle_unknown` has one of its two values. -/
def Est.encoderAccepts (e : Est L V K F P G) : Bool :=
  decide (3 ≤ e.maxBins) &&
  (match e.subsample with
    | none => true
    | some k => decide (50000 ≤ k)) &&
  (match e.catMin with
    | .int k => decide (3 < k)
    | _ => true)

/-- `get_is_categorical` and the construction of the encoder, forest.py:362-370. `get_is_categorical` sees the argument of `fit`, not the attribute. -/
def Est.newEncoder (e : Est L V K F P G) (cf : CatFeatures) (d : Nat) : M (Option (List Bool)) := do
  let ic ← getIsCategorical cf d
  if e.encoderAccepts then .ok ic else .error .valueError

/-- The random subset of the rows, encoder.py:184-188. The encoder gets no `random_state` from `fit` (forest.py:364-370), so the global
generator is used. Simplification: drawn before the checks of `check_X`. -/
def encoderSubset (lib : Lib V K F G W) (n : Nat) : Py (World L V K F P G W) (Option (List Nat)) := do
  let subsample ← Py.read (·.self.subsample)
  match subsample with
  | none => Py.pure none
  | some k =>
    if k < n then do
      let np ← Py.read (·.np)
      Py.modify fun s => { s with np := (lib.choice np n k).2 }
      Py.pure (some (lib.choice np n k).1)
    else Py.pure none

/-- The depths of `k` trees, forest.py:391 and 416: drawn from the global generator with `randomized_depth=True`. -/
def treeDepths (lib : Lib V K F G W) (randomized : Bool) (maxDepth : Nat) : Nat → Py (World L V K F P G W) (List Nat)
  | 0 => Py.pure []
  | k + 1 => do
    let d ← (if randomized then do
        let np ← Py.read (·.np)
        Py.modify fun s => { s with np := (lib.depth np).2 }
        Py.pure (lib.depth np).1
      else Py.pure maxDepth : Py _ Nat)
    let l ← treeDepths lib randomized maxDepth k
    Py.pure (d :: l)

/-- `encoder.is_categorical_`. -/
def FitCol.isCat : FitCol V K → Bool
  | .cat _ => true
  | .num _ => false

/-- The trees, forest.py:384-465, one after the other here, see C38. `mf`, `isCat`, `fba`, `seeds`, `depths`: max_features_, is_categorical_,
features_bitarray, _random_states_trees (the same array as _random_states_bootstrap) and the depths of the trees. -/
def growTrees (lib : Lib V K F G W) (n : Nat) (p : FitData F Y P G) (e : Est L V K F P G) (mf : Nat) (isCat : List Bool) (fba : FBA)
    (seeds depths : List Nat) : M (List (TreeObj F P G)) :=
  (seeds.zip depths).zipIdx.mapM fun ((seed, depth), i) => do
    let y ← rd p.ys (if p.ovr then i / e.nEstimators else 0)
    let w ← rd p.ws (if p.ovr then i / e.nEstimators else 0)
    buildTree lib.rng p.task (lib.boot n) lib.frames
      { fba := fba, y := y, w := w, maxFeatures := mf, minSplit := e.minSplit, minLeaf := e.minLeaf, maxDepth := depth, aggregation := e.aggregation,
        step := e.step, isCategorical := isCat } (lib.garbage i) e.dirichlet seed

/-- The second half of `fit`, forest.py:351-470. -/
def fitRest (lib : Lib V K F G W) (a : FitArgs N V) (p : FitData F Y P G) : Py (World L V K F P G W) Unit := do
  let e ← Py.read (·.self)
  let mf ← Py.lift (getMaxFeatures e.maxFeatures a.X.nFeatures)
  Py.modify fun s => { s with self := { s.self with maxFeatures_ := mf } }
  generateSeeds lib
  let ic ← Py.lift (e.newEncoder a.categorical a.X.nFeatures)
  let subset ← encoderSubset lib a.nRows
  let enc ← Py.lift (encoderFit lib.conv (e.encCfg lib a.nRows ic) subset a.X)
  Py.modify fun s => { s with self := { s.self with isCategorical_ := enc.map FitCol.isCat } }
  let fba ← Py.lift (encoderTransform lib.conv (e.encCfg lib a.nRows ic) enc lib.words a.nRows a.X)
  Py.modify fun s => { s with self := { s.self with encoder := some (e.encCfg lib a.nRows ic, enc) } }
  let seeds ← Py.read (·.self.seeds)
  let depths ← treeDepths lib a.randomizedDepth (e.maxDepth.getD (2 ^ 64 - 1)) seeds.length
  let trees ← Py.lift (growTrees lib a.nRows p e mf (enc.map FitCol.isCat) fba seeds depths)
  Py.modify fun s => { s with self := { s.self with trees := trees, fitted := true, nSamples := a.nRows, nFeatures := a.X.nFeatures } }

/-- `ForestClassifier.fit`, forest.py:266-470. -/
def fitClassifier (lib : Lib V K F G W) (a : FitArgs N V) (y : List L) : Py (World L V K F (List F) G W) Unit := do
  let sw ← fitChecks a y.length
  let p ← prepClassifier lib a y sw
  fitRest lib a p

/-- `ForestRegressor.fit`, forest.py:266-470. -/
def fitRegressor (lib : Lib V K F G W) (a : FitArgs N V) (y : List F) : Py (World L V K F F G W) Unit := do
  let sw ← fitChecks a y.length
  let p ← prepRegressor lib y sw
  fitRest lib a p

/-! ## Predictions -/

/-- `_predict_helper`, forest.py:640-648. `check_is_fitted` finds attributes ending with an underscore already before `fit`, so that an estimator
that is not fitted fails at `self._encoder.transform` where `_encoder` is None. -/
def Est.encode (lib : Lib V K F G W) (e : Est L V K F P G) (n : Nat) (X : Dataset N V) : M FBA :=
  match e.encoder with
  | none => .error .attributeError
  | some (cfg, enc) => encoderTransform lib.conv cfg enc lib.words n X

/-- `ForestClassifier.predict_proba`, forest.py:1226-1277, one tree after the other, see C39. -/
def Est.predictProba (lib : Lib V K F G W) (eps : F) (e : Est L V K F (List F) G) (n : Nat) (X : Dataset N V) : M (List (List F)) := do
  let fba ← e.encode lib n X
  if !e.fitted then .error .valueError
  else if e.ovr then predictProbaOvr eps e.nClasses e.nEstimators e.trees fba
  else Verif.predictProba e.nClasses e.trees fba

/-- `ForestClassifier.predict`, forest.py:1205-1224. -/
def Est.predict (lib : Lib V K F G W) (eps : F) (e : Est L V K F (List F) G) (n : Nat) (X : Dataset N V) : M (List L) := do
  let p ← e.predictProba lib eps n X
  predictLabels e.classes p

/-- `ForestRegressor.predict`, forest.py:1628-1657. -/
def Est.predictReg (lib : Lib V K F G W) (e : Est L V K F F G) (n : Nat) (X : Dataset N V) : M (List F) := do
  let fba ← e.encode lib n X
  forestPredict e.trees fba

end

end Verif
