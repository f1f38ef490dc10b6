import Verif.Model.Setters

/-! # Pickling of fitted trees and `lighten` (/repo/wildwood/tree.py) -/
namespace Verif

/-- The values of the dictionaries made by `serialize`, /repo/wildwood/tree.py:443-476. Pickle itself is taken to restore such
values exactly. -/
inductive Val (F P : Type) where
  | none
  | bool (b : Bool)
  | nat (n : Nat)
  | int (n : Int)
  | flt (x : F)
  | nats (l : List Nat)
  | words (l : List Word)
  | flts (l : List F)
  | bools (l : List Bool)
  | nodes (l : List (Node F))
  | preds (l : List P)
  | dict (l : List (String × Val F P))

/-- `_TreeClassifier` (`nClasses` given) and `_TreeRegressor` (`nClasses = none`), /repo/wildwood/_tree.py:24-88. -/
structure TreeJit (F P : Type) where
  nFeatures : Nat
  randomState : Int
  maxDepth : Nat
  arr : TreeArr F P
  nClasses : Option Nat

/-- The attributes that only a classifier context has, /repo/wildwood/_tree_context.py:100-111. -/
structure ClsAttrs (F : Type) where
  nClasses : Nat
  strategy : Nat
  dirichlet : F

/-- `TreeClassifierContext` (`cls` given) and `TreeRegressorContext`, /repo/wildwood/_tree_context.py:25-115. -/
structure CtxJit (F : Type) where
  maxNBins : Nat
  c : Ctx F
  train : List Nat
  valid : List Nat
  nSamples : Nat
  nTrain : Nat
  nValid : Nat
  nFeatures : Nat
  partTrain : List Nat
  partValid : List Nat
  leftBuf : List Nat
  rightBuf : List Nat
  criterion : Nat
  cls : Option (ClsAttrs F)

/-- An attribute of a tree object: a compiled object, or a value on which `serialize` does nothing. -/
inductive PyObj (F P : Type) where
  | tree (t : TreeJit F P)
  | ctx (c : CtxJit F)
  | val (v : Val F P)

variable {F P : Type}

/-- `val[key]`: KeyError for a missing key, TypeError on None and other values that are not dictionaries. -/
def Val.get (v : Val F P) (k : String) : M (Val F P) :=
  match v with
  | .dict l => match l.lookup k with
    | some x => .ok x
    | .none => .error .keyError
  | _ => .error .typeError

/-- Conversions at the calls of compiled constructors: a wrong type raises TypeError. -/
def Val.asNat : Val F P → M Nat
  | .nat n => .ok n
  | _ => .error .typeError
/-- See `Val.asNat`. -/
def Val.asInt : Val F P → M Int
  | .int n => .ok n
  | _ => .error .typeError
/-- See `Val.asNat`. -/
def Val.asBool : Val F P → M Bool
  | .bool n => .ok n
  | _ => .error .typeError
/-- See `Val.asNat`. -/
def Val.asFlt : Val F P → M F
  | .flt n => .ok n
  | _ => .error .typeError
/-- See `Val.asNat`. -/
def Val.asNats : Val F P → M (List Nat)
  | .nats n => .ok n
  | _ => .error .typeError
/-- See `Val.asNat`. -/
def Val.asWords : Val F P → M (List Word)
  | .words n => .ok n
  | _ => .error .typeError
/-- See `Val.asNat`. -/
def Val.asFlts : Val F P → M (List F)
  | .flts n => .ok n
  | _ => .error .typeError
/-- See `Val.asNat`. -/
def Val.asBools : Val F P → M (List Bool)
  | .bools n => .ok n
  | _ => .error .typeError
/-- See `Val.asNat`. -/
def Val.asNodes : Val F P → M (List (Node F))
  | .nodes n => .ok n
  | _ => .error .typeError
/-- See `Val.asNat`. -/
def Val.asPreds : Val F P → M (List P)
  | .preds n => .ok n
  | _ => .error .typeError

/-- The numpy assignment `a[:] = v`: an array of length one is broadcast, any other length must be that of `a`. For `y_pred` the
lists are those of the rows; all rows have the same length. -/
def assignAll {α : Type} (a v : List α) : M (List α) :=
  if v.length = a.length then .ok v
  else match v with
    | [x] => .ok (List.replicate a.length x)
    | _ => .error .valueError

/-- `serialize` of a `FeaturesBitArray`, tree.py:451-455: the attributes of `spec_features_bit_array`,
/repo/wildwood/preprocessing/features_bitarray.py:28-49. -/
def FBA.state (b : FBA) : Val F P := .dict
  [("n_samples", .nat b.nSamples), ("n_features", .nat b.nFeatures), ("max_values", .nats b.maxValues), ("n_bits", .nats b.nBits),
   ("offsets", .nats b.offsets), ("n_values_in_words", .nats b.nValuesInWords), ("bitarray", .words b.bitarray), ("bitmasks", .words b.bitmasks)]

/-- `serialize`, tree.py:443-476. -/
def serialize : PyObj F P → Val F P
  | .tree t => .dict ([("n_features", .nat t.nFeatures), ("random_state", .int t.randomState), ("max_depth", .nat t.maxDepth),
      ("node_count", .nat t.arr.nodeCount), ("capacity", .nat t.arr.capacity), ("nodes", .nodes t.arr.nodes),
      ("bin_partitions", .nats t.arr.binParts), ("bin_partitions_capacity", .nat t.arr.bpCapacity), ("bin_partitions_end", .nat t.arr.bpEnd)] ++
      (match t.nClasses with | some n => [("n_classes", .nat n)] | none => []) ++ [("y_pred", .preds t.arr.yPred)])
  | .ctx x => .dict ([("max_n_bins", .nat x.maxNBins), ("features_bitarray", x.c.fba.state), ("y", .flts x.c.y), ("sample_weights", .flts x.c.w),
      ("train_indices", .nats x.train), ("valid_indices", .nats x.valid), ("n_samples", .nat x.nSamples), ("max_depth", .nat x.c.maxDepth),
      ("n_samples_train", .nat x.nTrain), ("n_samples_valid", .nat x.nValid), ("n_features", .nat x.nFeatures), ("max_features", .nat x.c.maxFeatures),
      ("min_samples_split", .nat x.c.minSplit), ("min_samples_leaf", .nat x.c.minLeaf), ("aggregation", .bool x.c.aggregation),
      ("step", .flt x.c.step), ("is_categorical", .bools x.c.isCategorical), ("partition_train", .nats x.partTrain),
      ("partition_valid", .nats x.partValid), ("left_buffer", .nats x.leftBuf), ("right_buffer", .nats x.rightBuf), ("criterion", .nat x.criterion)] ++
      (match x.cls with
        | some a => [("n_classes", .nat a.nClasses), ("cat_split_strategy", .nat a.strategy), ("dirichlet", .flt a.dirichlet)]
        | none => []))
  | .val v => v

/-- Contents of the arrays created by `np.empty` while unpickling. -/
structure PickleGarbage where
  word : Nat → Word
  buf : Nat → Nat

/-- `_TreeClassifier(...)` and `_TreeRegressor(...)`, _tree.py:140-170 and 214-240. The seeding of the compiled generator is left
out: it is not part of the object. `zeroP` is a row of zeros. -/
def TreeJit.new [Num F] (zeroP : P) (nFeatures : Nat) (nClasses : Option Nat) (randomState : Int) (nodeCount capacity bpCapacity bpEnd : Nat) : TreeJit F P :=
  { nFeatures := nFeatures, randomState := randomState, maxDepth := 0, nClasses := nClasses
    arr := { nodes := List.replicate capacity Node.zero, yPred := List.replicate capacity zeroP, nodeCount := nodeCount, capacity := capacity
             binParts := List.replicate bpCapacity 0, bpCapacity := bpCapacity, bpEnd := bpEnd } }

/-- `init_tree_context`, /repo/wildwood/_tree_context.py:251-296, with the constructors of both contexts. -/
def CtxJit.new (buf : Nat → Nat) (fba : FBA) (y w : List F) (train valid : List Nat) (maxFeatures maxDepth minSplit minLeaf : Nat) (aggregation : Bool)
    (step : F) (isCategorical : List Bool) (criterion : Nat) (cls : Option (ClsAttrs F)) : CtxJit F :=
  { maxNBins := colMax fba.maxValues + 1
    c := { fba, y, w, maxFeatures, minSplit, minLeaf, maxDepth, aggregation, step, isCategorical }
    train := train, valid := valid, nSamples := fba.nSamples, nTrain := train.length, nValid := valid.length, nFeatures := fba.nFeatures
    partTrain := train, partValid := valid, leftBuf := (List.range fba.nSamples).map buf, rightBuf := (List.range fba.nSamples).map buf
    criterion := criterion, cls := cls }

/-- The trees in `unserialize`, tree.py:480-521. -/
def unserializeTree [Num F] (zeroP : P) (isCls : Bool) (val : Val F P) : M (TreeJit F P) := do
  let nFeatures ← (← val.get "n_features").asNat
  let nClasses ← (if isCls then (do let n ← (← val.get "n_classes").asNat; return some n) else .ok none : M (Option Nat))
  let randomState ← (← val.get "random_state").asInt
  let nodeCount ← (← val.get "node_count").asNat
  let capacity ← (← val.get "capacity").asNat
  let bpCapacity ← (← val.get "bin_partitions_capacity").asNat
  let bpEnd ← (← val.get "bin_partitions_end").asNat
  let tree := TreeJit.new zeroP nFeatures nClasses randomState nodeCount capacity bpCapacity bpEnd
  let nodes ← assignAll tree.arr.nodes (← (← val.get "nodes").asNodes)
  let yPred ← assignAll tree.arr.yPred (← (← val.get "y_pred").asPreds)
  let binParts ← assignAll tree.arr.binParts (← (← val.get "bin_partitions").asNats)
  return { tree with arr := { tree.arr with nodes := nodes, yPred := yPred, binParts := binParts } }

/-- The `FeaturesBitArray` in `unserialize`, tree.py:523-535 and 569-581. The assignment of `n_features` is left out: the model
has no separate field for it. -/
def unserializeFBA (word : Nat → Word) (val : Val F P) : M FBA := do
  let nSamples ← (← val.get "n_samples").asNat
  let maxValues ← (← val.get "max_values").asNats
  let b := FBA.init word nSamples maxValues
  let _ ← (← val.get "n_features").asNat
  let nBits ← assignAll b.nBits (← (← val.get "n_bits").asNats)
  let offsets ← assignAll b.offsets (← (← val.get "offsets").asNats)
  let nv ← assignAll b.nValuesInWords (← (← val.get "n_values_in_words").asNats)
  let bitarray ← assignAll b.bitarray (← (← val.get "bitarray").asWords)
  let bitmasks ← assignAll b.bitmasks (← (← val.get "bitmasks").asWords)
  return { b with nBits := nBits, offsets := offsets, nValuesInWords := nv, bitarray := bitarray, bitmasks := bitmasks }

/-- The contexts in `unserialize`, tree.py:522-567 and 568-614. -/
def unserializeCtx (g : PickleGarbage) (isCls : Bool) (val : Val F P) : M (CtxJit F) := do
  let fba ← unserializeFBA g.word (← val.get "features_bitarray")
  let y ← (← val.get "y").asFlts
  let w ← (← val.get "sample_weights").asFlts
  let train ← (← val.get "train_indices").asNats
  let valid ← (← val.get "valid_indices").asNats
  let maxDepth ← (← val.get "max_depth").asNat
  let maxFeatures ← (← val.get "max_features").asNat
  let minSplit ← (← val.get "min_samples_split").asNat
  let minLeaf ← (← val.get "min_samples_leaf").asNat
  let aggregation ← (← val.get "aggregation").asBool
  let step ← (← val.get "step").asFlt
  let isCategorical ← (← val.get "is_categorical").asBools
  let criterion ← (← val.get "criterion").asNat
  let cls ← (if isCls then (do
      let nClasses ← (← val.get "n_classes").asNat
      let dirichlet ← (← val.get "dirichlet").asFlt
      let strategy ← (← val.get "cat_split_strategy").asNat
      return some { nClasses, strategy, dirichlet }) else .ok none : M (Option (ClsAttrs F)))
  let x := CtxJit.new g.buf fba y w train valid maxFeatures maxDepth minSplit minLeaf aggregation step isCategorical criterion cls
  let partTrain ← assignAll x.partTrain (← (← val.get "partition_train").asNats)
  let partValid ← assignAll x.partValid (← (← val.get "partition_valid").asNats)
  let leftBuf ← assignAll x.leftBuf (← (← val.get "left_buffer").asNats)
  let rightBuf ← assignAll x.rightBuf (← (← val.get "right_buffer").asNats)
  return { x with partTrain := partTrain, partValid := partValid, leftBuf := leftBuf, rightBuf := rightBuf }

/-- `unserialize`, tree.py:479-617. -/
def unserialize [Num F] (zeroP : P) (g : PickleGarbage) (key : String) (val : Val F P) : M (PyObj F P) :=
  if key = "_tree_classifier" then do return .tree (← unserializeTree zeroP true val)
  else if key = "_tree_regressor" then do return .tree (← unserializeTree zeroP false val)
  else if key = "_tree_classifier_context" then do return .ctx (← unserializeCtx g true val)
  else if key = "_tree_regressor_context" then do return .ctx (← unserializeCtx g false val)
  else return .val val

/-- The `__dict__` of a tree object. -/
abbrev TreeDict (F P : Type) := List (String × PyObj F P)

/-- `TreeBase.__getstate__`, tree.py:144-145. -/
def getstate (d : TreeDict F P) : List (String × Val F P) := d.map fun x => (x.1, serialize x.2)

/-- `TreeBase.__setstate__`, tree.py:147-148. -/
def setstate [Num F] (zeroP : P) (g : PickleGarbage) (s : List (String × Val F P)) : M (TreeDict F P) :=
  s.mapM fun x => do return (x.1, ← unserialize zeroP g x.1 x.2)

variable {G : Type}

/-- The attributes of a tree object that the rest of the model does not need, tree.py:59-103 and 199-239. -/
structure TreeExtra (F P : Type) where
  isCls : Bool
  nClasses : Nat
  strategy : Nat
  criterion : Nat
  randomState : Int
  train : List Nat
  valid : List Nat
  maxDepth : Nat
  minSplit : Nat
  minLeaf : Nat
  maxFeatures : Nat
  isCategorical : List Bool
  loss : Val F P
  categoricalFeatures : Val F P
  verbose : Val F P

/-- The compiled tree of a fitted tree object. -/
def TreeObj.jit (x : TreeExtra F P) (nFeatures : Nat) (o : TreeObj F P G) : TreeJit F P :=
  { nFeatures := nFeatures, randomState := x.randomState, maxDepth := 0, arr := o.arr, nClasses := if x.isCls then some x.nClasses else none }

/-- The compiled context of a fitted tree object: as the constructor made it, with the arrays that growing has modified. -/
def TreeObj.ctxJit (x : TreeExtra F P) (c : Ctx F) (o : TreeObj F P G) : CtxJit F :=
  { maxNBins := c.maxNBins, c := c, train := x.train, valid := x.valid, nSamples := c.fba.nSamples, nTrain := x.train.length
    nValid := x.valid.length, nFeatures := c.fba.nFeatures, partTrain := o.work.partTrain, partValid := o.work.partValid
    leftBuf := o.work.leftBuf, rightBuf := o.work.rightBuf, criterion := x.criterion
    cls := if x.isCls then some ⟨x.nClasses, x.strategy, o.dirichlet⟩ else none }

/-- The `__dict__` of a `TreeClassifier` or `TreeRegressor` after `fit`, in the order of the assignments in the constructors.
After `lighten` the context and the indices are None. -/
def TreeObj.dict (x : TreeExtra F P) (nFeatures : Nat) (o : TreeObj F P G) : TreeDict F P :=
  [("is_classifier", .val (.bool x.isCls)),
   (if x.isCls then "_tree_classifier" else "_tree_regressor", .tree (o.jit x nFeatures)),
   (if x.isCls then "_tree_classifier_context" else "_tree_regressor_context",
      match o.ctx with | some c => .ctx (o.ctxJit x c) | none => .val .none),
   ("_train_indices", match o.ctx with | some _ => .val (.nats x.train) | none => .val .none),
   ("_valid_indices", match o.ctx with | some _ => .val (.nats x.valid) | none => .val .none),
   ("criterion", .val (.nat x.criterion)), ("loss", .val x.loss), ("_step", .val (.flt o.step)), ("aggregation", .val (.bool o.aggregation)),
   ("max_depth", .val (.nat x.maxDepth)), ("min_samples_split", .val (.nat x.minSplit)), ("min_samples_leaf", .val (.nat x.minLeaf)),
   ("categorical_features", .val x.categoricalFeatures), ("is_categorical", .val (.bools x.isCategorical)),
   ("max_features", .val (.nat x.maxFeatures)), ("random_state", .val (.int x.randomState)), ("verbose", .val x.verbose)] ++
  (if x.isCls then [("n_classes", .val (.nat x.nClasses)), ("_dirichlet", .val (.flt o.dirichlet)),
    ("cat_split_strategy", .val (.nat x.strategy))] else [])

/-- `TreeBase.lighten`, tree.py:177-195: the slices `nodes[:node_count]` and `bin_partitions[:bin_partitions_end]`; the recorded
capacities stay. -/
def TreeObj.lighten (o : TreeObj F P G) : TreeObj F P G :=
  { o with
    ctx := none
    arr := { o.arr with nodes := slice o.arr.nodes 0 o.arr.nodeCount, binParts := slice o.arr.binParts 0 o.arr.bpEnd } }

/-- `ForestBase.lighten`, /repo/wildwood/forest.py:650-653. -/
def ForestObj.lighten (f : ForestObj F P G) : ForestObj F P G := { f with trees := f.trees.map fun ts => ts.map TreeObj.lighten }

/-- Attribute access `self.key`. -/
def TreeDict.attr (d : TreeDict F P) (k : String) : M (PyObj F P) :=
  match d.lookup k with
  | some x => .ok x
  | none => .error .attributeError

end Verif
