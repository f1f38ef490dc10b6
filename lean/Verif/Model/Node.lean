import Verif.Model.Task
import Verif.Model.Bitarray

/-! # Node statistics (/repo/wildwood/_node.py and _tree_context.py) -/
namespace Verif

/-- The read-only part of the tree context, /repo/wildwood/_tree_context.py:20-110 and 251-296. `n_classes`,
`dirichlet`, `criterion` and `cat_split_strategy` are in the `Task`. `max_depth=None` is the largest `uintp`. -/
structure Ctx (F : Type) where
  fba : FBA
  y : List F
  w : List F
  maxFeatures : Nat
  minSplit : Nat
  minLeaf : Nat
  maxDepth : Nat
  aggregation : Bool
  step : F
  isCategorical : List Bool

/-- `max_n_bins = features_bitarray.max_values.max() + 1`, /repo/wildwood/_tree_context.py:251-296. -/
def Ctx.maxNBins {F : Type} (c : Ctx F) : Nat := colMax c.fba.maxValues + 1

/-- The arrays of the tree and node contexts that growing modifies, and the generator. -/
structure Work (G : Type) where
  partTrain : List Nat
  partValid : List Nat
  leftBuf : List Nat
  rightBuf : List Nat
  pool : List Nat
  sampled : List Nat
  rng : G

/-- Statistics of the bins of one of the sampled features, i.e. row `f` of the arrays of the node context,
/repo/wildwood/_node.py:124-204. The arrays `non_empty_bins_*[f]` with their counts are the lists of their
first `non_empty_bins_*_count[f]` elements. -/
structure Hist (F Y : Type) where
  nTrain : List Nat
  wTrain : List F
  nValid : List Nat
  wValid : List F
  neTrain : List Nat
  neValid : List Nat
  ySum : List Y

/-- The node context after `compute_node_context`; `hists` has one element per sampled feature. -/
structure NodeCtx (F Y P : Type) where
  hists : List (Hist F Y)
  yPred : P
  nTrain : Nat
  nValid : Nat
  loss : F
  wTrain : F
  wValid : F

variable {F Y P G : Type} [Num F]

/-- Push of a bin at index `count` of `non_empty_bins[f]`, an array of size `max_n_bins`: _node.py:645-650. -/
def pushBin (cap : Nat) (ne : List Nat) (bin : Nat) : M (List Nat) :=
  if ne.length < cap then .ok (ne ++ [bin]) else .error .oob

/-- Accumulators of the loop over features: statistics of the finished features, `w_samples_train`, `w_samples_valid`,
`y_pred`, `loss_valid`. -/
structure NodeAcc (F Y P : Type) where
  hists : List (Hist F Y)
  wTrain : F
  wValid : F
  yPred : P
  loss : F

/-- Body of the loop over the training samples of the node, _node.py:631-656 (classifier), 840-865
(regressor). `first` is `f == 0`. -/
def trainStep (T : Task F Y P G) (c : Ctx F) (j : Nat) (first : Bool) (s : Hist F Y × F × P) (i : Nat) :
    M (Hist F Y × F × P) := do
  let (h, wTrain, yPred) := s
  let bin ← c.fba.getValue i j
  let label ← rd c.y i
  let sw ← rd c.w i
  let wTrain := if first then Num.add wTrain sw else wTrain
  let yPred ← (if first then T.addP yPred sw label else .ok yPred : M _)
  let n ← rd h.nTrain bin
  let ne ← (if n = 0 then pushBin c.maxNBins h.neTrain bin else .ok h.neTrain : M _)
  let nTrain ← wr h.nTrain bin (n + 1)
  let wB ← rd h.wTrain bin
  let wTrainB ← wr h.wTrain bin (Num.add wB sw)
  let yB ← rd h.ySum bin
  let yB ← T.addY yB sw label
  let ySum ← wr h.ySum bin yB
  return ({ h with neTrain := ne, nTrain := nTrain, wTrain := wTrainB, ySum := ySum }, wTrain, yPred)

/-- Body of the loop over the validation samples of the node, _node.py:671-691 (classifier), 872-892
(regressor). -/
def validStep (T : Task F Y P G) (c : Ctx F) (j : Nat) (first : Bool) (yPred : P) (s : Hist F Y × F × F) (i : Nat) :
    M (Hist F Y × F × F) := do
  let (h, wValid, loss) := s
  let bin ← c.fba.getValue i j
  let sw ← rd c.w i
  let wValid := if first then Num.add wValid sw else wValid
  let loss ← (if first then (do let label ← rd c.y i; T.addLoss yPred loss sw label) else .ok loss : M _)
  let n ← rd h.nValid bin
  let ne ← (if n = 0 then pushBin c.maxNBins h.neValid bin else .ok h.neValid : M _)
  let nValid ← wr h.nValid bin (n + 1)
  let wB ← rd h.wValid bin
  let wValidB ← wr h.wValid bin (Num.add wB sw)
  return ({ h with neValid := ne, nValid := nValid, wValid := wValidB }, wValid, loss)

/-- All statistics of a feature set to 0, _node.py:584-595. -/
def Hist.zero (T : Task F Y P G) (cap : Nat) : Hist F Y where
  nTrain := List.replicate cap 0
  wTrain := List.replicate cap Num.zero
  nValid := List.replicate cap 0
  wValid := List.replicate cap Num.zero
  neTrain := []
  neValid := []
  ySum := List.replicate cap T.zeroY

/-- Body of the loop over the sampled features, _node.py:629-693. The test `f == 0` is `hists = []`. -/
def featureStep (T : Task F Y P G) (c : Ctx F) (train valid : List Nat) (a : NodeAcc F Y P) (j : Nat) :
    M (NodeAcc F Y P) := do
  let first := a.hists.isEmpty
  let (h, wTrain, yPred) ← train.foldlM (trainStep T c j first) (Hist.zero T c.maxNBins, a.wTrain, a.yPred)
  let yPred ← (if first then T.endP yPred wTrain else .ok yPred : M _)
  if c.aggregation then
    let (h, wValid, loss) ← valid.foldlM (validStep T c j first yPred) (h, a.wValid, a.loss)
    return { hists := a.hists ++ [h], wTrain, wValid, yPred, loss }
  else
    return { hists := a.hists ++ [h], wTrain, wValid := a.wValid, yPred, loss := a.loss }

/-- `compute_node_classifier_context` and `compute_node_regressor_context` after the sampling of features,
_node.py:582-700 and 787-902: statistics of the node with the training samples
`partition_train[start_train:end_train]` and the validation samples `partition_valid[start_valid:end_valid]`. -/
def nodeStats (T : Task F Y P G) (c : Ctx F) (features train valid : List Nat) (nTrain nValid : Nat) :
    M (NodeCtx F Y P) := do
  let a ← features.foldlM (featureStep T c train valid)
    { hists := [], wTrain := Num.zero, wValid := Num.zero, yPred := T.zeroP, loss := Num.zero }
  return { hists := a.hists, yPred := a.yPred, nTrain, nValid, loss := a.loss, wTrain := a.wTrain, wValid := a.wValid }

/-- Sampling of the features of a node, _node.py:577-582 (`sample_features` is `max_features != n_features`,
_node.py:446-490). -/
def sampleFeatures (R : Rng G) (c : Ctx F) (k : Work G) : M (Work G) := do
  if c.maxFeatures ≠ c.fba.nFeatures then
    let (pool, sampled, g) ← sampleWithoutReplacement R k.rng k.pool k.sampled
    return { k with pool := pool, sampled := sampled, rng := g }
  else return k

/-- `compute_node_context`: sampling of features, then statistics. -/
def computeNodeContext (R : Rng G) (T : Task F Y P G) (c : Ctx F) (k : Work G) (sT eT sV eV : Nat) :
    M (NodeCtx F Y P × Work G) := do
  let k ← sampleFeatures R c k
  let nT ← usub eT sT
  let nV ← usub eV sV
  let nc ← nodeStats T c k.sampled (slice k.partTrain sT eT) (slice k.partValid sV eV) nT nV
  return (nc, k)

end Verif
