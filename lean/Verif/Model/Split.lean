import Mathlib.Data.List.Sort
import Verif.Model.Node

/-! # Search of the best split and partition of the samples (/repo/wildwood/_split.py) -/
namespace Verif

/-- The split objects, /repo/wildwood/_split.py:60-280. `gain = none` is `-np.inf`. `bins` is `bins[:bins_count]` and
`partition` is `bin_partition[:bin_partition_size]`. The fields `y_sum_left`, `y_sum_right` and their squares are left
out: they are written but never read. -/
structure Split (F : Type) where
  bins : List Nat
  found : Bool
  isCat : Bool
  gain : Option F
  feature : Nat
  binThreshold : Nat
  partition : List Nat
  nTrainL : Nat
  nTrainR : Nat
  nValidL : Nat
  nValidR : Nat
  wTrainL : F
  wTrainR : F
  impL : F
  impR : F

variable {F Y P G : Type} [Num F]

/-- `reset_split`, _split.py:294-320. -/
def Split.reset : Split F where
  bins := []
  found := false
  isCat := false
  gain := none
  feature := 0
  binThreshold := 0
  partition := []
  nTrainL := 0
  nTrainR := 0
  nValidL := 0
  nValidR := 0
  wTrainL := Num.zero
  wTrainR := Num.zero
  impL := Num.zero
  impR := Num.zero

/-- `gain_proxy > best_split.gain_proxy`, _split.py:557 and 954. -/
def gainGt (g : F) : Option F → Bool
  | none => Num.gtNegInf g
  | some b => Num.lt b g

/-- Running counts and sums of the loop over the bins. -/
structure TryAcc (F Y : Type) where
  nL : Nat
  nR : Nat
  wL : F
  wR : F
  yL : Y
  yR : Y
  vL : Nat

/-- `for bin_threshold in ordered_bins_train[:-1]`, _split.py:500-578 (classifier) and 907-977 (regressor). The first list
argument holds the bins still to come. `ordered` is the whole order, saved in the split. -/
def tryBins (T : Task F Y P G) (c : Ctx F) (nc : NodeCtx F Y P) (h : Hist F Y) (feature : Nat) (isCat : Bool)
    (cumsum ordered : List Nat) : List Nat → TryAcc F Y → Split F → M (Split F)
  | [], _, best => .ok best
  | bin :: bins, a, best => do
    let n ← rd h.nTrain bin
    let w ← rd h.wTrain bin
    let y ← rd h.ySum bin
    let nL := a.nL + n
    let wL := Num.add a.wL w
    let nR ← usub a.nR n
    let wR := Num.sub a.wR w
    let yL := T.plusY a.yL y
    let yR := T.minusY a.yR y
    let vL ← (if isCat then (do let v ← rd h.nValid bin; return a.vL + v) else rd cumsum bin : M _)
    let vR ← usub nc.nValid vL
    let a := { nL, nR, wL, wR, yL, yR, vL : TryAcc F Y }
    if nL < c.minLeaf ∨ (c.aggregation = true ∧ vL < c.minLeaf) then
      tryBins T c nc h feature isCat cumsum ordered bins a best
    else if nR < c.minLeaf ∨ (c.aggregation = true ∧ vR < c.minLeaf) then
      .ok best
    else
      let (iL, iR) ← T.childs wL wR yL yR
      let gain := informationGainProxy iL iR wL wR
      if gainGt gain best.gain then
        if ordered.length ≤ c.maxNBins then
          tryBins T c nc h feature isCat cumsum ordered bins a
            { best with
              found := true, gain := some gain, feature := feature, binThreshold := bin, impL := iL, impR := iR,
              nTrainL := nL, nTrainR := nR, wTrainL := wL, wTrainR := wR, nValidL := vL, nValidR := vR,
              isCat := isCat, bins := ordered }
        else .error .oob
      else tryBins T c nc h feature isCat cumsum ordered bins a best

/-- `try_feature_order_for_classifier_split`, _split.py:452-578, and the same code inside
`find_best_split_regressor_along_feature`, _split.py:855-977. -/
def tryOrder (T : Task F Y P G) (c : Ctx F) (nc : NodeCtx F Y P) (h : Hist F Y) (feature : Nat) (isCat : Bool)
    (cumsum ordered : List Nat) (best : Split F) : M (Split F) :=
  tryBins T c nc h feature isCat cumsum ordered ordered.dropLast
    { nL := 0, nR := nc.nTrain, wL := Num.zero, wR := nc.wTrain, yL := T.zeroY, yR := h.ySum.foldl T.plusY T.zeroY
      vL := 0 } best

/-- The `while` loop of _split.py:746-751 and 899-904. State: `idx_valid`, `bin_test`, `cum_valid_left`. -/
def cumWhile (nValid binsValid : List Nat) (binTrain : Nat) : Nat → Nat × Nat × Nat → M (Nat × Nat × Nat)
  | 0, _ => .error .fuel
  | fuel + 1, (idx, binTest, cum) =>
    if binTest ≤ binTrain ∧ idx < binsValid.length then do
      let v ← rd nValid binTest
      let cum := cum + v
      let idx := idx + 1
      if idx = binsValid.length then return (idx, binTest, cum)
      else
        let binTest ← rd binsValid idx
        cumWhile nValid binsValid binTrain fuel (idx, binTest, cum)
    else .ok (idx, binTest, cum)

/-- Number of validation samples on the left of each training bin, _split.py:741-752 and 894-905. -/
def cumsumValid (nValid binsTrain binsValid cumsum : List Nat) : M (List Nat) := do
  let binTest ← rd binsValid 0
  let (_, cumsum) ← binsTrain.foldlM
    (fun (s : (Nat × Nat × Nat) × List Nat) binTrain => do
      let st ← cumWhile nValid binsValid binTrain (binsValid.length + 1) s.1
      let cumsum ← wr s.2 binTrain st.2.2
      return (st, cumsum))
    ((0, binTest, 0), cumsum)
  return cumsum

/-- `np.sort` of an array of bins, _split.py:729-730, 891-892, 1078. Any sorting algorithm gives the same result on integers. -/
def sortNat (l : List Nat) : List Nat := l.insertionSort (· ≤ ·)

/-- `find_best_split_classifier_along_feature`, _split.py:618-764, and `find_best_split_regressor_along_feature`,
_split.py:819-977. -/
def findBestAlong (T : Task F Y P G) (c : Ctx F) (nc : NodeCtx F Y P) (h : Hist F Y) (feature : Nat) (best : Split F)
    (g : G) : M (Split F × G) := do
  let isCat ← rd c.isCategorical feature
  let cumsum := List.replicate h.nTrain.length 0
  if isCat then
    let (orders, g) ← T.orders h.neTrain h.ySum g
    let best ← orders.foldlM (fun best o => tryOrder T c nc h feature true cumsum o best) best
    return (best, g)
  else
    let binsTrain := sortNat h.neTrain
    let binsValid := sortNat h.neValid
    let cumsum ← (if c.aggregation then cumsumValid h.nValid binsTrain binsValid cumsum else .ok cumsum : M _)
    let best ← tryOrder T c nc h feature false cumsum binsTrain best
    return (best, g)

/-- The search loop of `compute_bin_partition`, _split.py:1068-1074: the number of bins up to the threshold. -/
def partitionSize (bins : List Nat) (thr : Nat) : Nat → Nat → M Nat
  | 0, _ => .error .fuel
  | fuel + 1, idx => do
    let b ← rd bins idx
    if b ≠ thr then partitionSize bins thr fuel (idx + 1) else return (idx + 1)

/-- `compute_bin_partition`, _split.py:1052-1079. -/
def computeBinPartition (c : Ctx F) (s : Split F) : M (Split F) := do
  let n ← partitionSize s.bins s.binThreshold (s.bins.length + 1) 0
  if n ≤ c.maxNBins then return { s with partition := sortNat (s.bins.take n) } else .error .oob

/-- `find_node_split`, _split.py:994-1034. -/
def findNodeSplit (T : Task F Y P G) (c : Ctx F) (nc : NodeCtx F Y P) (sampled : List Nat) (g : G) :
    M (Split F × G) := do
  let (best, g) ← ((List.range sampled.length).zip sampled).foldlM
    (fun (s : Split F × G) (p : Nat × Nat) => do
      let h ← rd nc.hists p.1
      if 1 < h.neTrain.length then findBestAlong T c nc h p.2 s.1 s.2 else return s)
    (Split.reset, g)
  if best.found && best.isCat then
    let best ← computeBinPartition c best
    return (best, g)
  else return (best, g)

/-- The binary search of `is_bin_in_partition`, _split.py:1109-1122. `left`, `right` are signed. -/
def partSearch (l : List Nat) (bin : Nat) : Nat → Int → Int → M Bool
  | 0, _, _ => .error .fuel
  | fuel + 1, left, right =>
    if left ≤ right then do
      let middle := (left + right) / 2
      if middle < 0 then .error .oob
      else
        let v ← rd l middle.toNat
        if v = bin then return true
        else if v < bin then partSearch l bin fuel (middle + 1) right
        else partSearch l bin fuel left (middle - 1)
    else .ok false

/-- `is_bin_in_partition`, _split.py:1090-1122. For an empty array `right` is -1. -/
def isBinInPartition (bin : Nat) (l : List Nat) : M Bool :=
  if l.length = 1 then do
    let v ← rd l 0
    return decide (v = bin)
  else partSearch l bin (l.length + 1) 0 ((l.length : Int) - 1)

/-- The test that sends a sample to the left child, _split.py:1227 and 1236. -/
def splitTest (s : Split F) (bin : Nat) : M Bool :=
  if s.isCat then isBinInPartition bin s.partition else .ok (decide (bin ≤ s.binThreshold))

/-- One of the loops of `split_indices` over the samples of a node with the writes back to the partition,
_split.py:1222-1246 (training samples) and 1250-1275 (validation samples). Returns the partition, the two
buffers and `pos`. -/
def splitSide (c : Ctx F) (s : Split F) (part leftBuf rightBuf : List Nat) (start stop : Nat) :
    M (List Nat × List Nat × List Nat × Nat) := do
  let (lb, rb, nl, nr) ← (slice part start stop).foldlM
    (fun (st : List Nat × List Nat × Nat × Nat) i => do
      let (lb, rb, nl, nr) := st
      let bin ← c.fba.getValue i s.feature
      let b ← splitTest s bin
      if b then
        let lb ← wr lb nl i
        return (lb, rb, nl + 1, nr)
      else
        let rb ← wr rb nr i
        return (lb, rb, nl, nr + 1))
    (leftBuf, rightBuf, 0, 0)
  let pos := start + nl
  let part ← wrSlice part start pos (slice lb 0 nl)
  let part ← wrSlice part pos stop (slice rb 0 nr)
  return (part, lb, rb, pos)

/-- `split_indices`, _split.py:1156-1283. Returns `pos_train`, `pos_valid`. -/
def splitIndices (c : Ctx F) (s : Split F) (k : Work G) (sT eT sV eV : Nat) : M (Work G × Nat × Nat) := do
  let (pt, lb, rb, posT) ← splitSide c s k.partTrain k.leftBuf k.rightBuf sT eT
  let (pv, lb, rb, posV) ← splitSide c s k.partValid lb rb sV eV
  return ({ k with partTrain := pt, partValid := pv, leftBuf := lb, rightBuf := rb }, posT, posV)

end Verif
