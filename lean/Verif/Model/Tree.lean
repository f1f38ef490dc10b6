import Verif.Model.Split

/-! # Tree arrays: growth, insertion of nodes, leaf search, predictions (/repo/wildwood/_tree.py) -/
namespace Verif

/-- A node, `node_dtype` in /repo/wildwood/_node.py:29-112. The sentinels `TREE_UNDEFINED = -2` (parent of the root, feature
and bin_threshold of a leaf) and `TREE_LEAF = -1` (children of a leaf) are `none`. `impurity = none` is `np.inf`,
`logW = none` is `np.nan`. `threshold` is left out (never read). -/
structure Node (F : Type) where
  nodeId : Nat
  parent : Option Nat
  left : Option Nat
  right : Option Nat
  isLeaf : Bool
  isLeft : Bool
  depth : Nat
  feature : Option Nat
  binThr : Option Nat
  impurity : Option F
  loss : F
  logW : Option F
  nTrain : Nat
  nValid : Nat
  wTrain : F
  wValid : F
  sT : Nat
  eT : Nat
  sV : Nat
  eV : Nat
  isCat : Bool
  bpS : Nat
  bpE : Nat

variable {F Y P G : Type} [Num F]

/-- An element of `np.zeros(capacity, dtype=node_dtype)`. -/
def Node.zero : Node F where
  nodeId := 0
  parent := some 0
  left := some 0
  right := some 0
  isLeaf := false
  isLeft := false
  depth := 0
  feature := some 0
  binThr := some 0
  impurity := some Num.zero
  loss := Num.zero
  logW := some Num.zero
  nTrain := 0
  nValid := 0
  wTrain := Num.zero
  wValid := Num.zero
  sT := 0
  eT := 0
  sV := 0
  eV := 0
  isCat := false
  bpS := 0
  bpE := 0

/-- The arrays of `_TreeClassifier` and `_TreeRegressor`, /repo/wildwood/_tree.py:94-238. -/
structure TreeArr (F P : Type) where
  nodes : List (Node F)
  yPred : List P
  nodeCount : Nat
  capacity : Nat
  binParts : List Nat
  bpCapacity : Nat
  bpEnd : Nat

/-- A read index that may be a sentinel: reading at `-1` or `-2` is out of bounds. -/
def idx : Option Nat → M Nat
  | some i => .ok i
  | none => .error .oob

/-- `resize(a, new_size, zeros)`, /repo/wildwood/_utils.py:66-93; `fill` gives the contents of the fresh part (zeros, or
whatever `np.empty` returns). The slice assignment fails when the array shrinks. -/
def resizeArr {α : Type} (fill : Nat → α) (a : List α) (newSize : Nat) : M (List α) :=
  if a.length ≤ newSize then .ok (a ++ (List.range (newSize - a.length)).map fill) else .error .valueError

/-- `resize_tree_`, _tree.py:328-342. -/
def resizeTree' (zeroP : P) (t : TreeArr F P) (capacity : Nat) : M (TreeArr F P) := do
  let nodes ← resizeArr (fun _ => Node.zero) t.nodes capacity
  let yPred ← resizeArr (fun _ => zeroP) t.yPred capacity
  return { t with nodes := nodes, yPred := yPred, capacity := capacity }

/-- `resize_tree`, _tree.py:355-383. -/
def resizeTree (zeroP : P) (t : TreeArr F P) : Option Nat → M (TreeArr F P)
  | none => if t.capacity = 0 then resizeTree' zeroP t 3 else resizeTree' zeroP t (2 * t.capacity)
  | some capacity =>
    if capacity ≤ t.capacity ∧ 0 < t.nodes.length then .ok t else resizeTree' zeroP t capacity

/-- `resize_tree_bin_partitions`, _tree.py:393-446, with a given capacity (the only way it is called). -/
def resizeBinParts (garbage : Nat → Nat) (t : TreeArr F P) (capacity : Nat) : M (TreeArr F P) :=
  if capacity ≤ t.bpCapacity ∧ 0 < t.binParts.length then .ok t
  else do
    let b ← resizeArr garbage t.binParts capacity
    return { t with binParts := b, bpCapacity := capacity }

/-- A node record, /repo/wildwood/_grow.py:34-45. -/
structure Record (F : Type) where
  parent : Option Nat
  depth : Nat
  isLeft : Bool
  impurity : Option F
  sT : Nat
  eT : Nat
  sV : Nat
  eV : Nat

/-- Result of the split search as it is passed to `add_node_tree`. -/
structure SplitInfo where
  isLeaf : Bool
  feature : Nat
  bin : Nat
  isCat : Bool
  partition : List Nat

/-- Write of the child pointer of the parent, _tree.py:630-634. -/
def setChild (nodes : List (Node F)) (r : Record F) (k : Nat) : M (List (Node F)) :=
  match r.parent with
  | none => .ok nodes
  | some p => do
    let pn ← rd nodes p
    wr nodes p (if r.isLeft then { pn with left := some k } else { pn with right := some k })

/-- First part of `add_node_tree`, _tree.py:606-652: write of the fields of the new node and of the child pointer of the
parent. `is_left` is not written. -/
def writeNode (t : TreeArr F P) (r : Record F) (nc : NodeCtx F Y P) (i : SplitInfo) : M (TreeArr F P) := do
  let k := t.nodeCount
  let old ← rd t.nodes k
  let node : Node F :=
    { old with
      nodeId := k, parent := r.parent, depth := r.depth, isLeaf := i.isLeaf, impurity := r.impurity,
      nTrain := nc.nTrain, nValid := nc.nValid, wTrain := nc.wTrain, wValid := nc.wValid,
      sT := r.sT, eT := r.eT, sV := r.sV, eV := r.eV, loss := nc.loss, logW := none }
  let node : Node F :=
    if i.isLeaf then { node with left := none, right := none, feature := none, binThr := none }
    else { node with feature := some i.feature, binThr := some i.bin }
  let nodes ← wr t.nodes k { node with isCat := i.isCat }
  let nodes ← setChild nodes r k
  return { t with nodes := nodes }

/-- Second part of `add_node_tree`, _tree.py:654-668: storage of the set of categories sent left. -/
def writePartition (garbage : Nat → Nat) (t : TreeArr F P) (i : SplitInfo) : M (TreeArr F P) := do
  let k := t.nodeCount
  if i.isCat ∧ 0 < i.partition.length then
    let start := t.bpEnd
    let stop := start + i.partition.length
    let t ← (if t.bpCapacity < stop then resizeBinParts garbage t (stop + 1) else .ok t : M _)
    let bp ← wrSlice t.binParts start stop i.partition
    let node ← rd t.nodes k
    let nodes ← wr t.nodes k { node with bpS := start, bpE := stop }
    return { t with binParts := bp, nodes := nodes, bpEnd := stop }
  else
    let node ← rd t.nodes k
    let nodes ← wr t.nodes k { node with bpS := 0, bpE := 0 }
    return { t with nodes := nodes }

/-- `add_node_tree`, _tree.py:509-668. Returns the index of the node. The write to the parent comes after all writes to the
new node in the model; the order does not matter since they are different nodes (if they were the same node the model
would also disagree with the code, but the theorems about growing show that they are not). -/
def addNode (zeroP : P) (garbage : Nat → Nat) (t : TreeArr F P) (r : Record F) (nc : NodeCtx F Y P) (i : SplitInfo) :
    M (TreeArr F P × Nat) := do
  let k := t.nodeCount
  let t ← (if t.capacity ≤ k then resizeTree zeroP t none else .ok t : M _)
  let t ← writeNode t r nc i
  let t ← writePartition garbage t i
  return ({ t with nodeCount := k + 1 }, k)

/-- One step of the loop of `find_leaf`, _tree.py:709-726: the next node. -/
def childOf (t : TreeArr F P) (fba : FBA) (i : Nat) (node : Node F) : M Nat := do
  let feature ← idx node.feature
  let bin ← fba.getValue i feature
  let goLeft ← (if node.isCat then isBinInPartition bin (slice t.binParts node.bpS node.bpE)
    else (do let b ← idx node.binThr; return decide (bin ≤ b)) : M Bool)
  if goLeft then idx node.left else idx node.right

/-- The loop of `find_leaf`, _tree.py:705-728. -/
def findLeafFrom (t : TreeArr F P) (fba : FBA) (i : Nat) : Nat → Nat → M Nat
  | 0, _ => .error .fuel
  | fuel + 1, k => do
    let node ← rd t.nodes k
    if node.isLeaf then return k
    else
      let k' ← childOf t fba i node
      findLeafFrom t fba i fuel k'

/-- `find_leaf`, _tree.py:689-728. -/
def findLeaf (t : TreeArr F P) (fba : FBA) (i : Nat) : M Nat := findLeafFrom t fba i (t.nodeCount + 1) 0

/-- `tree_apply`, _tree.py:816-840. -/
def treeApply (t : TreeArr F P) (fba : FBA) : M (List Nat) :=
  (List.range fba.nSamples).mapM (findLeaf t fba)

/-- `alpha = 0.5 * exp(-step * loss_valid - log_weight_tree)`, _tree.py:909-911, 984-987, 1073-1076. -/
def nodeAlpha (step : F) (node : Node F) : M F :=
  match node.logW with
  | none => .error .nanRead
  | some lw => .ok (Num.mul Num.half (Num.exp (Num.sub (Num.mul (Num.neg step) node.loss) lw)))

/-- The loop from a leaf up to the root, _tree.py:899-913, 976-989, 1069-1077: `mix alpha node_value value`. -/
def climb {V : Type} (nodes : List (Node F)) (step : F) (val : Nat → M V) (mix : F → V → V → V) :
    Nat → Nat → V → M V
  | 0, _, _ => .error .fuel
  | fuel + 1, k, v =>
    if k ≠ 0 then do
      let node ← rd nodes k
      let p ← idx node.parent
      let pn ← rd nodes p
      let pv ← val p
      let alpha ← nodeAlpha step pn
      climb nodes step val mix fuel p (mix alpha pv v)
    else .ok v

/-- `pred = alpha * node_pred + (1 - alpha) * pred` on floats. -/
def mixF (alpha a b : F) : F := Num.add (Num.mul alpha a) (Num.mul (Num.sub Num.one alpha) b)

/-- The same on vectors of class probabilities. -/
def mixV (alpha : F) (a b : List F) : List F := List.zipWith (mixF alpha) a b

/-- Prediction of a tree for row `i`: one iteration of the loop of `tree_classifier_predict_proba`
(_tree.py:865-918, `mix := mixV`) and of `tree_regressor_predict` (_tree.py:942-994, `mix := mixF`). -/
def predictRow (mix : F → P → P → P) (t : TreeArr F P) (fba : FBA) (aggregation : Bool) (step : F) (i : Nat) : M P := do
  let k ← findLeaf t fba i
  let p ← rd t.yPred k
  if aggregation then climb t.nodes step (rd t.yPred) mix (t.nodeCount + 1) k p else return p

/-- `tree_classifier_predict_proba` and `tree_regressor_predict` on all rows. -/
def treePredict (mix : F → P → P → P) (t : TreeArr F P) (fba : FBA) (aggregation : Bool) (step : F) : M (List P) :=
  (List.range fba.nSamples).mapM (predictRow mix t fba aggregation step)

/-- `tree_regressor_weighted_depth` for row `i`, _tree.py:1042-1081. -/
def weightedDepthRow (t : TreeArr F P) (fba : FBA) (step : F) (i : Nat) : M F := do
  let k ← findLeaf t fba i
  let node ← rd t.nodes k
  climb t.nodes step (fun p => do let n ← rd t.nodes p; return Num.ofNat n.depth) mixF (t.nodeCount + 1) k
    (Num.ofNat node.depth)

end Verif
