import Verif.Model.Tree

/-! # Growing a tree (/repo/wildwood/_grow.py) -/
namespace Verif

/-- The stack of records, /repo/wildwood/_grow.py:47-84. -/
structure Records (F : Type) where
  capacity : Nat
  top : Nat
  stack : List (Record F)

/-- Contents of the arrays created by `np.empty`. -/
structure Garbage (F : Type) where
  record : Nat → Record F
  bin : Nat → Nat
  buf : Nat → Nat

variable {F Y P G : Type} [Num F]

/-- `Records(capacity)`, _grow.py:75-81. -/
def Records.init (gb : Garbage F) (capacity : Nat) : Records F :=
  { capacity := capacity, top := 0, stack := (List.range capacity).map gb.record }

/-- `push_record`, _grow.py:97-157. -/
def Records.push (gb : Garbage F) (s : Records F) (r : Record F) : M (Records F) := do
  let s ← (if s.capacity ≤ s.top then (do
      let st ← resizeArr gb.record s.stack (s.capacity * 2)
      return { s with capacity := s.capacity * 2, stack := st })
    else .ok s : M (Records F))
  let st ← wr s.stack s.top r
  return { s with stack := st, top := s.top + 1 }

/-- `has_records`, _grow.py:160-182. -/
def Records.nonEmpty (s : Records F) : Bool := decide (0 < s.top)

/-- `pop_node_record`, _grow.py:185-229. -/
def Records.pop (s : Records F) : M (Record F × Records F) := do
  let top ← usub s.top 1
  let r ← rd s.stack top
  return (r, { s with top := top })

/-- State of the loop of `grow`. -/
structure GState (F P G : Type) where
  tree : TreeArr F P
  recs : Records F
  work : Work G

/-- The stopping tests of _grow.py:352-371, before the search of a split. -/
def stopHere (c : Ctx F) (r : Record F) (nTrain nValid : Nat) : Bool :=
  decide (nTrain < c.minSplit) || (c.aggregation && decide (nValid < c.minSplit)) ||
  (match r.impurity with | none => false | some x => Num.le x Num.zero) || decide (c.maxDepth ≤ r.depth)

/-- Choice of the split of a node, _grow.py:375-394. The generator is used by the random strategy. Returns the
split (reset when the node is a leaf for sure) and the generator. -/
def chooseSplit (T : Task F Y P G) (c : Ctx F) (r : Record F) (nc : NodeCtx F Y P) (k : Work G) :
    M (Split F × G) :=
  if stopHere c r nc.nTrain nc.nValid then .ok (Split.reset, k.rng) else findNodeSplit T c nc k.sampled k.rng

/-- What `add_node_tree` receives, _grow.py:375-397: when no split was found the node is a leaf. -/
def Split.info (s : Split F) : SplitInfo :=
  { isLeaf := !s.found, feature := s.feature, bin := s.binThreshold, isCat := s.isCat, partition := s.partition }

/-- The records pushed for the two children, _grow.py:465-512. -/
def leftRecord (r : Record F) (s : Split F) (k posT posV : Nat) : Record F :=
  { parent := some k, depth := r.depth + 1, isLeft := true, impurity := some s.impL
    sT := r.sT, eT := posT, sV := r.sV, eV := posV }

/-- See `leftRecord`. -/
def rightRecord (r : Record F) (s : Split F) (k posT posV : Nat) : Record F :=
  { parent := some k, depth := r.depth + 1, isLeft := false, impurity := some s.impR
    sT := posT, eT := r.eT, sV := posV, eV := r.eV }

/-- Body of `while has_records(records)`, _grow.py:336-512. -/
def growStep (R : Rng G) (T : Task F Y P G) (c : Ctx F) (gb : Garbage F) (s : GState F P G) : M (GState F P G) := do
  let (r, recs) ← s.recs.pop
  let (nc, work) ← computeNodeContext R T c s.work r.sT r.eT r.sV r.eV
  let (sp, g) ← chooseSplit T c r nc work
  let work := { work with rng := g }
  let (tree, k) ← addNode T.zeroP gb.bin s.tree r nc sp.info
  let yPred ← wr tree.yPred k nc.yPred
  let tree := { tree with yPred := yPred }
  if sp.found then
    let (work, posT, posV) ← splitIndices c sp work r.sT r.eT r.sV r.eV
    let recs ← recs.push gb (leftRecord r sp k posT posV)
    let recs ← recs.push gb (rightRecord r sp k posT posV)
    return { tree, recs, work }
  else return { tree, recs, work }

/-- The loop `while has_records(records)`; the first argument bounds the number of iterations. -/
def growLoop (R : Rng G) (T : Task F Y P G) (c : Ctx F) (gb : Garbage F) : Nat → GState F P G → M (GState F P G)
  | 0, s => if s.recs.nonEmpty then .error .fuel else .ok s
  | fuel + 1, s =>
    if s.recs.nonEmpty then do
      let s ← growStep R T c gb s
      growLoop R T c gb fuel s
    else .ok s

/-- `log_sum_2_exp`, /repo/wildwood/_utils.py:103-123. -/
def logSum2Exp (a b : F) : F :=
  let two : F := Num.ofNat 2
  if Num.lt b a then Num.add a (Num.log (Num.div (Num.add Num.one (Num.exp (Num.sub b a))) two))
  else Num.add b (Num.log (Num.div (Num.add Num.one (Num.exp (Num.sub a b))) two))

/-- Body of the loop of `compute_tree_weights`, _grow.py:560-577. -/
def weightStep (step : F) (nodes : List (Node F)) (k : Nat) : M (List (Node F)) := do
  let node ← rd nodes k
  let own := Num.mul (Num.neg step) node.loss
  if node.isLeaf then wr nodes k { node with logW := some own }
  else
    let l ← idx node.left
    let r ← idx node.right
    let ln ← rd nodes l
    let rn ← rd nodes r
    match ln.logW, rn.logW with
    | some lw, some rw => wr nodes k { node with logW := some (logSum2Exp own (Num.add lw rw)) }
    | _, _ => .error .nanRead

/-- `compute_tree_weights`, _grow.py:541-577. -/
def computeTreeWeights (nodes : List (Node F)) (nodeCount : Nat) (step : F) : M (List (Node F)) :=
  (List.range nodeCount).reverse.foldlM (weightStep step) nodes

/-- `grow`, _grow.py:273-522. The number of loop iterations is bounded by twice the number of training samples plus one;
theorem C20 shows that the bound is never reached. -/
def grow (R : Rng G) (T : Task F Y P G) (c : Ctx F) (gb : Garbage F) (t : TreeArr F P) (k : Work G) :
    M (TreeArr F P × Work G) := do
  let t ← resizeTree T.zeroP t (some 2047)
  let recs ← (Records.init gb 10).push gb
    { parent := none, depth := 0, isLeft := false, impurity := none
      sT := 0, eT := k.partTrain.length, sV := 0, eV := k.partValid.length }
  let s ← growLoop R T c gb (2 * k.partTrain.length + 1) { tree := t, recs := recs, work := k }
  if c.aggregation then
    let nodes ← computeTreeWeights s.tree.nodes s.tree.nodeCount c.step
    return ({ s.tree with nodes := nodes }, s.work)
  else return (s.tree, s.work)

/-- The tree before growing: `_TreeClassifier(...)` with capacity 0, /repo/wildwood/tree.py:241-300 and
/repo/wildwood/_tree.py:140-170. -/
def TreeArr.empty : TreeArr F P :=
  { nodes := [], yPred := [], nodeCount := 0, capacity := 0, binParts := [], bpCapacity := 0, bpEnd := 0 }

/-- Initial contents of the modified arrays: `init_tree_context` (/repo/wildwood/_tree_context.py:251-296) and
`init_node_context` (/repo/wildwood/_node.py:446-490), with the generator seeded by `_TreeClassifier.__init__`
(/repo/wildwood/_tree.py:160, 230). -/
def initWork (R : Rng G) (c : Ctx F) (gb : Garbage F) (seed : Nat) (train valid : List Nat) : Work G where
  partTrain := train
  partValid := valid
  leftBuf := (List.range c.fba.nSamples).map gb.buf
  rightBuf := (List.range c.fba.nSamples).map gb.buf
  pool := List.range c.fba.nFeatures
  sampled := List.range c.maxFeatures
  rng := R.seed seed

/-- `TreeClassifier.fit` / `TreeRegressor.fit`, /repo/wildwood/tree.py:241-300 and 380-430: seeds the generator, builds the
contexts and grows. -/
def fitTree (R : Rng G) (T : Task F Y P G) (c : Ctx F) (gb : Garbage F) (seed : Nat) (train valid : List Nat) :
    M (TreeArr F P × Work G) :=
  grow R T c gb TreeArr.empty (initWork R c gb seed train valid)

/-- `recompute_node_predictions` for one node, _grow.py:627-662. The loops are the first-feature parts of the loops of
`compute_node_context`. -/
def recomputeNode (T : Task F Y P G) (c : Ctx F) (k : Work G) (t : TreeArr F P) (i : Nat) : M (TreeArr F P) := do
  let node ← rd t.nodes i
  let (w, p) ← (slice k.partTrain node.sT node.eT).foldlM
    (fun (s : F × P) i => do
      let label ← rd c.y i
      let sw ← rd c.w i
      let p ← T.addP s.2 sw label
      return (Num.add s.1 sw, p)) (Num.zero, T.zeroP)
  let p ← T.endP p w
  let yPred ← wr t.yPred i p
  let loss ← (slice k.partValid node.sV node.eV).foldlM
    (fun (l : F) i => do
      let sw ← rd c.w i
      let label ← rd c.y i
      T.addLoss p l sw label) Num.zero
  let nodes ← wr t.nodes i { node with loss := loss }
  return { t with yPred := yPred, nodes := nodes }

/-- `recompute_node_predictions`, _grow.py:605-666. -/
def recomputePredictions (T : Task F Y P G) (c : Ctx F) (k : Work G) (t : TreeArr F P) : M (TreeArr F P) := do
  let t ← (List.range t.nodeCount).foldlM (recomputeNode T c k) t
  if c.aggregation then
    let nodes ← computeTreeWeights t.nodes t.nodeCount c.step
    return { t with nodes := nodes }
  else return t

end Verif
