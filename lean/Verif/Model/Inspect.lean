import Verif.Model.Estimator
import Mathlib.Data.Prod.Lex

/-! # Inspection of fitted trees and forests: apply, per-tree predictions, node tables, paths, depths, drawings -/
namespace Verif

section
variable {F P G : Type}

/-! ## Node tables -/

/-- The column `bin_partition` of `get_nodes`: the set of categories of a categorical split, otherwise the threshold (`none`: undefined). The code
stores their printed forms. -/
inductive PartitionCell
  | bins (l : List Nat)
  | threshold (b : Option Nat)

/-- `get_nodes`, /repo/wildwood/_tree.py:246-300: the columns of the node table, which are all fields of `Node`, and `bin_partition`, for the nodes
below `node_count`. Not modelled: the column `threshold`, which is the constant 0.42 for all inner nodes (_grow.py:399-401). -/
def getNodes (t : TreeArr F P) : List (Node F × PartitionCell) :=
  (t.nodes.take t.nodeCount).map fun n => (n, if n.isCat then .bins (slice t.binParts n.bpS n.bpE) else .threshold n.binThr)

/-- `get_nodes_classifier` and `get_nodes_regressor`, _tree.py:303-318: the same with the column `y_pred` (printed with two digits for a classifier).
Adding a column of another length raises ValueError. -/
def getNodesPred (t : TreeArr F P) : M (List ((Node F × PartitionCell) × P)) :=
  if (getNodes t).length = (t.yPred.take t.nodeCount).length then .ok ((getNodes t).zip (t.yPred.take t.nodeCount)) else .error .valueError

/-- Python's `max` of a list; ValueError if it is empty. -/
def pyMax : List Nat → M Nat
  | [] => .error .valueError
  | a :: l => .ok (l.foldl max a)

/-- `TreeBase.get_actual_depth`, /repo/wildwood/tree.py:119-121. -/
def getActualDepth (t : TreeArr F P) : M Nat := do
  let nd ← getNodesPred t
  pyMax (nd.map fun r => r.1.1.depth)

/-- The names of the instance attributes of a fitted `TreeClassifier` or `TreeRegressor`: assigned in `__init__` and `fit`, tree.py:76-100, 233-239,
295-299, 420-424. -/
def treeAttributes (isClassifier : Bool) : List String :=
  ["is_classifier", "_train_indices", "_valid_indices", "criterion", "loss", "_step", "aggregation", "max_depth", "min_samples_split",
    "min_samples_leaf", "categorical_features", "is_categorical", "max_features", "random_state", "verbose"] ++
  if isClassifier then ["_tree_classifier", "_tree_classifier_context", "n_classes", "_dirichlet", "cat_split_strategy"]
  else ["_tree_regressor", "_tree_regressor_context"]

/-- `check_is_fitted(estimator)` of scikit-learn 1.3: some attribute ends with an underscore and does not start with two. Its NotFittedError is a
ValueError. -/
def checkIsFitted (attrs : List String) : M Unit :=
  if attrs.any fun a => a.toList.getLast? = some '_' ∧ a.toList.take 2 ≠ ['_', '_'] then .ok () else .error .valueError

/-- `TreeBase.get_depth`, tree.py:102-117. The field `max_depth` of the compiled tree is set to 0 when the tree is created (_tree.py:155 and 225) and
never changed. -/
def getDepth (isClassifier : Bool) (_t : TreeArr F P) : M Nat := do
  checkIsFitted (treeAttributes isClassifier)
  return 0

/-- `TreeBase.get_n_leaves`, tree.py:123-135. The compiled tree has no field `n_leaves`, _tree.py:39-92. -/
def getNLeaves (isClassifier : Bool) (_t : TreeArr F P) : M Nat := do
  checkIsFitted (treeAttributes isClassifier)
  .error .attributeError

/-! ## Paths -/

/-- A row of the table that `sample_path_leaf` builds. The column `decision` is kept as its first word: `left = true` for "left: …". -/
structure PathRow where
  depth : Nat
  feature : Nat
  isCat : Bool
  cell : PartitionCell
  left : Bool

/-- Index of a Python array at a field that may be a sentinel: these are huge unsigned numbers here, so that the access raises IndexError. -/
def pyIdx : Option Nat → M Nat
  | some i => .ok i
  | none => .error .indexError

/-- Checked read in Python code. -/
def pyRd {α : Type} (a : List α) (i : Nat) : M α :=
  match a[i]? with
  | some x => .ok x
  | none => .error .indexError

/-- One iteration of the loop of `sample_path_leaf`, _tree.py:755-791: the new row and the next node. -/
def pathStep (t : TreeArr F P) (xi : List Nat) (node : Node F) : M (PathRow × Nat) := do
  let f ← pyIdx node.feature
  let bin ← pyRd xi f
  let part := slice t.binParts node.bpS node.bpE
  let thr ← pyIdx (if node.isCat then some 0 else node.binThr)
  let goLeft ← (if node.isCat then isBinInPartition bin part else .ok (decide (bin ≤ thr)) : M Bool)
  let next ← (if goLeft then pyIdx node.left else pyIdx node.right : M Nat)
  return (⟨node.depth, f, node.isCat, if node.isCat then .bins part else .threshold (some thr), goLeft⟩, next)

/-- The loop of `sample_path_leaf`: the test whether the node is a leaf comes after the first step. -/
def pathFrom (t : TreeArr F P) (xi : List Nat) : Nat → Nat → M (List PathRow)
  | 0, _ => .error .fuel
  | fuel + 1, k => do
    let node ← pyRd t.nodes k
    let (row, k') ← pathStep t xi node
    let node' ← pyRd t.nodes k'
    if node'.isLeaf then return [row]
    else do
      let rest ← pathFrom t xi fuel k'
      return row :: rest

/-- `sample_path_leaf`, _tree.py:739-807, for a row of bins. -/
def samplePathLeaf (t : TreeArr F P) (xi : List Nat) : M (List PathRow) := pathFrom t xi (t.nodeCount + 1) 0

/-- `path_leaf`, _tree.py:731-736. -/
def pathLeaf (t : TreeArr F P) (X : List (List Nat)) : M (List (List PathRow)) := X.mapM (samplePathLeaf t)

end

section
variable {L V K F P G W N : Type} [LinearOrder L] [DecidableEq V] [DecidableEq N] [LinearOrder K] [Field K] [FloorSemiring K] [Num F]

/-! ## Methods of forests -/

/-- `ForestBase.path_leaf`, /repo/wildwood/forest.py:658-662. `converts`: whether `check_array(X, accept_sparse="csr", dtype=np.float32)` accepts `X`. The
method `_bin_data` is commented out (forest.py:611-638), so that its call raises AttributeError. -/
def Est.pathLeaf (_e : Est L V K F P G) (converts : Bool) (_X : Dataset N V) (_treeIdx : Nat) : M (List (List PathRow)) := do
  if !converts then .error .valueError
  else .error .attributeError

/-- `ForestBase.apply`, forest.py:472-501 with `_parallel_tree_apply`, forest.py:167-170: row `t` of the result is written by tree `t`. -/
def Est.apply (lib : Lib V K F G W) (e : Est L V K F P G) (n : Nat) (X : Dataset N V) : M (List (List Nat)) := do
  let fba ← e.encode lib n X
  e.trees.mapM fun o => treeApply o.arr fba

/-- `_validate_X_predict(X)`, forest.py:507-524, with scikit-learn 1.3: `n_features_in_` (forest.py:899-904) raises ValueError before fit; another
number of features raises ValueError. -/
def Est.checkNFeatures (e : Est L V K F P G) (X : Dataset N V) : M Unit :=
  if !e.fitted then .error .valueError else if X.nFeatures ≠ e.nFeatures then .error .valueError else .ok ()

/-- `out[tree_idx] = prediction` (forest.py:161-164) for a slot of `n` rows and `cols` columns: numpy repeats a prediction with one column and raises
ValueError for other shapes. (It would repeat a prediction with one row too; the predictions always have one row per sample.) -/
def storeMat (n cols : Nat) (p : List (List F)) : M (List (List F)) :=
  if p.map List.length = List.replicate n cols then .ok p
  else if p.map List.length = List.replicate n 1 then .ok (p.map fun r => List.replicate cols (r.headD Num.zero))
  else .error .valueError

/-- `ForestClassifier.predict_proba_trees`, forest.py:1279-1331. -/
def Est.predictProbaTrees (lib : Lib V K F G W) (e : Est L V K F (List F) G) (n : Nat) (X : Dataset N V) : M (List (List (List F))) := do
  e.checkNFeatures X
  let fba ← e.encode lib n X
  e.trees.mapM fun o => do
    let p ← o.predict mixV fba
    storeMat n (if 2 < e.nClasses ∧ e.ovr then 2 else e.nClasses) p

/-- `ForestRegressor.predict_trees`, forest.py:1679-1717: calls `_bin_data`, which does not exist. -/
def Est.predictTrees (e : Est L V K F F G) (X : Dataset N V) : M (List (List F)) := do
  e.checkNFeatures X
  .error .attributeError

/-- `ForestRegressor._weighted_depth`, forest.py:1659-1677 with `_compute_weighted_depth`, forest.py:154-158 and `TreeRegressor.weighted_depth`,
tree.py:438-439: slot `t` of an array with `n_estimators` rows is written by tree `t`. A regressor has `n_estimators` trees. -/
def Est.weightedDepth (lib : Lib V K F G W) (e : Est L V K F F G) (n : Nat) (X : Dataset N V) : M (List (List F)) := do
  let fba ← e.encode lib n X
  e.trees.mapM fun o => (List.range fba.nSamples).mapM (weightedDepthRow o.arr fba o.step)

end

/-! ## Drawing of a tree -/

section
variable {F P : Type} [Num F]

/-- `0.5 ** k`. -/
def halfPow : Nat → F
  | 0 => Num.one
  | k + 1 => Num.mul (halfPow k) Num.half

/-- The columns `x`, `x0`, `y0` of the drawing, indexed by node. -/
structure Drawing (F : Type) where
  x : List F
  x0 : List F
  y0 : List Nat

/-- The order of `sort_values(by=["depth", "parent", "node_id"])`, /repo/wildwood/plot.py:12; the parent of the root is `2^64 - 2`. -/
def drawBefore (a b : Node F) : Prop :=
  toLex (a.depth, toLex (a.parent.getD (2 ^ 64 - 2), a.nodeId)) ≤ toLex (b.depth, toLex (b.parent.getD (2 ^ 64 - 2), b.nodeId))

instance : DecidableRel (drawBefore (F := F)) := fun a b => by unfold drawBefore; infer_instance

/-- Read of a cell of a data frame whose labels are `0, …, n - 1`. -/
def atLabel {α : Type} (a : List α) (i : Option Nat) : M α :=
  match i with
  | none => .error .keyError
  | some i => match a[i]? with
    | some x => .ok x
    | none => .error .keyError

/-- One iteration of the loop of `_compute_display_tree`, plot.py:25-37. -/
def drawStep (nodes : List (Node F)) (y : List Nat) (s : Drawing F) (index : Nat) : M (Drawing F) := do
  let n ← atLabel nodes (some index)
  let pn ← atLabel nodes n.parent
  let xp ← atLabel s.x n.parent
  let yp ← atLabel y n.parent
  let x ← wr s.x index (if pn.left = some index then Num.sub xp (halfPow (n.depth + 1)) else Num.add xp (halfPow (n.depth + 1)))
  let x0 ← wr s.x0 index xp
  let y0 ← wr s.y0 index yp
  return ⟨x, x0, y0⟩

/-- `_compute_display_tree(clf, tree_idx)`, plot.py:10-48, as `plot_tree` (plot.py:51-112) calls it, always with `max_depth=None`. The result gives the columns
`x`, `x0`, `y0` and `y`, indexed by node (the data frame is sorted, its labels are not changed). `y` is a difference of unsigned numbers. -/
def displayTree (t : TreeArr F P) : M (Drawing F × List Nat) := do
  let nd ← getNodesPred t
  let nodes := nd.map fun r => r.1.1
  let maxDepth ← pyMax (nodes.map (·.depth))
  let order := (nodes.insertionSort drawBefore).map (·.nodeId)
  let first ← atLabel order (some 0)
  let y ← nodes.mapM fun n => usub maxDepth n.depth
  let x ← wr (List.replicate nodes.length Num.zero) first Num.half
  let s ← order.tail.foldlM (drawStep nodes y) ⟨x, x, y⟩
  return (s, y)

end

end Verif
