import Verif.Proofs.Inspect
import Verif.Props.Grow
import Verif.Props.Ctw

/-! # C61 to C63 and C82: depth, paths, drawings and node tables of fitted trees

The theorems hold for classification and regression trees, every dataset, weights, parameters, random draws and contents of uninitialised memory. -/
set_option linter.unusedSectionVars false
namespace Verif

open Spec

section
variable {F Y P G : Type} [Num F] {R : Rng G} {T : Task F Y P G} {lab : F → Prop} {c : Ctx F} {D : Data F} {gb : Garbage F} {seed : Nat}
  {train valid : List Nat} {arr : TreeArr F P} {w : Work G}

/-- **C61** (the part that holds) `get_actual_depth` returns the length of the longest path of the tree: some leaf is that many edges below the root and
no node is deeper. Missing: `get_depth` and `get_n_leaves`, which never return. -/
theorem C61_depth_partial (hT : ValidTask T lab) (h : FitInput c D lab train valid) (hf : fitTree R T c gb seed train valid = .ok (arr, w)) :
    ∃ m, getActualDepth arr = .ok m ∧ (∃ k n, NodeAt arr k n ∧ n.isLeaf = true ∧ Level arr k m) ∧ ∀ k d, Level arr k d → d ≤ m := by
  have hW := C21_well_formed hT h hf
  obtain ⟨okP, t, hF⟩ := fit_facts hT h hf
  obtain ⟨nd, h1, h2⟩ := getNodesPred_ok hW fun k hk => by
    obtain ⟨n, hn, _⟩ := hW.entries k hk
    obtain ⟨u, hu⟩ := hF.ofNode hn
    exact ⟨_, hu.holds.pred⟩
  have hmap : nd.map (fun r => r.1.1.depth) = (arr.nodes.take arr.nodeCount).map (·.depth) := by rw [← h2, List.map_map]; rfl
  obtain ⟨m, m1, m2, m3⟩ := pyMax_ok (l := (arr.nodes.take arr.nodeCount).map (·.depth)) (by
    intro h0
    have := congrArg List.length h0
    rw [List.length_map, table_length hW] at this
    have := hW.rootFirst
    simp_all)
  have hle : ∀ k d, Level arr k d → d ≤ m := by
    intro k d hk
    obtain ⟨n, hn⟩ := Level.node hW hk
    rw [← hn.2]
    exact m3 _ (List.mem_map.2 ⟨n, List.mem_of_getElem? ((table_get hW).2 hn.1), rfl⟩)
  refine ⟨m, ?_, ?_, hle⟩
  · unfold getActualDepth
    rw [h1, bind_ok, hmap, m1]
  · obtain ⟨n, hn, hd⟩ := List.mem_map.1 m2
    obtain ⟨k, hk⟩ := List.mem_iff_getElem?.1 hn
    replace hk := (table_get hW).1 hk
    have hl := hW.level k hk
    rw [hd] at hl
    refine ⟨k, n, hk, ?_, hl⟩
    cases hlf : n.isLeaf with
    | true => rfl
    | false =>
      obtain ⟨l, r, nl, nr, c1, -⟩ := hW.children k n hk hlf
      have := hle _ _ (.left hl hk c1)
      omega

/-- **C61** is violated: `get_depth` and `get_n_leaves` raise NotFittedError on every fitted tree (no attribute of a tree ends with an underscore). -/
theorem C61_violated (_hT : ValidTask T lab) (_h : FitInput c D lab train valid) (_hf : fitTree R T c gb seed train valid = .ok (arr, w))
    (isClassifier : Bool) : getDepth isClassifier arr = .error .valueError ∧ getNLeaves isClassifier arr = .error .valueError := by
  have : checkIsFitted (treeAttributes isClassifier) = .error .valueError := by cases isClassifier <;> decide +kernel
  unfold getDepth getNLeaves
  rw [this]
  exact ⟨rfl, rfl⟩

example : ∃ (c : Ctx Int) (D : Data Int) (arr : TreeArr Int Int) (w : Work Nat) (n : Node Int), letI := toyNum
    ValidTask (G := Nat) (regressorTask toyArgsort) (fun _ : Int => True) ∧ FitInput c D (fun _ => True) toyTrain toyValid ∧
    fitTree toyRng (regressorTask toyArgsort) c toyGarbage 3 toyTrain toyValid = .ok (arr, w) ∧ NodeAt arr 0 n ∧ n.isLeaf = false := by
  obtain ⟨c, D, arr, w, n, _, _, h1, h2, _⟩ := toy_tree
  exact ⟨c, D, arr, w, n, h1.1, h1.2.1, h1.2.2, h2.1, h2.2.1⟩

/-- **C82** `get_nodes` of a fitted tree returns one line per node, and the columns `is_leaf`, `feature`, `bin_partition`, `left_child`, `right_child` and `y_pred`
describe the tree completely: for every row of bins there is exactly one leaf that it reaches when its way is read off the table, this is the leaf given by `apply`, and
`y_pred` in its line is the prediction of the tree without aggregation. -/
theorem C82_node_table (hT : ValidTask T lab) (h : FitInput c D lab train valid) (hf : fitTree R T c gb seed train valid = .ok (arr, w)) :
    ∃ tab : List ((Node F × PartitionCell) × P), getNodesPred arr = .ok tab ∧ tab.length = arr.nodeCount ∧
      (∀ (k : Nat) (r : (Node F × PartitionCell) × P), tab[k]? = some r → r.1.1.nodeId = k) ∧
      ∀ (fba : FBA) (i : Nat) (x : Nat → Nat), (∀ j, j < D.d → fba.getValue i j = .ok (x j)) → ∃ (k : Nat) (r : (Node F × PartitionCell) × P),
        tab[k]? = some r ∧ r.1.1.isLeaf = true ∧ TableVisits tab x k ∧ (∀ (k' : Nat) (r' : (Node F × PartitionCell) × P), tab[k']? = some r' → r'.1.1.isLeaf = true → TableVisits tab x k' → k' = k) ∧
        findLeaf arr fba i = .ok k ∧ ∀ mix step, predictRow mix arr fba false step i = .ok r.2 := by
  have hW := C21_well_formed hT h hf
  obtain ⟨okP, t, hF⟩ := fit_facts hT h hf
  have hp : ∀ k, k < arr.nodeCount → ∃ p, arr.yPred[k]? = some p := fun k hk => by
    obtain ⟨n, hn, _⟩ := hW.entries k hk
    obtain ⟨u, hu⟩ := hF.ofNode hn
    exact ⟨_, hu.holds.pred⟩
  obtain ⟨tab, h1, h2⟩ := getNodesPred_ok hW hp
  refine ⟨tab, h1, ?_, fun k r hr => ?_, fun fba i x hx => ?_⟩
  · rw [← table_length hW, ← h2, List.length_map]
  · obtain ⟨n, hn, hid⟩ := hW.entries k ((getNodesPred_rows hW h1).1 hr).1.1
    rw [nodeAt_inj ((getNodesPred_rows hW h1).1 hr).1 hn]
    exact hid
  obtain ⟨k, n, e1, e2, e3, e4, ⟨p, e5⟩, e6⟩ := C23_apply_total hT h hf fba i x hx
  refine ⟨k, ((n, if n.isCat then .bins (slice arr.binParts n.bpS n.bpE) else .threshold n.binThr), p), (getNodesPred_rows hW h1).2 ⟨e2, rfl, e5⟩, e3, (tableVisits_iff hW hp h1 x k).2 e4, fun k' r' g1 g2 g3 => ?_, e1, fun mix step => ?_⟩
  · exact e6 k' _ ((getNodesPred_rows hW h1).1 g1).1 g2 ((tableVisits_iff hW hp h1 x k').1 g3)
  · unfold predictRow
    rw [e1, bind_ok, rd_ok.2 e5, bind_ok]
    rfl

/-- **C62** (the part that holds) If the root of the tree is split, the path of a row of bins has one line for each node that the row meets before its
leaf, in order; each line gives the depth, the feature, the kind of the test, the categories or the threshold, and the side taken. Missing: trees
with one node, and `path_leaf` of a forest, which never returns. -/
theorem C62_path_partial (hT : ValidTask T lab) (h : FitInput c D lab train valid) (hf : fitTree R T c gb seed train valid = .ok (arr, w))
    {xi : List Nat} {x : Nat → Nat} (hx : ∀ j, j < D.d → xi[j]? = some (x j)) {n : Node F} (hn : NodeAt arr 0 n) (hr : n.isLeaf = false) :
    ∃ rows k m, samplePathLeaf arr xi = .ok rows ∧ NodeAt arr k m ∧ m.isLeaf = true ∧ Visits arr x k ∧ Level arr k rows.length ∧
      ∀ d row, rows[d]? = some row → row.depth = d ∧ ∃ j, Visits arr x j ∧ Level arr j d ∧ RowDescribes arr x row j := by
  have hW := C21_well_formed hT h hf
  obtain ⟨okP, t, hF⟩ := fit_facts hT h hf
  obtain ⟨u, hu⟩ := hF.ofNode hn
  have := hu.sub.unique (.refl _ _)
  subst this
  have hd0 := hW.rootDepth n hn
  rw [hu.holds.fields.2.2.1] at hd0
  rcases hu.shape with ⟨_, rfl, h0, _⟩ | ⟨a, l, r, rfl, -⟩
  · rw [h0] at hr; cases hr
  rw [GTree.root] at hd0
  obtain ⟨rows, r1, r2, r3⟩ := pathFrom_spec hF hx _ 0 (arr.nodeCount + 1) a l r rfl hu.sub (by rw [hF.count]; omega) .root
  obtain ⟨v1, m, v2, v3⟩ := hF.leafOf_visits x _ 0 hu.sub .root
  obtain ⟨u', hu'⟩ := hF.ofNode v2
  have hdepth : m.depth = rows.length := by
    have e1 := leafNode_sub x (GTree.node a l r) 0
    have := hu'.sub.unique e1
    subst this
    rw [hu'.holds.fields.2.2.1, GTree.root, ← r2, hd0, Nat.zero_add]
  refine ⟨rows, _, m, r1, v2, v3, v1, ?_, fun d row hrow => ?_⟩
  · have := hW.level _ v2
    rwa [hdepth] at this
  · obtain ⟨e1, j, e2, e3⟩ := r3 d row hrow
    rw [hd0, Nat.zero_add] at e1
    refine ⟨e1, j, e2, ?_, e3⟩
    obtain ⟨mj, f1, -, f2, -⟩ := e3
    have := hW.level _ f1
    rwa [f2, e1] at this

/-- **C62** is violated: the path in a tree with one node raises IndexError. -/
theorem C62_root_violated (hT : ValidTask T lab) (h : FitInput c D lab train valid) (hf : fitTree R T c gb seed train valid = .ok (arr, w))
    {n : Node F} (hn : NodeAt arr 0 n) (hr : n.isLeaf = true) (xi : List Nat) : samplePathLeaf arr xi = .error .indexError := by
  obtain ⟨okP, t, hF⟩ := fit_facts hT h hf
  obtain ⟨u, hu⟩ := hF.ofNode hn
  obtain ⟨bS, bE, e, -⟩ := hu.holds.node
  have hfe : n.feature = none := by
    have e1 : n.isLeaf = u.root.sp.info.isLeaf := by rw [e]; rfl
    rw [e]
    simp only [newNode]
    rw [← e1, hr, if_pos rfl]
  unfold samplePathLeaf pathFrom
  simp only [pyRd, hn.2, bind_ok, pathStep, hfe, pyIdx]
  rfl

end

/-- **C62** is violated: `path_leaf` of a forest never returns. -/
theorem C62_forest_violated {L V K F P G N : Type} [LinearOrder L] [DecidableEq V] [DecidableEq N] [LinearOrder K] [Field K] [FloorSemiring K]
    [Num F] (e : Est L V K F P G) (converts : Bool) (X : Dataset N V) (i : Nat) : ∀ rows, e.pathLeaf converts X i ≠ .ok rows := by
  intro rows
  unfold Est.pathLeaf
  cases converts <;> simp

section
attribute [local instance] toyNum

example : ∃ (c : Ctx Int) (D : Data Int) (arr : TreeArr Int Int) (w : Work Nat) (n : Node Int),
    ValidTask (G := Nat) (regressorTask toyArgsort) (fun _ : Int => True) ∧ FitInput c D (fun _ => True) toyTrain toyValid ∧
    fitTree toyRng (regressorTask toyArgsort) c toyGarbage 3 toyTrain toyValid = .ok (arr, w) ∧ NodeAt arr 0 n ∧ n.isLeaf = false ∧
    ∀ j, j < D.d → ((List.range D.d).map fun j => j)[j]? = some j := by
  obtain ⟨c, D, arr, w, n, _, _, h1, h2, _⟩ := toy_tree
  exact ⟨c, D, arr, w, n, h1.1, h1.2.1, h1.2.2, h2.1, h2.2.1, fun j hj => by simp [hj]⟩

/-- The hypotheses of `C82_node_table` hold for a tree with at least five nodes and a categorical split in line 1. -/
example : ∃ (c : Ctx Int) (D : Data Int) (arr : TreeArr Int Int) (w : Work Nat) (tab : List ((Node Int × PartitionCell) × Int)),
    ValidTask (G := Nat) (regressorTask toyArgsort) (fun _ : Int => True) ∧ FitInput c D (fun _ => True) toyTrain toyValid ∧
    fitTree toyRng (regressorTask toyArgsort) c toyGarbage 3 toyTrain toyValid = .ok (arr, w) ∧ getNodesPred arr = .ok tab ∧ 4 < tab.length ∧
    ∃ r l, tab[1]? = some r ∧ r.1.1.isCat = true ∧ r.1.2 = .bins l := by
  obtain ⟨c, D, arr, w, n, m, l, h1, _, h3, h4, _⟩ := toy_tree
  have hW := C21_well_formed h1.1 h1.2.1 h1.2.2
  obtain ⟨tab, g1, g2, g3, -⟩ := C82_node_table h1.1 h1.2.1 h1.2.2
  obtain ⟨r, hr⟩ : ∃ r, tab[1]? = some r := ⟨_, List.getElem?_eq_getElem (by rw [g2]; exact h3.1.1)⟩
  obtain ⟨k1, k2, -⟩ := (getNodesPred_rows hW g1).1 hr
  obtain rfl := nodeAt_inj k1 h3.1
  rw [if_pos h3.2.2.1] at k2
  exact ⟨c, D, arr, w, tab, h1.1, h1.2.1, h1.2.2, g1, by rw [g2]; exact h4.1.1, r, _, hr, h3.2.2.1, k2⟩

/-- A tree with one node: the number of samples is below `min_samples_split`. -/
theorem toy_stump_run : (do
    let fba ← arrayToBitarray (fun _ => 0) 12 toyCols
    let (t, _) ← fitTree toyRng (regressorTask toyArgsort) { toyCtx fba with minSplit := 100 } toyGarbage 3 toyTrain toyValid
    return (t.nodeCount == 1 && match t.nodes[0]? with | some n => n.isLeaf | none => false) : M Bool) = .ok true := by decide +kernel

example : ∃ (c : Ctx Int) (arr : TreeArr Int Int) (w : Work Nat) (n : Node Int),
    ValidTask (G := Nat) (regressorTask toyArgsort) (fun _ : Int => True) ∧ FitInput c toyData (fun _ => True) toyTrain toyValid ∧
    fitTree toyRng (regressorTask toyArgsort) c toyGarbage 3 toyTrain toyValid = .ok (arr, w) ∧ NodeAt arr 0 n ∧ n.isLeaf = true := by
  obtain ⟨fba, h1, h2⟩ := holds_of_matrix (F := Int) (fun _ => 0) 12 toyCols toyY toyW (by norm_num) (by decide) (by decide)
    rfl rfl [false, true] rfl
  have hrun := toy_stump_run
  rw [h1, bind_ok] at hrun
  cases hfit : fitTree toyRng (regressorTask toyArgsort) { toyCtx fba with minSplit := 100 } toyGarbage 3 toyTrain toyValid with
  | error e => rw [hfit] at hrun; exact absurd hrun (by simp)
  | ok r =>
    obtain ⟨arr, w⟩ := r
    rw [hfit] at hrun
    simp only [bind_ok, pure_eq_ok, Except.ok.injEq, Bool.and_eq_true, beq_iff_eq] at hrun
    obtain ⟨r1, r2⟩ := hrun
    split at r2
    · rename_i n hn
      refine ⟨_, arr, w, n, .regressor toyArgsort_perm, ?_, hfit, ⟨by omega, hn⟩, r2⟩
      exact ⟨h2 _ rfl rfl rfl rfl, ⟨⟨by norm_num [toyCtx], by simp [toyCtx, toyData, dataOf, toyCols]⟩, by norm_num [toyCtx]⟩, by simp only [and_true]; decide, by simp only [and_true]; decide,
        by decide, by decide, by decide⟩
    · cases r2

end

section
variable {Y P G : Type} {R : Rng G} {T : Task ℝ Y P G} {lab : ℝ → Prop} {c : Ctx ℝ} {D : Data ℝ} {gb : Garbage ℝ} {seed : Nat}
  {train valid : List Nat} {arr : TreeArr ℝ P} {w : Work G}

/-- **C63** `plot_tree` draws every fitted tree as a tree: all nodes inside the figure, everything below a left child to the left of the node and
everything below a right child to the right (so the segments do not cross), each level one unit below the previous one with the lowest at height
0, and every segment between a node and its parent. -/
theorem C63_drawing (hT : ValidTask T lab) (h : FitInput c D lab train valid) (hf : fitTree R T c gb seed train valid = .ok (arr, w)) :
    ∃ s y, displayTree arr = .ok (s, y) ∧ s.x.length = arr.nodeCount ∧ s.x0.length = arr.nodeCount ∧ s.y0.length = arr.nodeCount ∧
      NiceDrawing arr (fun k => s.x.getD k 0) (fun k => s.x0.getD k 0) (fun k => y.getD k 0) (fun k => s.y0.getD k 0) := by
  have hW := C21_well_formed hT h hf
  obtain ⟨okP, t, hF⟩ := fit_facts hT h hf
  obtain ⟨s, y, m, rest, h1, h2, h3, h4, h5⟩ := displayTree_ok hW fun k hk => by
    obtain ⟨n, hn, _⟩ := hW.entries k hk
    obtain ⟨u, hu⟩ := hF.ofNode hn
    exact ⟨_, hu.holds.pred⟩
  exact ⟨s, y, h1, h3.lx, h3.lx0, h3.ly0, nice_drawing hW h2 h3 h4 h5⟩

example : ∃ (argsort : List ℝ → List Nat) (c : Ctx ℝ) (arr : TreeArr ℝ ℝ) (w : Work Nat) (n : Node ℝ),
    ValidTask (regressorTask (G := Nat) argsort) (fun _ => True) ∧ FitInput c realData (fun _ => True) realTrain realValid ∧
    fitTree toyRng (regressorTask argsort) c realGarbage 3 realTrain realValid = .ok (arr, w) ∧ NodeAt arr 0 n ∧ n.isLeaf = false := by
  obtain ⟨c, arr, w, n, h1, _, _, h2, _, h3, h4⟩ := real_tree (RealTask.regressor (G := Nat) realArgsort_sorts) fun _ _ => trivial
  exact ⟨_, c, arr, w, n, .regressor realArgsort_sorts.1, h1, h3, h4⟩

end

end Verif
