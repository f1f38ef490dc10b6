import Verif.Proofs.ToyTree

/-! Properties C18 to C25, C49 and C52: growing trees. All theorems about fitted trees hold for classification and regression
trees, every dataset, weights, parameters, random draws, contents of uninitialised memory and floating-point behaviour. -/
namespace Verif

open Spec

variable {F Y P G : Type} [Num F]

section
variable {R : Rng G} {T : Task F Y P G} {lab : F → Prop} {c : Ctx F} {D : Data F} {gb : Garbage F} {seed : Nat}
  {train valid : List Nat} {arr : TreeArr F P} {w : Work G}

/-- C20. Growing a tree terminates (within the bound of `2 n + 1` iterations that the model gives to the loop), reads and
writes inside the arrays and computes no negative unsigned number (all of these would be errors of the model), and gives at
most `2 n - 1` nodes. -/
theorem C20_grow_terminates (R : Rng G) (hT : ValidTask T lab) (gb : Garbage F) (seed : Nat)
    (h : FitInput c D lab train valid) :
    ∃ arr w, fitTree R T c gb seed train valid = .ok (arr, w) ∧ 1 ≤ arr.nodeCount ∧
      arr.nodeCount ≤ 2 * train.length - 1 ∧ arr.nodeCount ≤ arr.nodes.length ∧ arr.nodeCount ≤ arr.yPred.length := by
  obtain ⟨okY, okP, hs⟩ := validTask_safe hT
  obtain ⟨arr, w, t, e1, e2⟩ := fitTree_spec R hs gb seed h
  have := e2.size
  have := t.size_pos
  refine ⟨arr, w, e1, by rw [e2.count]; omega, by rw [e2.count]; omega, ?_, ?_⟩
  · rw [e2.count, e2.lenN.1]; exact e2.lenN.2
  · rw [e2.count, e2.lenP]; exact e2.lenN.2

example : ∃ (c : Ctx Int) (D : Data Int), letI := toyNum
    ValidTask (G := Nat) (regressorTask toyArgsort) (fun _ : Int => True) ∧
    FitInput c D (fun _ => True) toyTrain toyValid := by
  obtain ⟨c, _, _, h1, h2, _⟩ := toy_fit
  exact ⟨c, toyData, h1, h2⟩

/-- C18. Every node but the root holds at least `min_samples_leaf` training samples, and validation samples when aggregation
is on. -/
theorem C18_min_samples_leaf (hT : ValidTask T lab) (h : FitInput c D lab train valid)
    (hf : fitTree R T c gb seed train valid = .ok (arr, w)) {k : Nat} {n : Node F} (hn : NodeAt arr k n)
    (hk : n.parent ≠ none) : c.minLeaf ≤ n.nTrain ∧ (c.aggregation = true → c.minLeaf ≤ n.nValid) := by
  obtain ⟨okP, t, hF⟩ := fit_facts hT h hf
  obtain ⟨u, hu⟩ := hF.ofNode hn
  obtain ⟨_, f2, _, _, f5, f6, _⟩ := hu.holds.fields
  have hk0 : k ≠ 0 := by
    rintro rfl
    have := hu.sub.unique (.refl _ _)
    subst this
    rw [f2, hF.rcd] at hk
    exact hk rfl
  obtain ⟨p, isL, a, l, r, _, hc⟩ := hF.childOf hu.sub hk0
  have hg := hF.ok.sub hc.sub
  obtain ⟨_, feats, _, _, hsp⟩ := hg.1.split hg.2.1
  have hcnt := hu.ok.facts.counts
  rw [f5, f6, hcnt.1, hcnt.2, hc.train, hc.valid]
  obtain ⟨l1, l2, l3⟩ := hsp.leaf
  cases isL with
  | true =>
    refine ⟨?_, fun ha => ?_⟩
    · rw [hsp.nTrainL] at l1; exact l1
    · have := (l3 ha).1; rw [hsp.nValidL ha] at this; exact this
  | false =>
    refine ⟨?_, fun ha => ?_⟩
    · rw [hsp.nTrainR] at l2; exact l2
    · have := (l3 ha).2; rw [hsp.nValidR ha] at this; exact this

example : ∃ (c : Ctx Int) (D : Data Int) (arr : TreeArr Int Int) (w : Work Nat) (n : Node Int), letI := toyNum
    ValidTask (G := Nat) (regressorTask toyArgsort) (fun _ : Int => True) ∧
    FitInput c D (fun _ => True) toyTrain toyValid ∧
    fitTree toyRng (regressorTask toyArgsort) c toyGarbage 3 toyTrain toyValid = .ok (arr, w) ∧
    NodeAt arr 1 n ∧ n.parent ≠ none := by
  obtain ⟨c, D, arr, w, _, m, _, h1, _, h3, _⟩ := toy_tree
  exact ⟨c, D, arr, w, m, h1.1, h1.2.1, h1.2.2, h3.1, by rw [h3.2.2.2]; simp⟩

/-- C19. A node that was split has at least `min_samples_split` samples, depth below `max_depth`, and a recorded impurity
that is not `<= 0` (the root has none recorded); no node is deeper than `max_depth`. -/
theorem C19_stopping (hT : ValidTask T lab) (h : FitInput c D lab train valid)
    (hf : fitTree R T c gb seed train valid = .ok (arr, w)) {k : Nat} {n : Node F} (hn : NodeAt arr k n) :
    n.depth ≤ c.maxDepth ∧ (n.impurity = none ↔ k = 0) ∧
    (n.isLeaf = false → c.minSplit ≤ n.nTrain ∧ (c.aggregation = true → c.minSplit ≤ n.nValid) ∧ n.depth < c.maxDepth ∧
      ∀ x, n.impurity = some x → Num.le x Num.zero = false) := by
  obtain ⟨okP, t, hF⟩ := fit_facts hT h hf
  obtain ⟨u, hu⟩ := hF.ofNode hn
  obtain ⟨_, _, f3, f4, f5, f6, _⟩ := hu.holds.fields
  have hstop : n.isLeaf = false → stopHere c u.root.rcd u.root.nc.nTrain u.root.nc.nValid = false := by
    intro hl
    rcases hu.shape with ⟨_, _, h0, _⟩ | ⟨a, l, r, rfl, _⟩
    · rw [hl] at h0; exact absurd h0 (by simp)
    · exact (hu.ok.1.split hu.ok.2.1).1
  refine ⟨?_, ?_, ?_⟩
  · by_cases hk0 : k = 0
    · subst hk0
      have := hu.sub.unique (.refl _ _)
      subst this
      rw [f3, hF.rcd]; exact Nat.zero_le _
    · obtain ⟨p, isL, a, l, r, _, hc⟩ := hF.childOf hu.sub hk0
      have hg := hF.ok.sub hc.sub
      have := (stopHere_false (hg.1.split hg.2.1).1).2.2.2
      rw [f3, hc.rcd]
      cases isL <;> simp only [leftRecord, rightRecord, if_true, Bool.false_eq_true, if_false] <;> omega
  · constructor
    · intro himp
      by_contra hk0
      obtain ⟨p, isL, a, l, r, _, hc⟩ := hF.childOf hu.sub hk0
      rw [f4, hc.rcd] at himp
      cases isL <;> simp [leftRecord, rightRecord] at himp
    · rintro rfl
      have := hu.sub.unique (.refl _ _)
      subst this
      rw [f4, hF.rcd]; rfl
  · intro hl
    have := stopHere_false (hstop hl)
    rw [f5, f6, f4, f3]
    exact ⟨this.1, this.2.1, this.2.2.2, this.2.2.1⟩

example : ∃ (c : Ctx Int) (D : Data Int) (arr : TreeArr Int Int) (w : Work Nat) (n : Node Int), letI := toyNum
    ValidTask (G := Nat) (regressorTask toyArgsort) (fun _ : Int => True) ∧
    FitInput c D (fun _ => True) toyTrain toyValid ∧
    fitTree toyRng (regressorTask toyArgsort) c toyGarbage 3 toyTrain toyValid = .ok (arr, w) ∧
    NodeAt arr 4 n ∧ n.isLeaf = false := by
  obtain ⟨c, D, arr, w, _, _, l, h1, _, _, h4, _⟩ := toy_tree
  exact ⟨c, D, arr, w, l, h1.1, h1.2.1, h1.2.2, h4⟩

/-- C21. The node table is a well-formed binary tree. -/
theorem C21_well_formed (hT : ValidTask T lab) (h : FitInput c D lab train valid)
    (hf : fitTree R T c gb seed train valid = .ok (arr, w)) : WellFormed arr := by
  obtain ⟨okP, t, hF⟩ := fit_facts hT h hf
  have hpos := t.size_pos
  have root0 : ∀ n u, Below T c D lab okP arr w t 0 n u → n.parent = none ∧ n.depth = 0 := by
    intro n u hu
    obtain ⟨_, f2, f3, _⟩ := hu.holds.fields
    have := hu.sub.unique (.refl _ _)
    subst this
    rw [f2, f3, hF.rcd]; exact ⟨rfl, rfl⟩
  refine ⟨?_, by rw [hF.count]; omega, ?_, ?_, ?_, ?_, ?_, ?_⟩
  · intro k hk
    obtain ⟨u, hu⟩ := exists_subAt t 0 k (Nat.zero_le _) (by rw [hF.count] at hk; omega)
    obtain ⟨n, h1, h2⟩ := hF.below hu
    exact ⟨n, h1, h2.holds.fields.1⟩
  · intro k n hn
    obtain ⟨u, hu⟩ := hF.ofNode hn
    constructor
    · intro hp
      by_contra hk0
      obtain ⟨p, isL, a, l, r, _, hc⟩ := hF.childOf hu.sub hk0
      rw [hu.holds.fields.2.1, hc.rcd] at hp
      cases isL <;> simp [leftRecord, rightRecord] at hp
    · rintro rfl
      exact (root0 n u hu).1
  · intro n hn
    obtain ⟨u, hu⟩ := hF.ofNode hn
    exact (root0 n u hu).2
  · intro k n hn hl
    obtain ⟨u, hu⟩ := hF.ofNode hn
    rcases hu.shape with ⟨_, _, _, h1, h2⟩ | ⟨a, l, r, rfl, h0, _⟩
    · exact ⟨h1, h2⟩
    · rw [hl] at h0; exact absurd h0 (by simp)
  · intro k n hn hl
    obtain ⟨u, hu⟩ := hF.ofNode hn
    rcases hu.shape with ⟨_, _, h0, _⟩ | ⟨a, l, r, rfl, h0, h1, h2⟩
    · rw [hl] at h0; exact absurd h0 (by simp)
    · obtain ⟨nl, l1, l2⟩ := hF.below (subAt_left hu.sub)
      obtain ⟨nr, r1, r2⟩ := hF.below (subAt_right hu.sub)
      have cl := (hF.child_left hu.sub).rcd
      have cr := (hF.child_right hu.sub).rcd
      have hr := r.size_pos
      simp only [if_true, Bool.false_eq_true, if_false] at cl cr
      refine ⟨_, _, nl, nr, h1, h2, by omega, by omega, by omega, l1, r1, ?_, ?_, ?_, ?_⟩
      · rw [l2.holds.fields.2.1, cl]; rfl
      · rw [r2.holds.fields.2.1, cr]; rfl
      · rw [l2.holds.fields.2.2.1, hu.holds.fields.2.2.1, cl]; rfl
      · rw [r2.holds.fields.2.2.1, hu.holds.fields.2.2.1, cr]; rfl
  · intro k n hn hk0
    obtain ⟨u, hu⟩ := hF.ofNode hn
    obtain ⟨p, isL, a, l, r, _, hc⟩ := hF.childOf hu.sub hk0
    obtain ⟨np, n1, n2⟩ := hF.below hc.sub
    refine ⟨p, ⟨np, n1, ?_⟩, ?_⟩
    · rcases n2.shape with ⟨_, h0, _⟩ | ⟨a', l', r', h0, _, h1, h2⟩
      · exact absurd h0 (by simp)
      · simp only [GTree.node.injEq] at h0
        obtain ⟨_, _, rfl⟩ := h0
        have := hc.idx
        cases isL with
        | true => left; rw [h1, this]; rfl
        | false => right; rw [h2, this]; rfl
    · rintro q ⟨nq, m1, m2⟩
      obtain ⟨v, hv⟩ := hF.ofNode m1
      rcases hv.shape with ⟨_, _, _, h1, h2⟩ | ⟨a', l', r', rfl, h0, h1, h2⟩
      · rw [h1, h2] at m2; simp at m2
      · rw [h1, h2] at m2
        simp only [Option.some.injEq] at m2
        rcases m2 with rfl | rfl
        · exact ((hF.child_left hv.sub).unique hc).1
        · exact ((hF.child_right hv.sub).unique hc).1
  · have h1 := hF.leafCount_aux t 0 (.refl _ _)
    have h2 := t.size_leaves
    rw [← List.range_eq_range', ← hF.count] at h1
    have h3 : leafCount arr = t.leaves := h1
    rw [h3, hF.count]
    exact h2

/-- C22. Training and validation samples are routed to the leaf that holds them: the range of every node in the final
partition holds exactly the samples that visit the node, and its recorded counts are their numbers; the ranges of the leaves
partition the samples; `apply` on the training matrix returns, for each training (validation) sample, the only leaf whose
range contains the sample. -/
theorem C22_routing (hT : ValidTask T lab) (h : FitInput c D lab train valid)
    (hf : fitTree R T c gb seed train valid = .ok (arr, w)) :
    (∀ k n, NodeAt arr k n →
      (slice w.partTrain n.sT n.eT).Perm (routed arr D train k) ∧ n.nTrain = (routed arr D train k).length ∧
      (slice w.partValid n.sV n.eV).Perm (routed arr D valid k) ∧ n.nValid = (routed arr D valid k).length) ∧
    (∀ p, p < train.length → ∃! k, ∃ n, NodeAt arr k n ∧ n.isLeaf = true ∧ n.sT ≤ p ∧ p < n.eT) ∧
    (∀ p, p < valid.length → ∃! k, ∃ n, NodeAt arr k n ∧ n.isLeaf = true ∧ n.sV ≤ p ∧ p < n.eV) ∧
    w.partTrain.Perm train ∧ w.partValid.Perm valid ∧
    ∃ leaves, treeApply arr c.fba = .ok leaves ∧ leaves.length = D.n ∧
      (∀ i k, leaves[i]? = some k → ∃ n, NodeAt arr k n ∧ n.isLeaf = true ∧
        (i ∈ train → i ∈ slice w.partTrain n.sT n.eT) ∧ (i ∈ valid → i ∈ slice w.partValid n.sV n.eV) ∧
        ∀ k' n', NodeAt arr k' n' → n'.isLeaf = true →
          i ∈ slice w.partTrain n'.sT n'.eT ∨ i ∈ slice w.partValid n'.sV n'.eV → k' = k) := by
  classical
  obtain ⟨okP, t, hF⟩ := fit_facts hT h hf
  have hnode : ∀ k n, NodeAt arr k n →
      (slice w.partTrain n.sT n.eT).Perm (routed arr D train k) ∧ n.nTrain = (routed arr D train k).length ∧
      (slice w.partValid n.sV n.eV).Perm (routed arr D valid k) ∧ n.nValid = (routed arr D valid k).length := by
    intro k n hn
    obtain ⟨u, hu⟩ := hF.ofNode hn
    obtain ⟨r1, r2⟩ := hF.routed k u hu.sub
    obtain ⟨_, _, _, _, f5, f6, f7, f8, f9, f10, _⟩ := hu.holds.fields
    have hcnt := hu.ok.facts.counts
    rw [f5, f6, f7, f8, f9, f10, hcnt.1, hcnt.2, ← r1, ← r2]
    have hfin : (slice w.partTrain u.root.rcd.sT u.root.rcd.eT).Perm u.root.train ∧
        (slice w.partValid u.root.rcd.sV u.root.rcd.eV).Perm u.root.valid := by
      have := hu.final
      cases u with
      | leaf a => exact this
      | node a l r => exact ⟨this.1, this.2.1⟩
    exact ⟨hfin.1, rfl, hfin.2, rfl⟩
  obtain ⟨q1, q2, _⟩ := leaf_ranges hF.ok
  rw [hF.rcd] at q1 q2
  simp only [rootRecord] at q1 q2
  -- a leaf of the table is a leaf of the tree
  have hleaf : ∀ k n, NodeAt arr k n → n.isLeaf = true → ∃ a, SubAt t 0 (.leaf a) k ∧ n.sT = a.rcd.sT ∧ n.eT = a.rcd.eT ∧
      n.sV = a.rcd.sV ∧ n.eV = a.rcd.eV := by
    intro k n hn hl
    obtain ⟨u, hu⟩ := hF.ofNode hn
    obtain ⟨_, _, _, _, f5, f6, f7, f8, f9, f10, _⟩ := hu.holds.fields
    rcases hu.shape with ⟨a, rfl, _⟩ | ⟨_, _, _, rfl, h0, _⟩
    · exact ⟨a, hu.sub, f7, f8, f9, f10⟩
    · rw [hl] at h0; exact absurd h0 (by simp)
  have hleaf' : ∀ k a, SubAt t 0 (.leaf a) k → ∃ n, NodeAt arr k n ∧ n.isLeaf = true ∧ n.sT = a.rcd.sT ∧ n.eT = a.rcd.eT ∧
      n.sV = a.rcd.sV ∧ n.eV = a.rcd.eV := by
    intro k a hs
    obtain ⟨n, h1, h2⟩ := hF.below hs
    obtain ⟨_, _, _, _, f5, f6, f7, f8, f9, f10, _⟩ := h2.holds.fields
    refine ⟨n, h1, ?_, f7, f8, f9, f10⟩
    rw [h2.holds.isLeaf.1]; simp only [GTree.root]; rw [h2.ok.2.1]; rfl
  refine ⟨hnode, ?_, ?_, hF.shT, hF.shV, ?_⟩
  · intro p hp
    obtain ⟨k, ⟨a, s1, s2, s3⟩, hu⟩ := q1 p (Nat.zero_le _) hp
    obtain ⟨n, m1, m2, m3, m4, _⟩ := hleaf' k a s1
    refine ⟨k, ⟨n, m1, m2, by omega, by omega⟩, ?_⟩
    rintro k' ⟨n', m1', m2', m3', m4'⟩
    obtain ⟨a', s1', e1, e2, _⟩ := hleaf k' n' m1' m2'
    exact hu k' ⟨a', s1', by omega, by omega⟩
  · intro p hp
    obtain ⟨k, ⟨a, s1, s2, s3⟩, hu⟩ := q2 p (Nat.zero_le _) hp
    obtain ⟨n, m1, m2, _, _, m3, m4⟩ := hleaf' k a s1
    refine ⟨k, ⟨n, m1, m2, by omega, by omega⟩, ?_⟩
    rintro k' ⟨n', m1', m2', m3', m4'⟩
    obtain ⟨a', s1', _, _, e1, e2⟩ := hleaf k' n' m1' m2'
    exact hu k' ⟨a', s1', by omega, by omega⟩
  · have hfl : ∀ i, i < D.n → findLeaf arr c.fba i = .ok (leafOf (D.X i) t 0) := by
      intro i hi
      exact hF.findLeafFrom (D.X i) (fun j hj => h.holds.value i j hi hj) t 0 _ (.refl _ _) (by rw [hF.count]; omega)
    refine ⟨(List.range D.n).map (fun i => leafOf (D.X i) t 0), ?_, by simp, ?_⟩
    · unfold treeApply
      rw [h.holds.n]
      exact mapM_ok_of (fun i hi => hfl i (List.mem_range.1 hi))
    · intro i k hk
      rw [List.getElem?_map, Option.map_eq_some_iff] at hk
      obtain ⟨i', hi', rfl⟩ := hk
      obtain ⟨hilt, hi''⟩ := List.getElem?_eq_some_iff.1 hi'
      simp only [List.getElem_range] at hi''
      subst hi''
      obtain ⟨v1, n, v2, v3⟩ := hF.leafOf_visits (D.X i) t 0 (.refl _ _) .root
      refine ⟨n, v2, v3, ?_, ?_, ?_⟩
      · intro hi
        rw [(hnode _ n v2).1.mem_iff]
        unfold routed
        rw [List.mem_filter]
        exact ⟨hi, by simpa using v1⟩
      · intro hi
        rw [(hnode _ n v2).2.2.1.mem_iff]
        unfold routed
        rw [List.mem_filter]
        exact ⟨hi, by simpa using v1⟩
      · intro k' n' m1 m2 m3
        have hvis : Visits arr (D.X i) k' := by
          rw [(hnode _ n' m1).1.mem_iff, (hnode _ n' m1).2.2.1.mem_iff] at m3
          unfold routed at m3
          rw [List.mem_filter, List.mem_filter] at m3
          rcases m3 with m3 | m3 <;> simpa using m3.2
        obtain ⟨a', s1', _⟩ := hleaf k' n' m1 m2
        exact hF.leaf_unique (D.X i) t 0 (.refl _ _) k' a' s1' hvis

/-- The hypotheses of C21 and C22 hold for the example tree. -/
example : ∃ (c : Ctx Int) (D : Data Int) (arr : TreeArr Int Int) (w : Work Nat), letI := toyNum
    ValidTask (G := Nat) (regressorTask toyArgsort) (fun _ : Int => True) ∧
    FitInput c D (fun _ => True) toyTrain toyValid ∧
    fitTree toyRng (regressorTask toyArgsort) c toyGarbage 3 toyTrain toyValid = .ok (arr, w) := by
  obtain ⟨c, D, arr, w, _, _, _, h1, _⟩ := toy_tree
  exact ⟨c, D, arr, w, h1.1, h1.2.1, h1.2.2⟩

/-- C23. `apply` reaches a leaf for every row of bins, whatever the bins are; it is the only leaf that the row visits. -/
theorem C23_apply_total (hT : ValidTask T lab) (h : FitInput c D lab train valid)
    (hf : fitTree R T c gb seed train valid = .ok (arr, w)) (fba : FBA) (i : Nat) (x : Nat → Nat)
    (hx : ∀ j, j < D.d → fba.getValue i j = .ok (x j)) :
    ∃ k n, findLeaf arr fba i = .ok k ∧ NodeAt arr k n ∧ n.isLeaf = true ∧ Visits arr x k ∧
      (∃ p, arr.yPred[k]? = some p) ∧ ∀ k' n', NodeAt arr k' n' → n'.isLeaf = true → Visits arr x k' → k' = k := by
  obtain ⟨okP, t, hF⟩ := fit_facts hT h hf
  obtain ⟨v1, n, v2, v3⟩ := hF.leafOf_visits x t 0 (.refl _ _) .root
  refine ⟨_, n, hF.findLeafFrom x hx t 0 _ (.refl _ _) (by rw [hF.count]; omega), v2, v3, v1, ?_, ?_⟩
  · obtain ⟨u, hu⟩ := hF.ofNode v2
    exact ⟨_, hu.holds.pred⟩
  · intro k' n' m1 m2 m3
    obtain ⟨u, hu⟩ := hF.ofNode m1
    rcases hu.shape with ⟨a, rfl, _⟩ | ⟨_, _, _, rfl, h0, _⟩
    · exact hF.leaf_unique x t 0 (.refl _ _) k' a hu.sub m3
    · rw [m2] at h0; exact absurd h0 (by simp)

example : ∃ (c : Ctx Int) (D : Data Int) (arr : TreeArr Int Int) (w : Work Nat), letI := toyNum
    ValidTask (G := Nat) (regressorTask toyArgsort) (fun _ : Int => True) ∧
    FitInput c D (fun _ => True) toyTrain toyValid ∧
    fitTree toyRng (regressorTask toyArgsort) c toyGarbage 3 toyTrain toyValid = .ok (arr, w) ∧
    ∀ j, j < D.d → c.fba.getValue 9 j = .ok (D.X 9 j) := by
  obtain ⟨c, D, arr, w, _, _, _, h1, _, _, _, h5⟩ := toy_tree
  exact ⟨c, D, arr, w, h1.1, h1.2.1, h1.2.2, fun j hj => h1.2.1.holds.value 9 j h5 hj⟩

/-- C24. At a split, a row whose bin is larger than the bins of all the training samples of the node, or (categorical
splits) different from all of them, goes to the right child. -/
theorem C24_unseen_right (hT : ValidTask T lab) (h : FitInput c D lab train valid)
    (hf : fitTree R T c gb seed train valid = .ok (arr, w)) {k : Nat} {n : Node F} (hn : NodeAt arr k n)
    (hl : n.isLeaf = false) : ∃ f r, n.feature = some f ∧ f < D.d ∧ n.right = some r ∧
      ∀ x : Nat → Nat, Visits arr x k →
        ((∀ i ∈ routed arr D train k, D.X i f < x f) ∨ (n.isCat = true ∧ ∀ i ∈ routed arr D train k, D.X i f ≠ x f)) →
        Visits arr x r := by
  obtain ⟨okP, t, hF⟩ := fit_facts hT h hf
  obtain ⟨u, hu⟩ := hF.ofNode hn
  rcases hu.shape with ⟨_, _, h0, _⟩ | ⟨a, l, r, rfl, h0, h1, h2⟩
  · rw [hl] at h0; exact absurd h0 (by simp)
  have hg := hu.ok
  obtain ⟨_, feats, hsamp, _, hsp⟩ := hg.1.split hg.2.1
  have htest := fun bin => testLeft_iff hu.holds hg.1 hg.2.1 bin
  simp only [GTree.root] at htest
  have hroute := (hF.routed k _ hu.sub).1
  simp only [GTree.root] at hroute
  refine ⟨a.sp.feature, k + 1, (htest 0).1, hsamp.2.2 _ hsp.feature, h2, ?_⟩
  intro x hv hb
  rw [← hroute] at hb
  rw [hF.visits_child (hF.child_right hu.sub)]
  refine ⟨hv, ?_⟩
  by_contra hgl
  simp only [Bool.not_eq_false] at hgl
  unfold goesLeft at hgl
  cases hc : a.sp.isCat with
  | true =>
    rw [hc] at hgl
    simp only [if_true, decide_eq_true_iff] at hgl
    obtain ⟨i, hi, hi2⟩ := (hsp.part hc).2.2 _ hgl
    rcases hb with hb | ⟨_, hb⟩
    · have := hb i hi; omega
    · exact hb i hi hi2
  | false =>
    rw [hc] at hgl
    simp only [Bool.false_eq_true, if_false, decide_eq_true_iff] at hgl
    obtain ⟨i, hi, hi2⟩ := hsp.thr
    rcases hb with hb | ⟨hb, _⟩
    · have := hb i hi; omega
    · rw [(htest 0).2.1, hc] at hb; exact absurd hb (by simp)

/-- C25. The set of categories stored for a categorical split of the final tree is strictly sorted, is the set of bins of the
training samples in the range of the left child (these were placed there when the node was split), contains no bin of the
right child, and the membership test of `find_leaf` on it answers membership. -/
theorem C25_category_sets (hT : ValidTask T lab) (h : FitInput c D lab train valid)
    (hf : fitTree R T c gb seed train valid = .ok (arr, w)) {k : Nat} {n : Node F} (hn : NodeAt arr k n)
    (hl : n.isLeaf = false) (hcat : n.isCat = true) :
    ∃ f l r nl nr, n.feature = some f ∧ n.left = some l ∧ n.right = some r ∧ NodeAt arr l nl ∧ NodeAt arr r nr ∧
      (slice arr.binParts n.bpS n.bpE).Pairwise (· < ·) ∧
      (∀ b, b ∈ slice arr.binParts n.bpS n.bpE ↔ ∃ i ∈ slice w.partTrain nl.sT nl.eT, D.X i f = b) ∧
      (∀ i ∈ slice w.partTrain nr.sT nr.eT, D.X i f ∉ slice arr.binParts n.bpS n.bpE) ∧
      ∀ b, isBinInPartition b (slice arr.binParts n.bpS n.bpE) = .ok (decide (b ∈ slice arr.binParts n.bpS n.bpE)) := by
  obtain ⟨okP, t, hF⟩ := fit_facts hT h hf
  obtain ⟨u, hu⟩ := hF.ofNode hn
  rcases hu.shape with ⟨_, _, h0, _⟩ | ⟨a, l, r, rfl, h0, h1, h2⟩
  · rw [hl] at h0; exact absurd h0 (by simp)
  have hg := hu.ok
  obtain ⟨_, feats, hsamp, _, hsp⟩ := hg.1.split hg.2.1
  obtain ⟨t1, t2, t3, t4, t5⟩ := testLeft_iff hu.holds hg.1 hg.2.1 0
  simp only [GTree.root] at t1 t2 t3 t4 t5
  rw [hcat] at t2
  have hpart := hsp.part t2.symm
  rw [t4 t2.symm]
  obtain ⟨nl, l1, l2⟩ := hF.below (subAt_left hu.sub)
  obtain ⟨nr, r1, r2⟩ := hF.below (subAt_right hu.sub)
  have cl := (hF.child_left hu.sub).train
  have cr := (hF.child_right hu.sub).train
  simp only [if_true, Bool.false_eq_true, if_false] at cl cr
  have fin : ∀ v : GTree F Y P, Final w v → (slice w.partTrain v.root.rcd.sT v.root.rcd.eT).Perm v.root.train := by
    intro v hv
    cases v with
    | leaf a => exact hv.1
    | node a l r => exact hv.1
  obtain ⟨_, _, _, _, _, _, a7, a8, _⟩ := l2.holds.fields
  obtain ⟨_, _, _, _, _, _, b7, b8, _⟩ := r2.holds.fields
  have memL : ∀ i, i ∈ slice w.partTrain nl.sT nl.eT ↔ i ∈ a.train ∧ D.X i a.sp.feature ∈ a.sp.partition := by
    intro i
    rw [a7, a8, (fin l l2.final).mem_iff, cl]
    simp only [GNode.leftT, List.mem_filter, goesLeft, t2.symm, if_true, decide_eq_true_iff]
  have memR : ∀ i, i ∈ slice w.partTrain nr.sT nr.eT ↔ i ∈ a.train ∧ D.X i a.sp.feature ∉ a.sp.partition := by
    intro i
    rw [b7, b8, (fin r r2.final).mem_iff, cr]
    simp only [GNode.rightT, List.mem_filter, goesLeft, t2.symm, if_true, Bool.not_eq_true', decide_eq_false_iff_not]
  refine ⟨a.sp.feature, _, _, nl, nr, t1, h1, h2, l1, r1, hpart.1, ?_, ?_, ?_⟩
  · intro b
    constructor
    · intro hb
      obtain ⟨i, hi, rfl⟩ := hpart.2.2 b hb
      exact ⟨i, (memL i).2 ⟨hi, hb⟩, rfl⟩
    · rintro ⟨i, hi, rfl⟩
      exact ((memL i).1 hi).2
  · intro i hi
    exact ((memR i).1 hi).2
  · intro b
    exact isBinInPartition_spec _ (hpart.1.imp (fun h => Nat.le_of_lt h)) b

/-- The hypotheses of C24 and C25 hold for the categorical node 1 of the example tree. -/
example : ∃ (c : Ctx Int) (D : Data Int) (arr : TreeArr Int Int) (w : Work Nat) (m : Node Int), letI := toyNum
    ValidTask (G := Nat) (regressorTask toyArgsort) (fun _ : Int => True) ∧
    FitInput c D (fun _ => True) toyTrain toyValid ∧
    fitTree toyRng (regressorTask toyArgsort) c toyGarbage 3 toyTrain toyValid = .ok (arr, w) ∧
    NodeAt arr 1 m ∧ m.isLeaf = false ∧ m.isCat = true := by
  obtain ⟨c, D, arr, w, _, m, _, h1, _, h3, _⟩ := toy_tree
  exact ⟨c, D, arr, w, m, h1.1, h1.2.1, h1.2.2, h3.1, h3.2.1, h3.2.2.1⟩

/-- C49, what holds. A node that is not the root is exactly one of the left and the right child of its parent, so the
pointers of the parents tell which nodes are left children. Missing: the `is_left` entries (see `C49_violated`). -/
theorem C49_children_partial (hT : ValidTask T lab) (h : FitInput c D lab train valid)
    (hf : fitTree R T c gb seed train valid = .ok (arr, w)) {k : Nat} {n : Node F} (hn : NodeAt arr k n) (hk : k ≠ 0) :
    ∃ p np, n.parent = some p ∧ NodeAt arr p np ∧ (np.left = some k ∧ np.right ≠ some k ∨
      np.right = some k ∧ np.left ≠ some k) := by
  obtain ⟨okP, t, hF⟩ := fit_facts hT h hf
  obtain ⟨u, hu⟩ := hF.ofNode hn
  obtain ⟨p, isL, a, l, r, _, hc⟩ := hF.childOf hu.sub hk
  obtain ⟨np, n1, n2⟩ := hF.below hc.sub
  have hr := r.size_pos
  refine ⟨p, np, ?_, n1, ?_⟩
  · rw [hu.holds.fields.2.1, hc.rcd]; cases isL <;> rfl
  · rcases n2.shape with ⟨_, h0, _⟩ | ⟨a', l', r', h0, _, h1, h2⟩
    · exact absurd h0 (by simp)
    · simp only [GTree.node.injEq] at h0
      obtain ⟨_, _, rfl⟩ := h0
      have := hc.idx
      rw [h1, h2]
      simp only [Option.some.injEq, ne_eq]
      cases isL with
      | true => simp only [if_true] at this; omega
      | false => simp only [Bool.false_eq_true, if_false] at this; omega

/-- No node of a fitted tree has `is_left` set. -/
theorem C49_never_set (hT : ValidTask T lab) (h : FitInput c D lab train valid)
    (hf : fitTree R T c gb seed train valid = .ok (arr, w)) {k : Nat} {n : Node F} (hn : NodeAt arr k n) :
    n.isLeft = false := by
  obtain ⟨okP, t, hF⟩ := fit_facts hT h hf
  obtain ⟨u, hu⟩ := hF.ofNode hn
  exact hu.holds.fields.2.2.2.2.2.2.2.2.2.2

end

/-- C49 is violated by the code: there is a fitted tree with a split whose left child is not marked `is_left` (and by
`C49_never_set` this is so for every tree with a split). -/
theorem C49_violated : ∃ (c : Ctx Int) (D : Data Int) (arr : TreeArr Int Int) (w : Work Nat) (n m : Node Int) (l : Nat),
    letI := toyNum
    ValidTask (G := Nat) (regressorTask toyArgsort) (fun _ : Int => True) ∧
    FitInput c D (fun _ => True) toyTrain toyValid ∧
    fitTree toyRng (regressorTask toyArgsort) c toyGarbage 3 toyTrain toyValid = .ok (arr, w) ∧
    NodeAt arr 0 n ∧ n.left = some l ∧ NodeAt arr l m ∧ m.isLeft = false := by
  obtain ⟨c, D, arr, w, n, _, l, h1, h2, _, h4, _⟩ := toy_tree
  exact ⟨c, D, arr, w, n, l, 4, h1.1, h1.2.1, h1.2.2, h2.1, h2.2.2, h4.1,
    letI := toyNum; C49_never_set h1.1 h1.2.1 h1.2.2 h4.1⟩

/-! ### C52 -/

/-- Operations on the work stack. -/
inductive StackOp (F : Type) where
  | push (r : Record F)
  | pop

/-- A stack as a list: the popped records and the remaining stack, `none` when a pop finds the stack empty. -/
def Spec.stackRun : List (StackOp F) → List (Record F) → Option (List (Record F) × List (Record F))
  | [], s => some ([], s)
  | .push r :: ops, s => Spec.stackRun ops (r :: s)
  | .pop :: _, [] => none
  | .pop :: ops, r :: s => (Spec.stackRun ops s).map fun x => (r :: x.1, x.2)

/-- The operations on the array of records, `has_records` being called before each pop. -/
def recordsRun (gb : Garbage F) : List (StackOp F) → Records F → M (Option (List (Record F) × Records F))
  | [], s => .ok (some ([], s))
  | .push r :: ops, s => do
    let s ← s.push gb r
    recordsRun gb ops s
  | .pop :: ops, s =>
    if s.nonEmpty then do
      let (r, s) ← s.pop
      let x ← recordsRun gb ops s
      return x.map fun x => (r :: x.1, x.2)
    else .ok none

/-- C52, stack. For every sequence of operations and every positive initial capacity, the array of records behaves as a
stack: pops return the same records and the remaining contents are the same (read by popping everything). -/
theorem C52_stack (gb : Garbage F) (capacity : Nat) (hc : 0 < capacity) (ops : List (StackOp F)) :
    ∃ o, recordsRun gb ops (Records.init gb capacity) = .ok o ∧ o.map Prod.fst = (Spec.stackRun ops []).map Prod.fst ∧
      ∀ out s, o = some (out, s) → ∃ l, Spec.stackRun ops [] = some (out, l) ∧
        recordsRun gb (List.replicate l.length .pop) s = .ok (some (l, { s with top := 0 })) := by
  -- popping everything
  have hall : ∀ (l : List (Record F)) (s : Records F), s.Inv → s.abs = l →
      recordsRun gb (List.replicate l.length .pop) s = .ok (some (l, { s with top := 0 })) := by
    intro l
    induction l with
    | nil =>
      intro s hs ha
      have : s.top = 0 := by
        by_contra h0
        have := (Records.nonEmpty_iff hs).1 (by simp [Records.nonEmpty]; omega)
        exact this ha
      cases s
      simp only at this
      subst this
      rfl
    | cons r l ih =>
      intro s hs ha
      have hne := (Records.nonEmpty_iff hs).2 (by rw [ha]; simp)
      obtain ⟨s', e1, e2, e3⟩ := Records.pop_spec hs ha
      have hs' : { s' with top := 0 } = { s with top := 0 } := by
        unfold Records.pop at e1
        cases hu : usub s.top 1 with
        | error e => rw [hu] at e1; exact absurd e1 (by simp)
        | ok top =>
          rw [hu] at e1
          simp only [bind_ok] at e1
          cases hr : rd s.stack top with
          | error e => rw [hr] at e1; exact absurd e1 (by simp)
          | ok r' =>
            rw [hr] at e1
            simp only [bind_ok, pure_eq_ok] at e1
            injection e1 with e1
            injection e1 with _ e1
            rw [← e1]
      simp only [List.length_cons, List.replicate_succ, recordsRun, hne, if_true, e1, bind_ok, ih s' e2 e3, hs',
        pure_eq_ok, Option.map_some]
  have main : ∀ (ops : List (StackOp F)) (s : Records F), s.Inv →
      ∃ o, recordsRun gb ops s = .ok o ∧ o.map Prod.fst = (Spec.stackRun ops s.abs).map Prod.fst ∧
        ∀ out s', o = some (out, s') → s'.Inv ∧ Spec.stackRun ops s.abs = some (out, s'.abs) := by
    intro ops
    induction ops with
    | nil =>
      intro s hs
      refine ⟨_, rfl, rfl, ?_⟩
      intro out s' h
      simp only [Option.some.injEq, Prod.mk.injEq] at h
      obtain ⟨rfl, rfl⟩ := h
      exact ⟨hs, rfl⟩
    | cons op ops ih =>
      intro s hs
      cases op with
      | push r =>
        obtain ⟨s1, e1, e2, e3⟩ := Records.push_spec gb hs r
        obtain ⟨o, f1, f2, f3⟩ := ih s1 e2
        rw [e3] at f2 f3
        exact ⟨o, by simp only [recordsRun, e1, bind_ok, f1], f2, f3⟩
      | pop =>
        cases ha : s.abs with
        | nil =>
          have hne : s.nonEmpty = false := by
            by_contra h0
            exact (Records.nonEmpty_iff hs).1 (by simpa using h0) ha
          refine ⟨none, by simp [recordsRun, hne], rfl, ?_⟩
          intro out s' h; simp at h
        | cons r rest =>
          have hne := (Records.nonEmpty_iff hs).2 (by rw [ha]; simp)
          obtain ⟨s1, e1, e2, e3⟩ := Records.pop_spec hs ha
          obtain ⟨o, f1, f2, f3⟩ := ih s1 e2
          rw [e3] at f2 f3
          refine ⟨o.map fun x => (r :: x.1, x.2), by simp only [recordsRun, hne, if_true, e1, bind_ok, f1, pure_eq_ok], ?_, ?_⟩
          · simp only [Spec.stackRun, Option.map_map]
            cases o with
            | none =>
              cases h0 : Spec.stackRun ops rest with
              | none => rfl
              | some x => rw [h0] at f2; simp at f2
            | some x =>
              cases h0 : Spec.stackRun ops rest with
              | none => rw [h0] at f2; simp at f2
              | some y => rw [h0] at f2; simp at f2; simp [f2]
          · intro out s' h
            cases o with
            | none => simp at h
            | some x =>
              simp only [Option.map_some, Option.some.injEq, Prod.mk.injEq] at h
              obtain ⟨rfl, rfl⟩ := h
              obtain ⟨g1, g2⟩ := f3 x.1 x.2 rfl
              exact ⟨g1, by simp [Spec.stackRun, g2]⟩
  obtain ⟨i1, i2⟩ := Records.init_inv gb hc
  obtain ⟨o, e1, e2, e3⟩ := main ops _ i1
  rw [i2] at e2 e3
  refine ⟨o, e1, e2, ?_⟩
  intro out s h
  obtain ⟨g1, g2⟩ := e3 out s h
  exact ⟨s.abs, g2, hall _ s g1 rfl⟩

/-- C52, growth. Resizing keeps all the entries, and gives the requested length. -/
theorem C52_resize {α : Type} (fill : Nat → α) (a : List α) (n : Nat) (h : a.length ≤ n) :
    ∃ b, resizeArr fill a n = .ok b ∧ b.length = n ∧ ∀ i, i < a.length → b[i]? = a[i]? := by
  refine ⟨_, resizeArr_of fill a h, by simp; omega, ?_⟩
  intro i hi
  rw [List.getElem?_append_left hi]

example : ([1, 2, 3] : List Nat).length ≤ 8 := by decide

/-- Insertion of a list of nodes, one after the other, each with its prediction. -/
def Spec.insertAll (zeroP : P) (garbage : Nat → Nat) :
    List (Record F × NodeCtx F Y P × SplitInfo) → TreeArr F P → M (TreeArr F P)
  | [], t => .ok t
  | (r, nc, i) :: l, t => do
    let (t, k) ← addNode zeroP garbage t r nc i
    let yp ← wr t.yPred k nc.yPred
    Spec.insertAll zeroP garbage l { t with yPred := yp }

/-- C52, insertion. Any number of insertions (with parents that exist) in a fresh tree of any positive capacity succeeds, and
afterwards every entry is still there: predictions, ranges, counts, losses, impurities, and the sets of categories. -/
theorem C52_insertions (zeroP : P) (garbage : Nat → Nat) (capacity : Nat) (hc : 0 < capacity)
    (l : List (Record F × NodeCtx F Y P × SplitInfo))
    (hp : ∀ (k : Nat) x, l[k]? = some x → ∀ p, x.1.parent = some p → p < k) :
    ∃ t0 t, resizeTree zeroP (TreeArr.empty : TreeArr F P) (some capacity) = .ok t0 ∧
      Spec.insertAll zeroP garbage l t0 = .ok t ∧ t.nodeCount = l.length ∧
      ∀ (k : Nat) r nc i, l[k]? = some (r, nc, i) → ∃ n, t.nodes[k]? = some n ∧ t.yPred[k]? = some nc.yPred ∧
        n.nodeId = k ∧ n.parent = r.parent ∧ n.depth = r.depth ∧ n.isLeaf = i.isLeaf ∧ n.impurity = r.impurity ∧
        n.loss = nc.loss ∧ n.sT = r.sT ∧ n.eT = r.eT ∧ n.sV = r.sV ∧ n.eV = r.eV ∧ n.nTrain = nc.nTrain ∧
        n.nValid = nc.nValid ∧ n.wTrain = nc.wTrain ∧ n.wValid = nc.wValid ∧ n.isCat = i.isCat ∧
        (i.isLeaf = false → n.feature = some i.feature ∧ n.binThr = some i.bin) ∧
        (i.isCat = true → slice t.binParts n.bpS n.bpE = i.partition) := by
  -- what is known of an entry
  let Entry : TreeArr F P → Nat → Record F × NodeCtx F Y P × SplitInfo → Prop := fun t k x =>
    ∃ n, t.nodes[k]? = some n ∧ t.yPred[k]? = some x.2.1.yPred ∧ ∃ bS bE,
      n = { newNode k x.1 x.2.1 x.2.2 bS bE with left := n.left, right := n.right } ∧ bE ≤ t.bpEnd ∧
      (x.2.2.isCat = true → slice t.binParts bS bE = x.2.2.partition)
  have main : ∀ (l pre : List (Record F × NodeCtx F Y P × SplitInfo)) (t : TreeArr F P), TInv t →
      t.nodeCount = pre.length → (∀ (k : Nat) x, pre[k]? = some x → Entry t k x) →
      (∀ (k : Nat) x, (pre ++ l)[k]? = some x → ∀ p, x.1.parent = some p → p < k) →
      ∃ t', Spec.insertAll zeroP garbage l t = .ok t' ∧ t'.nodeCount = (pre ++ l).length ∧
        ∀ (k : Nat) x, (pre ++ l)[k]? = some x → Entry t' k x := by
    intro l
    induction l with
    | nil =>
      intro pre t _ h1 h2 _
      exact ⟨t, rfl, by simpa using h1, by simpa using h2⟩
    | cons x l ih =>
      obtain ⟨r, nc, i⟩ := x
      intro pre t ht h1 h2 h3
      obtain ⟨t1, yp, bS, bE, a1, a2, a3, a4, a5, a6, a7, a8, a9, a10, a11, a12⟩ :=
        addNode_spec zeroP garbage ht r nc i (by
          rw [h1]
          exact h3 pre.length (r, nc, i) (by simp)) nc.yPred
      obtain ⟨t', e1, e2, e3⟩ := ih (pre ++ [(r, nc, i)]) { t1 with yPred := yp } a3 (by simp [a4, h1]) (by
        intro k x hx
        by_cases hk : k < pre.length
        · rw [List.getElem?_append_left hk] at hx
          obtain ⟨n, m1, m2, bS', bE', m3, m4, m5⟩ := h2 k x hx
          have hk' : k < t.nodeCount := by omega
          refine ⟨withChild r t.nodeCount k n, ?_, ?_, bS', bE', ?_, ?_, ?_⟩
          · simp only; rw [a8 k hk', m1]; rfl
          · simp only; rw [a9 k hk']; exact m2
          · have hm3 : ∀ lft rgt, ({ n with left := lft, right := rgt } : Node F) =
                { newNode k x.1 x.2.1 x.2.2 bS' bE' with left := lft, right := rgt } := by
              intro lft rgt; rw [m3]
            unfold withChild
            split
            · split
              · exact hm3 _ _
              · exact hm3 _ _
            · exact m3
          · simp only [a5]; omega
          · intro hcat
            simp only
            rw [slice_of_take_eq a10 m4]
            exact m5 hcat
        · have hlt := (List.getElem?_eq_some_iff.1 hx).1
          have hk2 : k = pre.length := by simp at hlt; omega
          subst hk2
          simp only [List.getElem?_concat_length, Option.some.injEq] at hx
          subst hx
          rw [← h1]
          refine ⟨_, a6, a7, bS, bE, rfl, ?_, ?_⟩
          · simp only [a5]
            by_cases h0 : 0 < infoLen i
            · have := a11 h0; omega
            · have := a12 (by omega); omega
          · intro hcat
            by_cases h0 : 0 < infoLen i
            · exact (a11 h0).2.2
            · have hb := a12 (by omega)
              have hpe : i.partition = [] := by
                unfold infoLen at h0
                by_contra hne
                have := List.length_pos_iff.2 hne
                rw [if_pos ⟨hcat, this⟩] at h0
                exact h0 this
              rw [hb.1, hb.2, hpe]
              simp [slice]) (by simpa using h3)
      refine ⟨t', by simp only [Spec.insertAll, a1, bind_ok, a2, e1], by simpa using e2, by simpa using e3⟩
  obtain ⟨t0, e0, i0, c0⟩ : ∃ t0 : TreeArr F P, resizeTree zeroP TreeArr.empty (some capacity) = .ok t0 ∧ TInv t0 ∧
      t0.nodeCount = 0 := by
    simp only [resizeTree]
    rw [if_neg (by simp [TreeArr.empty])]
    unfold resizeTree'
    rw [resizeArr_of _ _ (by simp [TreeArr.empty]), resizeArr_of _ _ (by simp [TreeArr.empty])]
    simp only [bind_ok, pure_eq_ok]
    refine ⟨_, rfl, ⟨?_, ?_, hc, ?_, ?_, ?_, ?_⟩, rfl⟩
    · simp [TreeArr.empty]
    · simp [TreeArr.empty]
    · simp [TreeArr.empty]
    · rfl
    · exact le_refl _
    · intro i hi hi2
      simp only [TreeArr.empty, List.nil_append, List.length_nil, List.getElem?_map] at hi hi2 ⊢
      rw [List.getElem?_range (by omega)]
      rfl
  obtain ⟨t, e1, e2, e3⟩ := main l [] t0 i0 (by simp [c0]) (by simp) (by simpa using hp)
  refine ⟨t0, t, e0, e1, by simpa using e2, ?_⟩
  intro k r nc i hk
  obtain ⟨n, m1, m2, bS, bE, m3, m4, m5⟩ := e3 k (r, nc, i) (by simpa using hk)
  refine ⟨n, m1, m2, ?_⟩
  rw [m3]
  refine ⟨rfl, rfl, rfl, rfl, rfl, rfl, rfl, rfl, rfl, rfl, rfl, rfl, rfl, rfl, rfl, ?_, m5⟩
  intro hl
  simp [newNode, hl]

/-- A stack with more pushes than the initial capacity, and pops that empty it. -/
example (a b c : Record F) :
    Spec.stackRun [.push a, .push b, .pop, .push c, .push a, .pop, .pop, .pop] ([] : List (Record F)) =
      some ([b, a, c, a], []) ∧ 0 < 1 := ⟨rfl, by decide⟩

/-- A list of insertions: a root with a categorical split and its two children. -/
example (nc : NodeCtx F Y P) : ∀ (k : Nat) x, ([((⟨none, 0, false, none, 0, 3, 0, 0⟩ : Record F), nc, (⟨false, 1, 0, true, [0, 2]⟩ : SplitInfo)),
    (⟨some 0, 1, false, none, 2, 3, 0, 0⟩, nc, ⟨true, 0, 0, false, []⟩),
    (⟨some 0, 1, true, none, 0, 2, 0, 0⟩, nc, ⟨true, 0, 0, false, []⟩)])[k]? = some x →
      ∀ p, x.1.parent = some p → p < k := by
  intro k x hx p hp
  match k, hx with
  | 0, hx => simp at hx; subst hx; simp at hp
  | 1, hx => simp at hx; subst hx; simp at hp; omega
  | 2, hx => simp at hx; subst hx; simp at hp; omega
  | k + 3, hx => simp at hx

end Verif
