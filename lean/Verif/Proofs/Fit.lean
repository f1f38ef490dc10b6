import Verif.Proofs.Grow

set_option linter.unusedSectionVars false

/-! `compute_tree_weights` and the whole of `grow`. -/
namespace Verif

open Spec

variable {F Y P G : Type} [Num F]

theorem GOK.sub {T : Task F Y P G} {c : Ctx F} {D : Data F} {lab : F → Prop} {okP : P → Prop} {t u : GTree F Y P}
    {k j : Nat} (hs : SubAt t k u j) (h : GOK T c D lab okP t k) : GOK T c D lab okP u j := by
  induction hs with
  | refl => exact h
  | left _ ih => exact ih h.2.2.2.2.1
  | right _ ih => exact ih h.2.2.2.1

theorem Repr.sub {arr : TreeArr F P} {b : Nat} {t u : GTree F Y P} {k j : Nat} (hs : SubAt t k u j)
    (h : Repr arr b t k) : Repr arr b u j := by
  induction hs with
  | refl => exact h
  | left _ ih => exact ih h.2.2
  | right _ ih => exact ih h.2.1

theorem Final.sub {w : Work G} {t u : GTree F Y P} {k j : Nat} (hs : SubAt t k u j) (h : Final w t) : Final w u := by
  induction hs with
  | refl => exact h
  | left _ ih => exact ih h.2.2.1
  | right _ ih => exact ih h.2.2.2

/-- The entry of the root of a represented tree. -/
theorem Repr.root {arr : TreeArr F P} {b : Nat} {t : GTree F Y P} {k : Nat} (h : Repr arr b t k) :
    ∃ n, HoldsNode arr b k t.root n := by
  cases t with
  | leaf a => obtain ⟨n, h1, _⟩ := h; exact ⟨n, h1⟩
  | node a l r => obtain ⟨⟨n, h1, _⟩, _⟩ := h; exact ⟨n, h1⟩

/-- The logarithmic weight of a tree, by recursion. -/
def treeLogW (step : F) : GTree F Y P → F
  | .leaf a => Num.mul (Num.neg step) a.nc.loss
  | .node a l r => logSum2Exp (Num.mul (Num.neg step) a.nc.loss) (Num.add (treeLogW step l) (treeLogW step r))

/-- All nodes have their weight. -/
def Weighted (ns : List (Node F)) (step : F) : GTree F Y P → Nat → Prop
  | .leaf a, k => ∃ n, ns[k]? = some n ∧ n.logW = some (treeLogW step (GTree.leaf a))
  | .node a l r, k => (∃ n, ns[k]? = some n ∧ n.logW = some (treeLogW step (GTree.node a l r))) ∧
      Weighted ns step r (k + 1) ∧ Weighted ns step l (k + 1 + r.size)

theorem Weighted.root {ns : List (Node F)} {step : F} {t : GTree F Y P} {k : Nat} (h : Weighted ns step t k) :
    ∃ n, ns[k]? = some n ∧ n.logW = some (treeLogW step t) := by
  cases t with
  | leaf a => exact h
  | node a l r => exact h.1

theorem Weighted.sub {ns : List (Node F)} {step : F} {t u : GTree F Y P} {k j : Nat} (hs : SubAt t k u j)
    (h : Weighted ns step t k) : Weighted ns step u j := by
  induction hs with
  | refl => exact h
  | left _ ih => exact ih h.2.2
  | right _ ih => exact ih h.2.1

theorem Weighted.frame {ns ns' : List (Node F)} {step : F} :
    ∀ {t : GTree F Y P} {k : Nat}, Weighted ns step t k →
      (∀ j : Nat, k ≤ j → j < k + t.size → ns'[j]? = ns[j]?) → Weighted ns' step t k
  | .leaf a, k, h, h1 => by
    obtain ⟨n, e1, e2⟩ := h
    exact ⟨n, (h1 k (le_refl _) (by simp [GTree.size])).trans e1, e2⟩
  | .node a l r, k, h, h1 => by
    obtain ⟨⟨n, e1, e2⟩, hr, hl⟩ := h
    simp only [GTree.size] at h1
    exact ⟨⟨n, (h1 k (le_refl _) (by omega)).trans e1, e2⟩, hr.frame (fun j _ _ => h1 j (by omega) (by omega)),
      hl.frame (fun j _ _ => h1 j (by omega) (by omega))⟩

theorem HoldsNode.setLogW {arr : TreeArr F P} {b k : Nat} {a : GNode F Y P} {n : Node F} (h : HoldsNode arr b k a n)
    {ns : List (Node F)} {x : Option F} (h1 : ns[k]? = some { n with logW := x }) :
    HoldsNode { arr with nodes := ns } b k a { n with logW := x } := by
  obtain ⟨bS, bE, e1, e2, e3⟩ := h.node
  refine ⟨⟨bS, bE, ?_, e2, e3⟩, h1, h.pred⟩
  rw [e1]

theorem HoldsNode.isLeaf {arr : TreeArr F P} {b k : Nat} {a : GNode F Y P} {n : Node F} (h : HoldsNode arr b k a n) :
    n.isLeaf = !a.sp.found ∧ n.loss = a.nc.loss := by
  obtain ⟨bS, bE, e1, _⟩ := h.node
  rw [e1]; exact ⟨rfl, rfl⟩

/-- Leaves of the tree have no split, the other nodes have one. -/
def Shape : GTree F Y P → Prop
  | .leaf a => a.sp.found = false
  | .node a l r => a.sp.found = true ∧ Shape l ∧ Shape r

theorem GOK.shape {T : Task F Y P G} {c : Ctx F} {D : Data F} {lab : F → Prop} {okP : P → Prop} :
    ∀ {t : GTree F Y P} {k : Nat}, GOK T c D lab okP t k → Shape t
  | .leaf _, _, h => h.2.1
  | .node _ _ _, _, h => ⟨h.2.1, GOK.shape h.2.2.2.2.1, GOK.shape h.2.2.2.1⟩

theorem range'_node (k a b : Nat) :
    (List.range' k (a + b + 1)).reverse =
      (List.range' (k + 1 + b) a).reverse ++ ((List.range' (k + 1) b).reverse ++ [k]) := by
  rw [show a + b + 1 = (b + a) + 1 by omega, List.range'_succ,
    ← List.range'_append_1 (s := k + 1), List.reverse_cons, List.reverse_append, List.append_assoc]

theorem foldlM_append' {α σ : Type} (f : σ → α → M σ) (l1 l2 : List α) (s : σ) :
    (l1 ++ l2).foldlM f s = (l1.foldlM f s >>= fun s' => l2.foldlM f s') := List.foldlM_append

theorem Repr.frameNodes {arr : TreeArr F P} {b : Nat} {t : GTree F Y P} {k : Nat} {ns : List (Node F)}
    (h : Repr arr b t k) (h1 : ∀ j : Nat, k ≤ j → j < k + t.size → ns[j]? = arr.nodes[j]?) :
    Repr { arr with nodes := ns } b t k :=
  Repr.frame (t := arr) (t' := { arr with nodes := ns }) rfl (le_refl _) h h1 (fun _ _ _ => rfl)

/-- The loop of `compute_tree_weights` over the indices of a subtree. -/
theorem weights_spec (step : F) : ∀ (t : GTree F Y P) (arr : TreeArr F P) (b k : Nat), Shape t → Repr arr b t k →
    ∃ ns, (List.range' k t.size).reverse.foldlM (weightStep step) arr.nodes = .ok ns ∧
      ns.length = arr.nodes.length ∧ (∀ j : Nat, j < k ∨ k + t.size ≤ j → ns[j]? = arr.nodes[j]?) ∧
      Repr { arr with nodes := ns } b t k ∧ Weighted ns step t k := by
  intro t
  induction t with
  | leaf a =>
    intro arr b k hsh h
    obtain ⟨n, h1, h2, h3⟩ := h
    have hlt : k < arr.nodes.length := by
      obtain ⟨hl, _⟩ := List.getElem?_eq_some_iff.1 h1.entry; exact hl
    have hleaf : n.isLeaf = true := by rw [h1.isLeaf.1, hsh]; rfl
    have hset : (arr.nodes.set k { n with logW := some (Num.mul (Num.neg step) n.loss) })[k]? =
        some { n with logW := some (Num.mul (Num.neg step) n.loss) } := List.getElem?_set_self hlt
    refine ⟨arr.nodes.set k { n with logW := some (Num.mul (Num.neg step) n.loss) }, ?_, by simp, ?_, ?_, ?_⟩
    · simp only [GTree.size, List.range'_one, List.reverse_singleton, List.foldlM_cons, List.foldlM_nil, weightStep,
        rd_ok.2 h1.entry, bind_ok, hleaf, if_true, wr_of_lt _ hlt, pure_eq_ok]
    · intro j hj
      simp only [GTree.size] at hj
      rw [List.getElem?_set_ne (by omega)]
    · exact ⟨_, h1.setLogW hset, h2, h3⟩
    · exact ⟨_, hset, by simp only [treeLogW]; rw [h1.isLeaf.2]⟩
  | node a l r ihl ihr =>
    intro arr b k hsh h
    obtain ⟨⟨n, h1, h2, h3⟩, hr, hl⟩ := h
    obtain ⟨hf, hshl, hshr⟩ := hsh
    have hlt : k < arr.nodes.length := by
      obtain ⟨hl, _⟩ := List.getElem?_eq_some_iff.1 h1.entry; exact hl
    have hleaf : n.isLeaf = false := by rw [h1.isLeaf.1]; simp only [hf]; rfl
    obtain ⟨ns1, a1, a2, a3, a4, a5⟩ := ihl arr b _ hshl hl
    have hr1 : Repr { arr with nodes := ns1 } b r (k + 1) :=
      hr.frameNodes (fun j _ _ => a3 j (by omega))
    obtain ⟨ns2, b1, b2, b3, b4, b5⟩ := ihr { arr with nodes := ns1 } b _ hshr hr1
    simp only at b1 b2 b3 b4
    have hk2 : ns2[k]? = some n := by rw [b3 k (by omega), a3 k (by omega)]; exact h1.entry
    obtain ⟨nl, c1, c2⟩ := a5.root
    obtain ⟨nr, d1, d2⟩ := b5.root
    have c1' : ns2[k + 1 + r.size]? = some nl := by rw [b3 _ (by omega)]; exact c1
    have hlt2 : k < ns2.length := by omega
    let x := logSum2Exp (Num.mul (Num.neg step) n.loss) (Num.add (treeLogW step l) (treeLogW step r))
    have hset : (ns2.set k { n with logW := some x })[k]? = some { n with logW := some x } := List.getElem?_set_self hlt2
    refine ⟨ns2.set k { n with logW := some x }, ?_, by simp; omega, ?_, ⟨?_, ?_, ?_⟩, ⟨?_, ?_, ?_⟩⟩
    · simp only [GTree.size]
      rw [range'_node, foldlM_append', a1, bind_ok, foldlM_append', b1, bind_ok]
      simp only [List.foldlM_cons, List.foldlM_nil, weightStep, rd_ok.2 hk2, bind_ok, hleaf, h2, h3, idx,
        rd_ok.2 c1', rd_ok.2 d1, c2, d2, wr_of_lt _ hlt2, pure_eq_ok]
      rfl
    · intro j hj
      simp only [GTree.size] at hj
      rw [List.getElem?_set_ne (by omega), b3 j (by omega), a3 j (by omega)]
    · refine ⟨_, h1.setLogW hset, h2, h3⟩
    · refine Repr.frameNodes (arr := { arr with nodes := ns2 }) b4 ?_
      intro j hj1 hj2
      simp only
      rw [List.getElem?_set_ne (by omega)]
    · refine Repr.frameNodes (arr := { arr with nodes := ns1 }) a4 ?_
      intro j hj1 hj2
      simp only
      rw [List.getElem?_set_ne (by omega), b3 j (by omega)]
    · refine ⟨_, hset, ?_⟩
      simp only [treeLogW, x]; rw [h1.isLeaf.2]
    · refine b5.frame ?_
      intro j hj1 hj2
      rw [List.getElem?_set_ne (by omega)]
    · refine a5.frame ?_
      intro j hj1 hj2
      rw [List.getElem?_set_ne (by omega), b3 j (by omega)]

theorem growLoop_done (R : Rng G) (T : Task F Y P G) (c : Ctx F) (gb : Garbage F) (fuel : Nat) {g : GState F P G}
    (h : g.recs.nonEmpty = false) : growLoop R T c gb fuel g = .ok g := by
  cases fuel <;> simp [growLoop, h]

/-- The record of the root. -/
def rootRecord (nT nV : Nat) : Record F :=
  { parent := none, depth := 0, isLeft := false, impurity := none, sT := 0, eT := nT, sV := 0, eV := nV }

/-- What a tree fit returns: arrays that represent a grown tree. -/
structure Fitted (R : Rng G) (T : Task F Y P G) (c : Ctx F) (D : Data F) (lab : F → Prop) (okP : P → Prop)
    (gb : Garbage F) (seed : Nat) (train valid : List Nat) (arr : TreeArr F P) (w : Work G) (t : GTree F Y P) : Prop where
  grown : ∃ s', Grown R T c ⟨initWork R c gb seed train valid, 0, 0⟩ (rootRecord train.length valid.length) t s' ∧
    s'.work = w
  ok : GOK T c D lab okP t 0
  rcd : t.root.rcd = rootRecord train.length valid.length
  okTrain : t.root.train = train
  okValid : t.root.valid = valid
  size : t.size + 1 ≤ 2 * train.length
  final : Final w t
  shT : w.partTrain.Perm train
  shV : w.partValid.Perm valid
  count : arr.nodeCount = t.size
  lenN : arr.nodes.length = arr.capacity ∧ t.size ≤ arr.capacity
  lenP : arr.yPred.length = arr.capacity
  lenB : arr.bpEnd ≤ arr.binParts.length
  repr : Repr arr arr.bpEnd t 0
  weights : c.aggregation = true → Weighted arr.nodes c.step t 0

theorem nodup_length_le {l : List Nat} {n : Nat} (h : l.Nodup) (hl : ∀ i ∈ l, i < n) : l.length ≤ n := by
  have := h.subperm (l₂ := List.range n) (fun i hi => List.mem_range.2 (hl i hi))
  simpa using this.length_le

theorem initWork_winv (R : Rng G) {c : Ctx F} {D : Data F} {lab : F → Prop} (gb : Garbage F) (seed : Nat)
    {train valid : List Nat} (h : FitInput c D lab train valid) :
    WInv c D lab train.length valid.length (initWork R c gb seed train valid) := by
  have h1 := nodup_length_le h.nodupT (fun i hi => (h.okTrain i hi).1)
  have h2 := nodup_length_le h.nodupV (fun i hi => (h.okValid i hi).1)
  have hn := h.holds.n
  have hd := h.holds.d
  refine ⟨rfl, rfl, h.okTrain, h.okValid, ?_, ?_, ?_, ?_, ?_, ?_⟩
  · simp [initWork]; omega
  · simp [initWork]; omega
  · simp [initWork]; omega
  · simp [initWork]
  · exact List.nodup_range
  · intro f hf
    have := List.mem_range.1 hf
    have := h.params.feats.2
    omega

/-- Fitting a tree succeeds. -/
theorem fitTree_spec (R : Rng G) {T : Task F Y P G} {lab : F → Prop} {okY : Y → Prop} {okP : P → Prop}
    (hT : TaskSafe T lab okY okP) {c : Ctx F} {D : Data F} (gb : Garbage F) (seed : Nat) {train valid : List Nat}
    (h : FitInput c D lab train valid) :
    ∃ arr w t, fitTree R T c gb seed train valid = .ok (arr, w) ∧
      Fitted R T c D lab okP gb seed train valid arr w t := by
  have hpos : 0 < train.length := List.length_pos_iff.2 h.nonempty
  have hW := initWork_winv R gb seed h
  obtain ⟨t, s', o⟩ := grown_exists R hT (okP := okP) h.holds h.params (nT := train.length) (nV := valid.length)
    train.length ⟨initWork R c gb seed train valid, 0, 0⟩ (rootRecord train.length valid.length) (by simp [rootRecord]) hW
    (by simpa [rootRecord] using hpos) (by simp [rootRecord]) (by simp [rootRecord]) (by simp [rootRecord])
  -- the initial arrays
  obtain ⟨t0, e0, i0, c0, b0⟩ : ∃ t0 : TreeArr F P, resizeTree T.zeroP TreeArr.empty (some 2047) = .ok t0 ∧ TInv t0 ∧
      t0.nodeCount = 0 ∧ t0.bpEnd = 0 := by
    simp only [resizeTree]
    rw [if_neg (by simp [TreeArr.empty])]
    unfold resizeTree'
    rw [resizeArr_of _ _ (by simp [TreeArr.empty]), resizeArr_of _ _ (by simp [TreeArr.empty])]
    simp only [bind_ok, pure_eq_ok]
    refine ⟨_, rfl, ⟨?_, ?_, ?_, ?_, ?_, ?_, ?_⟩, rfl, rfl⟩
    · simp only [List.length_append, List.length_map, List.length_range]; rfl
    · simp only [List.length_append, List.length_map, List.length_range]; rfl
    · simp only; omega
    · simp only [TreeArr.empty]; omega
    · rfl
    · exact le_refl _
    · intro i hi hi2
      simp only [TreeArr.empty, List.nil_append, List.length_nil, List.getElem?_map] at hi hi2 ⊢
      rw [List.getElem?_range (by omega)]
      rfl
  obtain ⟨ri, ra⟩ := Records.init_inv gb (n := 10) (by omega)
  obtain ⟨rs, p1, p2, p3⟩ := Records.push_spec gb ri (rootRecord train.length valid.length)
  rw [ra] at p3
  obtain ⟨g', m, lp, rep, _, _, _⟩ := growLoop_of_grown R gb o.grown
    { tree := t0, recs := rs, work := initWork R c gb seed train valid } [] ⟨p2, p3, i0, c0, b0, rfl⟩
    (by intro p hp; simp [rootRecord] at hp)
  have hsz := o.size
  simp only [rootRecord, Nat.sub_zero] at hsz
  have hne : g'.recs.nonEmpty = false := by
    by_contra h0
    exact ((Records.nonEmpty_iff m.inv).1 (by simpa using h0)) m.abs
  have hloop : growLoop R T c gb (2 * train.length + 1)
      { tree := t0, recs := rs, work := initWork R c gb seed train valid } = .ok g' := by
    have := lp (2 * train.length + 1 - t.size)
    rw [show t.size + (2 * train.length + 1 - t.size) = 2 * train.length + 1 by omega] at this
    rw [this, growLoop_done R T c gb _ hne]
  have hfit : fitTree R T c gb seed train valid = (if c.aggregation = true then do
      let nodes ← computeTreeWeights g'.tree.nodes g'.tree.nodeCount c.step
      return ({ g'.tree with nodes := nodes }, g'.work) else return (g'.tree, g'.work)) := by
    unfold fitTree grow
    simp only [e0, bind_ok]
    have : (initWork R c gb seed train valid).partTrain = train := rfl
    have hv : (initWork R c gb seed train valid).partValid = valid := rfl
    rw [this, hv]
    simp only [rootRecord] at p1
    simp only [p1, bind_ok, hloop]
  have hcount : g'.tree.nodeCount = t.size := by rw [m.count, o.id]; simp
  rw [← m.bp] at rep
  have hshT := o.shT.all_perm (by simp [rootRecord]) (by simp [rootRecord, initWork])
  have hshV := o.shV.all_perm (by simp [rootRecord]) (by simp [rootRecord, initWork])
  have htr : t.root.train = train := by
    rw [o.train]; simp only [rootRecord]; exact slice_zero_length train
  have hva : t.root.valid = valid := by
    rw [o.valid]; simp only [rootRecord]; exact slice_zero_length valid
  have hcap := m.tinv.count
  rw [hcount] at hcap
  have hend : g'.tree.bpEnd ≤ g'.tree.binParts.length := by rw [m.tinv.lenB]; exact m.tinv.endB
  cases ha : c.aggregation with
  | false =>
    refine ⟨g'.tree, g'.work, t, by rw [hfit, ha]; rfl, ⟨_, o.grown, m.work.symm⟩, o.ok, o.rcd, htr, hva, hsz, ?_, ?_, ?_,
      hcount, ⟨m.tinv.lenN, hcap⟩, m.tinv.lenP, hend, rep, fun h => absurd h (by simp [ha])⟩
    · rw [m.work]; exact o.final
    · rw [m.work]; exact hshT
    · rw [m.work]; exact hshV
  | true =>
    obtain ⟨ns, w1, w2, w3, w4, w5⟩ := weights_spec c.step t g'.tree g'.tree.bpEnd 0 o.ok.shape rep
    have hw1 : computeTreeWeights g'.tree.nodes g'.tree.nodeCount c.step = .ok ns := by
      unfold computeTreeWeights
      rw [hcount, List.range_eq_range']
      exact w1
    refine ⟨{ g'.tree with nodes := ns }, g'.work, t, by rw [hfit, ha]; simp only [if_true, hw1, bind_ok, pure_eq_ok],
      ⟨_, o.grown, m.work.symm⟩, o.ok, o.rcd, htr, hva, hsz, ?_, ?_, ?_, hcount, ⟨?_, hcap⟩, m.tinv.lenP, hend, w4,
      fun _ => w5⟩
    · rw [m.work]; exact o.final
    · rw [m.work]; exact hshT
    · rw [m.work]; exact hshV
    · rw [w2]; exact m.tinv.lenN

end Verif
