import Verif.Proofs.Cut
import Verif.Spec.Deep
import Verif.Model.Inspect

/-! A limit of the depth that no node reaches. -/
set_option linter.unusedSectionVars false
namespace Verif

open Spec

variable {F Y P G : Type} [Num F]

theorem chooseSplit_depth {T : Task F Y P G} {c : Ctx F} {m : Nat} {r : Record F} {nc : NodeCtx F Y P} {w : Work G} (h : r.depth < c.maxDepth) (h' : r.depth < m) :
    chooseSplit T { c with maxDepth := m } r nc w = chooseSplit T c r nc w := by
  have hs : stopHere { c with maxDepth := m } r nc.nTrain nc.nValid = stopHere c r nc.nTrain nc.nValid := by
    unfold stopHere
    simp only [decide_eq_false (Nat.not_le.2 h), decide_eq_false (Nat.not_le.2 h')]
  unfold chooseSplit
  rw [hs]
  have := fun g => findNodeSplit_limits T c m c.minSplit nc w.sampled g
  split
  · rfl
  · exact this _

/-- The loops of two trees with different limits that no node reaches. -/
theorem growLoop_deep (R : Rng G) {T : Task F Y P G} {c : Ctx F} (gb : Garbage F) {m : Nat} {s : RS G} {r : Record F}
    {t : GTree F Y P} {s' : RS G} (h : Grown R T c s r t s') (hall : t.All fun a => a.rcd.depth < c.maxDepth ∧ a.rcd.depth < m) :
    ∀ (g : GState F P G) (rest : List (Record F)), Match g s (r :: rest) → (∀ p, r.parent = some p → p < s.id) →
      ∃ g', Match g' s' rest ∧ (∀ fuel, growLoop R T c gb (t.size + fuel) g = growLoop R T c gb fuel g') ∧
        ∀ fuel, growLoop R T { c with maxDepth := m } gb (t.size + fuel) g = growLoop R T { c with maxDepth := m } gb fuel g' := by
  induction h with
  | @leaf s r nc w1 sp gr e1 e2 e3 =>
    intro g rest hm hp
    have e2' : chooseSplit T { c with maxDepth := m } r nc w1 = .ok (sp, gr) := (chooseSplit_depth hall.1 hall.2).trans e2
    have e1' : computeNodeContext R T { c with maxDepth := m } s.work r.sT r.eT r.sV r.eV = .ok (nc, w1) := e1
    obtain ⟨rs, p1, p2, p3⟩ := Records.pop_spec hm.inv hm.abs
    obtain ⟨t1, yp, bS, bE, a1, a2, a3, a4, a5, -⟩ :=
      addNode_spec T.zeroP gb.bin hm.tinv r nc sp.info (by rw [hm.count]; exact hp) nc.yPred
    rw [hm.count] at a1 a2 a4
    rw [hm.bp] at a5
    rw [infoLen_info] at a5
    have hst : growStep R T c gb g = .ok
        { tree := { t1 with yPred := yp }, recs := rs, work := { w1 with rng := gr } } := by
      unfold growStep
      simp only [p1, bind_ok, hm.work, e1, e2, a1, a2, e3, pure_eq_ok]
      rfl
    have hst' : growStep R T { c with maxDepth := m } gb g = .ok
        { tree := { t1 with yPred := yp }, recs := rs, work := { w1 with rng := gr } } := by
      unfold growStep
      simp only [p1, bind_ok, hm.work, e1', e2', a1, a2, e3, pure_eq_ok]
      rfl
    have hne : g.recs.nonEmpty = true := (Records.nonEmpty_iff hm.inv).2 (by rw [hm.abs]; simp)
    refine ⟨{ tree := { t1 with yPred := yp }, recs := rs, work := { w1 with rng := gr } }, ⟨p2, p3, a3, a4, a5, rfl⟩, fun fuel => ?_, fun fuel => ?_⟩
    · simp only [GTree.size]
      rw [Nat.add_comm 1 fuel]
      simp only [growLoop, hne, if_true, hst, bind_ok]
    · simp only [GTree.size]
      rw [Nat.add_comm 1 fuel]
      simp only [growLoop, hne, if_true, hst', bind_ok]
  | @node s r nc w1 sp gr w2 posT posV tl tr s2 s3 e1 e2 e3 e4 h5 h6 ih1 ih2 =>
    intro g rest hm hp
    have e2' : chooseSplit T { c with maxDepth := m } r nc w1 = .ok (sp, gr) := (chooseSplit_depth hall.1.1 hall.1.2).trans e2
    have e1' : computeNodeContext R T { c with maxDepth := m } s.work r.sT r.eT r.sV r.eV = .ok (nc, w1) := e1
    have e4' : splitIndices { c with maxDepth := m } sp { w1 with rng := gr } r.sT r.eT r.sV r.eV = .ok (w2, posT, posV) := e4
    obtain ⟨rs, p1, p2, p3⟩ := Records.pop_spec hm.inv hm.abs
    obtain ⟨t1, yp, bS, bE, a1, a2, a3, a4, a5, -⟩ :=
      addNode_spec T.zeroP gb.bin hm.tinv r nc sp.info (by rw [hm.count]; exact hp) nc.yPred
    rw [hm.count] at a1 a2 a4
    rw [hm.bp] at a5
    rw [infoLen_info] at a5
    obtain ⟨rs1, r1, r2, r3⟩ := Records.push_spec gb p2 (leftRecord r sp s.id posT posV)
    obtain ⟨rs2, r4, r5, r6⟩ := Records.push_spec gb r2 (rightRecord r sp s.id posT posV)
    rw [r3, p3] at r6
    have hst : growStep R T c gb g = .ok { tree := { t1 with yPred := yp }, recs := rs2, work := w2 } := by
      unfold growStep
      simp only [p1, bind_ok, hm.work, e1, e2, a1, a2, e3, e4, r1, r4, pure_eq_ok, if_true]
    have hst' : growStep R T { c with maxDepth := m } gb g = .ok { tree := { t1 with yPred := yp }, recs := rs2, work := w2 } := by
      unfold growStep
      simp only [p1, bind_ok, hm.work, e1', e2', a1, a2, e3, e4', r1, r4, pure_eq_ok, if_true]
    obtain ⟨g1, m1, l1, l1'⟩ := ih1 hall.2.2 { tree := { t1 with yPred := yp }, recs := rs2, work := w2 } _
      ⟨r5, r6, a3, a4, a5, rfl⟩ (by intro p hp'; simp only [rightRecord, Option.some.injEq] at hp' ⊢; omega)
    have id1 := h5.id
    simp only at id1
    obtain ⟨g2, m2, l2, l2'⟩ := ih2 hall.2.1 g1 rest m1
      (by intro p hp'; simp only [leftRecord, Option.some.injEq] at hp'; omega)
    have hne : g.recs.nonEmpty = true := (Records.nonEmpty_iff hm.inv).2 (by rw [hm.abs]; simp)
    have hsz : ∀ fuel, (GTree.node (F := F) (Y := Y) (P := P) ⟨s.id, r, nc, sp, slice s.work.partTrain r.sT r.eT,
        slice s.work.partValid r.sV r.eV⟩ tl tr).size + fuel = (tr.size + (tl.size + fuel)) + 1 := fun fuel => by
      simp only [GTree.size]; omega
    refine ⟨g2, m2, fun fuel => ?_, fun fuel => ?_⟩
    · rw [hsz, growLoop]
      simp only [hne, if_true, hst, bind_ok]
      rw [l1, l2]
    · rw [hsz, growLoop]
      simp only [hne, if_true, hst', bind_ok]
      rw [l1', l2']

theorem Repr.all {arr : TreeArr F P} {b : Nat} {p : GNode F Y P → Prop} {q : Node F → Prop} (hpq : ∀ k a n, HoldsNode arr b k a n → q n → p a) :
    ∀ {t : GTree F Y P} {k : Nat}, Repr arr b t k → (∀ j n, k ≤ j → j < k + t.size → arr.nodes[j]? = some n → q n) → t.All p := by
  intro t
  induction t with
  | leaf a =>
    rintro k ⟨n, hn, -⟩ h
    exact hpq k a n hn (h k n (le_refl _) (by simp [GTree.size]) hn.entry)
  | node a l r ihl ihr =>
    rintro k ⟨⟨n, hn, -⟩, hr, hl⟩ h
    simp only [GTree.size] at h
    exact ⟨hpq k a n hn (h k n (le_refl _) (by omega) hn.entry), ihl hl fun j m h1 h2 => h j m (by omega) (by omega), ihr hr fun j m h1 h2 => h j m (by omega) (by omega)⟩

/-- Two trees fitted on the same rows with limits of the depth that no node reaches. -/
theorem fitTree_deep {R : Rng G} {T : Task F Y P G} {lab : F → Prop} (hT : ValidTask T lab) {c : Ctx F} {D : Data F} {gb : Garbage F} {seed : Nat}
    {train valid : List Nat} {m : Nat} (h : FitInput c D lab train valid) {arr : TreeArr F P} {w : Work G} (hf : fitTree R T c gb seed train valid = .ok (arr, w))
    (hdeep : ∀ k n, NodeAt arr k n → n.depth < c.maxDepth ∧ n.depth < m) : fitTree R T { c with maxDepth := m } gb seed train valid = .ok (arr, w) := by
  obtain ⟨okY, okP, hs⟩ := validTask_safe hT
  obtain ⟨arr1, w1, t, e1, e2⟩ := fitTree_spec R hs gb seed h
  rw [hf] at e1
  injection e1 with e1
  injection e1 with e3 e4
  subst e3 e4
  obtain ⟨s', g1, _⟩ := e2.grown
  have hall : t.All fun a => a.rcd.depth < c.maxDepth ∧ a.rcd.depth < m := by
    refine Repr.all (q := fun n => n.depth < c.maxDepth ∧ n.depth < m) (fun k a n hn hq => ?_) e2.repr fun j n _ hj hn => hdeep j n ⟨by rw [e2.count]; omega, hn⟩
    rwa [hn.fields.2.2.1] at hq
  have hsz := e2.size
  obtain ⟨t0, e0, i0, c0, b0⟩ : ∃ t0 : TreeArr F P, resizeTree T.zeroP TreeArr.empty (some 2047) = .ok t0 ∧ TInv t0 ∧
      t0.nodeCount = 0 ∧ t0.bpEnd = 0 := by
    simp only [resizeTree]
    rw [if_neg (by simp [TreeArr.empty])]
    unfold resizeTree'
    rw [resizeArr_of _ _ (by simp [TreeArr.empty]), resizeArr_of _ _ (by simp [TreeArr.empty])]
    simp only [bind_ok, pure_eq_ok]
    refine ⟨_, rfl, ⟨?_, ?_, ?_, ?_, ?_, ?_, ?_⟩, rfl, rfl⟩
    · simp only [List.length_append, List.length_map, List.length_range]; rfl
    · simp only [List.length_append, List.length_map, List.length_range]; rfl
    · simp only; omega
    · simp only [TreeArr.empty]; omega
    · rfl
    · exact le_refl _
    · intro i hi hi2
      simp only [TreeArr.empty, List.nil_append, List.length_nil, List.getElem?_map] at hi hi2 ⊢
      rw [List.getElem?_range (by omega)]
      rfl
  obtain ⟨ri, ra⟩ := Records.init_inv gb (n := 10) (by omega)
  obtain ⟨rs, p1, p2, p3⟩ := Records.push_spec gb ri (rootRecord train.length valid.length)
  rw [ra] at p3
  obtain ⟨g', m', l1, l2⟩ := growLoop_deep R gb g1 hall { tree := t0, recs := rs, work := initWork R c gb seed train valid } [] ⟨p2, p3, i0, c0, b0, rfl⟩
    (by intro p hp; simp [rootRecord] at hp)
  have hne : g'.recs.nonEmpty = false := by
    by_contra h0
    exact ((Records.nonEmpty_iff m'.inv).1 (by simpa using h0)) m'.abs
  have q1 := l1 (2 * train.length + 1 - t.size)
  have q2 := l2 (2 * train.length + 1 - t.size)
  rw [show t.size + (2 * train.length + 1 - t.size) = 2 * train.length + 1 by omega] at q1 q2
  rw [growLoop_done R T c gb _ hne] at q1
  rw [growLoop_done R T _ gb _ hne] at q2
  rw [← hf]
  unfold fitTree grow
  have hw : initWork R { c with maxDepth := m } gb seed train valid = initWork R c gb seed train valid := rfl
  have ht : (initWork R c gb seed train valid).partTrain = train := rfl
  have hv : (initWork R c gb seed train valid).partValid = valid := rfl
  simp only [rootRecord] at p1
  simp only [hw, e0, bind_ok, ht, hv, p1, q1, q2]

/-- The two trees of two forests. -/
theorem buildTree_deep {R : Rng G} {T : F → Task F Y P G} {draw : Nat → List Nat} {fuel : Nat} {c : Ctx F} {gb : Garbage F} {d : F} {seed m : Nat}
    {lab : F → Prop} {D : Data F} {o o' : TreeObj F P G} (hT : ValidTask (T d) lab) (hd : DrawsOK D.n draw) (h : ForestInput c D lab)
    (h' : ForestInput { c with maxDepth := m } D lab) (hlen : c.w.length = D.n)
    (hb : buildTree R T draw fuel c gb d seed = .ok o) (hb' : buildTree R T draw fuel { c with maxDepth := m } gb d seed = .ok o')
    (hdeep : ∀ k n, NodeAt o.arr k n → n.depth < c.maxDepth ∧ n.depth < m) : { o' with ctx := none } = { o with ctx := none } := by
  obtain ⟨b, w, e1, B⟩ := buildTree_boot hd h hlen hb
  obtain ⟨b', w', e1', B'⟩ := buildTree_boot hd h' hlen hb'
  obtain rfl : b = b' := Except.ok.inj (e1.symm.trans e1')
  obtain rfl : w = w' := Except.ok.inj (B.weights.symm.trans B'.weights)
  have := fitTree_deep (c := { c with w := w }) hT B.input B.fit hdeep
  have h2 := B'.fit
  have h3 := Prod.mk.inj (Except.ok.inj (this.symm.trans h2))
  obtain ⟨x1, x2, x3, x4, x5, x6⟩ := o
  obtain ⟨y1, y2, y3, y4, y5, y6⟩ := o'
  have a1 := B.agg; have a2 := B'.agg; have s1 := B.step; have s2 := B'.step; have d1 := B.dir; have d2 := B'.dir
  simp only at *
  rw [TreeObj.mk.injEq]
  exact ⟨h3.1.symm, a2.trans a1.symm, s2.trans s1.symm, d2.trans d1.symm, rfl, h3.2.symm⟩

theorem Repr.of_all {arr : TreeArr F P} {b : Nat} {p : GNode F Y P → Prop} {q : Node F → Prop} (hpq : ∀ k a n, HoldsNode arr b k a n → p a → q n) :
    ∀ {t : GTree F Y P} {k : Nat}, Repr arr b t k → t.All p → ∀ j n, k ≤ j → j < k + t.size → arr.nodes[j]? = some n → q n := by
  intro t
  induction t with
  | leaf a =>
    rintro k ⟨n, hn, -⟩ h j n' h1 h2 h3
    simp only [GTree.size] at h2
    obtain rfl : j = k := by omega
    obtain rfl : n = n' := Option.some.inj (hn.entry.symm.trans h3)
    exact hpq _ a n hn h
  | node a l r ihl ihr =>
    rintro k ⟨⟨n, hn, -⟩, hr, hl⟩ h j n' h1 h2 h3
    simp only [GTree.size] at h2
    rcases Nat.eq_or_lt_of_le h1 with rfl | h4
    · obtain rfl : n = n' := Option.some.inj (hn.entry.symm.trans h3)
      exact hpq _ a n hn h.1
    · by_cases h5 : j < k + 1 + r.size
      · exact ihr hr h.2.2 j n' (by omega) h5 h3
      · exact ihl hl h.2.1 j n' (by omega) (by omega) h3

theorem GTree.All.imp {p q : GNode F Y P → Prop} (h : ∀ a, p a → q a) : ∀ {t : GTree F Y P}, t.All p → t.All q
  | .leaf _, ht => h _ ht
  | .node _ _ _, ht => ⟨h _ ht.1, ht.2.1.imp h, ht.2.2.imp h⟩

/-- A path of the tree has two nodes per level. -/
theorem Grown.depth_le {R : Rng G} {T : Task F Y P G} {c : Ctx F} {s : RS G} {r : Record F} {t : GTree F Y P} {s' : RS G} (h : Grown R T c s r t s') :
    t.All fun a => 2 * a.rcd.depth + 1 ≤ t.size + 2 * r.depth := by
  induction h with
  | leaf e1 e2 e3 => simp only [GTree.All, GTree.size]; omega
  | @node s r nc w1 sp gr w2 posT posV tl tr s2 s3 e1 e2 e3 e4 h5 h6 ih1 ih2 =>
    have p1 := tl.size_pos
    have p2 := tr.size_pos
    refine ⟨by simp only [GTree.size]; omega, ih2.imp fun a ha => ?_, ih1.imp fun a ha => ?_⟩
    · simp only [leftRecord, GTree.size] at ha ⊢; omega
    · simp only [rightRecord, GTree.size] at ha ⊢; omega

/-- The depth of a node of a tree of a forest. -/
theorem buildTree_depth {R : Rng G} {T : F → Task F Y P G} {draw : Nat → List Nat} {fuel : Nat} {c : Ctx F} {gb : Garbage F} {d : F} {seed : Nat}
    {lab : F → Prop} {D : Data F} {o : TreeObj F P G} (hT : ValidTask (T d) lab) (hd : DrawsOK D.n draw) (h : ForestInput c D lab)
    (hlen : c.w.length = D.n) (hb : buildTree R T draw fuel c gb d seed = .ok o) : ∀ k n, NodeAt o.arr k n → n.depth < D.n := by
  obtain ⟨b, w, e1, B⟩ := buildTree_boot hd h hlen hb
  obtain ⟨okY, okP, hs⟩ := validTask_safe hT
  obtain ⟨arr1, w1, t, e2, e3⟩ := fitTree_spec R hs gb seed B.input
  rw [B.fit] at e2
  injection e2 with e2
  injection e2 with e4 e5
  subst e4 e5
  obtain ⟨s', g1, _⟩ := e3.grown
  intro k n hn
  have hk := hn.1
  rw [e3.count] at hk
  refine Repr.of_all (q := fun n => n.depth < D.n) (fun j a n' ha hp => ?_) e3.repr g1.depth_le k n (by omega) (by omega) hn.2
  rw [ha.fields.2.2.1]
  have hle := nodup_length_le B.input.nodupT (fun i hi => (B.input.okTrain i hi).1)
  have hsz := e3.size
  have : (bootData D b).n = D.n := rfl
  simp only [rootRecord] at hp
  omega

section
variable {L V K W N : Type} [LinearOrder L] [DecidableEq V] [DecidableEq N] [LinearOrder K] [Field K] [IsStrictOrderedRing K]
  [FloorSemiring K]

theorem Outcome.depth {lib : Lib V K F G W} {a : FitArgs N V} {p : FitData F Y P G} {lab : F → Prop} {okW : List F → Prop} {e : Est L V K F P G} {np : W}
    (hlib : LibOK lib a.nRows) (hT : ValidTask (p.task e.dirichlet) lab) (o : Outcome lib a p e np) (h : FitFacts lib a p lab okW e o.est) :
    DepthBelow (some a.nRows) o.est.trees := by
  rintro x ⟨rfl⟩ ob hob k n hk
  obtain ⟨t, ht⟩ := List.getElem?_of_mem hob
  obtain ⟨mf, ic, enc, fba, trees, hmf1, hrs, hic, hacc, henc, hfba, htrees⟩ := o
  obtain ⟨seed, depth, y, w, q1, q2, q3, q4, q5⟩ := growTrees_getElem? htrees ht
  have x1 := Outcome.explicit _ h ht q1 q5 q3 q4
  simp only at x1
  have hwl : w.length = (encData fba y w).n := by rw [show (encData fba y w).n = a.nRows from x1.1]; exact x1.2.2.1
  have := buildTree_depth (c := treeCtx fba y w mf depth (enc.map FitCol.isCat) e) hT
    (by rw [show (encData fba y w).n = a.nRows from x1.1]; exact hlib.boot) x1.2.2.2 hwl q5 k n hk
  rwa [show (encData fba y w).n = a.nRows from x1.1] at this

theorem Outcome.deep {lib : Lib V K F G W} {a : FitArgs N V} {p : FitData F Y P G} {lab : F → Prop} {okW okW' : List F → Prop} {e : Est L V K F P G} {np : W}
    {m : Option Nat} (hlib : LibOK lib a.nRows) (hn : a.nRows < 2 ^ 63) (hT : ValidTask (p.task e.dirichlet) lab)
    (o : Outcome lib a p e np) (o' : Outcome lib a p { e with maxDepth := m } np) (h : FitFacts lib a p lab okW e o.est)
    (h' : FitFacts lib a p lab okW' { e with maxDepth := m } o'.est) (hr : a.randomizedDepth = false)
    (hm : DepthBelow m o.est.trees) (he : DepthBelow e.maxDepth o.est.trees) :
    NoContext o'.est.trees = NoContext o.est.trees ∧ o'.est = { o.est with maxDepth := m, trees := o'.est.trees } := by
  obtain ⟨mf, ic, enc, fba, trees, hmf1, hrs, hic, hacc, henc, hfba, htrees⟩ := o
  obtain ⟨mf2, ic2, enc2, fba2, trees2, hmf2, hrs2, hic2, hacc2, henc2, hfba2, htrees2⟩ := o'
  obtain rfl : mf = mf2 := Except.ok.inj (hmf1.symm.trans hmf2)
  obtain rfl : ic = ic2 := Except.ok.inj (hic.symm.trans hic2)
  obtain rfl : enc = enc2 := Except.ok.inj (henc.symm.trans henc2)
  obtain rfl : fba = fba2 := Except.ok.inj (hfba.symm.trans hfba2)
  refine ⟨?_, rfl⟩
  have hlen : trees2.length = trees.length := h'.nTrees.trans h.nTrees.symm
  apply List.ext_getElem?
  intro t
  show (trees2.map _)[t]? = (trees.map _)[t]?
  rw [List.getElem?_map, List.getElem?_map]
  cases ht : trees[t]? with
  | none =>
    rw [List.getElem?_eq_none_iff] at ht
    rw [List.getElem?_eq_none (by omega)]

  | some ob =>
    have htl : t < trees2.length := by
      by_contra hc; rw [List.getElem?_eq_none (by omega)] at ht; cases ht
    have ht' : trees2[t]? = some trees2[t] := List.getElem?_eq_getElem htl
    generalize trees2[t] = ob' at ht'
    rw [ht']
    obtain ⟨seed, depth, y, w, q1, q2, q3, q4, q5⟩ := growTrees_getElem? htrees ht
    obtain ⟨seed', depth', y', w', q1', q2', q3', q4', q5'⟩ := growTrees_getElem? htrees2 ht'
    obtain rfl : seed = seed' := Option.some.inj (q1.symm.trans q1')
    obtain rfl : y = y' := Option.some.inj (q3.symm.trans q3')
    obtain rfl : w = w' := Option.some.inj (q4.symm.trans q4')
    have x1 := Outcome.explicit _ h ht q1 q5 q3 q4
    have x2 := Outcome.explicit _ h' ht' q1' q5' q3' q4'
    simp only at x1 x2
    rw [hr] at q2 q2'
    have d1 : depth = e.maxDepth.getD (2 ^ 64 - 1) := by simpa using depthsOf_getElem? q2
    have d2 : depth' = m.getD (2 ^ 64 - 1) := by simpa using depthsOf_getElem? q2'
    have hdraws : DrawsOK (encData fba y w).n (lib.boot a.nRows) := by
      rw [show (encData fba y w).n = a.nRows from x1.1]; exact hlib.boot
    have hwl : w.length = (encData fba y w).n := by rw [show (encData fba y w).n = a.nRows from x1.1]; exact x1.2.2.1
    have hdp := buildTree_depth (c := treeCtx fba y w mf depth (enc.map FitCol.isCat) e) hT hdraws x1.2.2.2 hwl q5
    rw [show (encData fba y w).n = a.nRows from x1.1] at hdp
    refine congrArg some (buildTree_deep (c := treeCtx fba y w mf depth (enc.map FitCol.isCat) e) (m := depth') hT hdraws x1.2.2.2 x2.2.2.2 hwl q5 q5' fun k n hk => ⟨?_, ?_⟩)
    · show n.depth < depth
      have := hdp k n hk
      rw [d1]
      cases hx : e.maxDepth with
      | none => simp only [Option.getD_none]; omega
      | some x => exact he x hx ob (List.mem_of_getElem? ht) k n hk
    · have := hdp k n hk
      rw [d2]
      cases hx : m with
      | none => simp only [Option.getD_none]; omega
      | some x => exact hm x hx ob (List.mem_of_getElem? ht) k n hk

end

end Verif
