import Verif.Proofs.Deep

/-! Values of `min_samples_split` that have no effect. -/
set_option linter.unusedSectionVars false
namespace Verif

open Spec

variable {F Y P G : Type} [Num F]

/-- The search for a split of the node ends in the same way in both contexts. -/
def SameChoice (T : Task F Y P G) (c c' : Ctx F) (a : GNode F Y P) : Prop :=
  ∀ (w : Work G) (g : G), chooseSplit T c a.rcd a.nc w = .ok (a.sp, g) → chooseSplit T c' a.rcd a.nc w = .ok (a.sp, g)

/-- The search for a split draws no random numbers: the orders of categories do not, or there is no categorical column. -/
def KeepsGen (T : Task F Y P G) (c : Ctx F) : Prop :=
  (∀ bins ys g os g', T.orders bins ys g = .ok (os, g') → g' = g) ∨ ∀ j : Nat, c.isCategorical[j]? ≠ some true

theorem classOrders_gen (R : Rng G) (argsort : List F → List Nat) (n : Nat) {s : CatStrategy} (hs : s ≠ .random) {bins : List Nat} {ys : List (List F)} {g g' : G}
    {os : List (List Nat)} (h : classOrders R argsort n s bins ys g = .ok (os, g')) : g' = g := by
  unfold classOrders at h
  cases s with
  | random => exact absurd rfl hs
  | all => simp only [bind_eq_ok] at h; obtain ⟨_, -, h⟩ := h; cases h; rfl
  | binary => simp only [bind_eq_ok] at h; obtain ⟨_, -, h⟩ := h; cases h; rfl

theorem regOrders_gen (argsort : List F → List Nat) {bins : List Nat} {ys : List (F × F)} {g g' : G} {os : List (List Nat)}
    (h : (regressorTask argsort : Task F _ F G).orders bins ys g = .ok (os, g')) : g' = g := by
  unfold regressorTask at h
  simp only [bind_eq_ok] at h
  obtain ⟨_, -, h⟩ := h
  cases h
  rfl

theorem findBestAlong_gen {T : Task F Y P G} {c : Ctx F} (hk : KeepsGen T c) {nc : NodeCtx F Y P} {h : Hist F Y} {f : Nat} {b b' : Split F} {g g' : G}
    (e : findBestAlong T c nc h f b g = .ok (b', g')) : g' = g := by
  unfold findBestAlong at e
  rw [bind_eq_ok] at e
  obtain ⟨ic, h1, e⟩ := e
  cases ic with
  | true =>
    rcases hk with hk | hk
    · simp only [if_true, bind_eq_ok] at e
      obtain ⟨⟨os, g1⟩, h2, b1, -, h3⟩ := e
      cases h3
      exact hk _ _ _ _ _ h2
    · exact absurd (rd_ok.1 h1) (hk f)
  | false =>
    simp only [Bool.false_eq_true, if_false, bind_eq_ok] at e
    obtain ⟨_, -, _, -, h3⟩ := e
    cases h3
    rfl

theorem findNodeSplit_gen {T : Task F Y P G} {c : Ctx F} (hk : KeepsGen T c) {nc : NodeCtx F Y P} {feats : List Nat} {sp : Split F} {g g' : G}
    (e : findNodeSplit T c nc feats g = .ok (sp, g')) : g' = g := by
  unfold findNodeSplit at e
  rw [bind_eq_ok] at e
  obtain ⟨⟨best, g1⟩, h1, e⟩ := e
  have hg : g1 = g := by
    have : ∀ (l : List (Nat × Nat)) (s s' : Split F × G), l.foldlM (fun (s : Split F × G) (p : Nat × Nat) => (do
        let h ← rd nc.hists p.1
        if 1 < h.neTrain.length then findBestAlong T c nc h p.2 s.1 s.2 else return s : M (Split F × G))) s = .ok s' → s'.2 = s.2 := by
      intro l
      induction l with
      | nil => intro s s' h; cases h; rfl
      | cons x l ih =>
        intro s s' h
        rw [List.foldlM_cons, bind_eq_ok] at h
        obtain ⟨s1, h2, h3⟩ := h
        rw [bind_eq_ok] at h2
        obtain ⟨hh, -, h2⟩ := h2
        rw [ih _ _ h3]
        split at h2
        · exact findBestAlong_gen hk h2
        · cases h2; rfl
    exact this _ _ _ h1
  simp only at e
  split at e
  · rw [bind_eq_ok] at e
    obtain ⟨b, -, h3⟩ := e
    cases h3
    exact hg
  · cases e
    exact hg

/-- Up to twice the size of the leaves, `min_samples_split` has no effect. -/
theorem sameChoice_split {T : Task F Y P G} {c : Ctx F} {D : Data F} {lab : F → Prop} {okP : P → Prop} {ms : Nat} (hk : KeepsGen T c)
    (h1 : c.minSplit ≤ ms) (h2 : ms ≤ 2 * c.minLeaf) {a : GNode F Y P} (hf : NodeFacts T c D lab okP a) :
    SameChoice T c { c with maxDepth := c.maxDepth, minSplit := ms } a := by
  intro w g h
  obtain ⟨feats, -, hn, hs, -⟩ := hf.stats
  have hfind : findNodeSplit T { c with maxDepth := c.maxDepth, minSplit := ms } a.nc w.sampled w.rng = findNodeSplit T c a.nc w.sampled w.rng :=
    findNodeSplit_limits T c c.maxDepth ms a.nc w.sampled w.rng
  have hmono : stopHere c a.rcd a.nc.nTrain a.nc.nValid = true → stopHere { c with maxDepth := c.maxDepth, minSplit := ms } a.rcd a.nc.nTrain a.nc.nValid = true := by
    unfold stopHere
    simp only [Bool.or_eq_true, Bool.and_eq_true, decide_eq_true_eq]
    rintro (((h | h) | h) | h)
    · exact .inl (.inl (.inl (by omega)))
    · exact .inl (.inl (.inr ⟨h.1, by omega⟩))
    · exact .inl (.inr h)
    · exact .inr h
  unfold chooseSplit at h ⊢
  rw [hfind]
  cases hc : stopHere c a.rcd a.nc.nTrain a.nc.nValid with
  | true =>
    rw [hc] at h
    rw [hmono hc]
    exact h
  | false =>
    rw [hc] at h
    simp only [Bool.false_eq_true, if_false] at h
    rw [h]
    cases hc' : stopHere { c with maxDepth := c.maxDepth, minSplit := ms } a.rcd a.nc.nTrain a.nc.nValid with
    | false => rfl
    | true =>
      simp only [if_true]
      rcases hs with ⟨-, h3⟩ | ⟨-, -, h3⟩
      · rw [h3, findNodeSplit_gen hk h]
      · exfalso
        have e1 := List.length_eq_length_filter_add (l := a.train) fun i => goesLeft a.sp (D.X i a.sp.feature)
        have e2 := List.length_eq_length_filter_add (l := a.valid) fun i => goesLeft a.sp (D.X i a.sp.feature)
        rw [← h3.nTrainL, ← h3.nTrainR, ← hn.nTrain] at e1
        have l1 := h3.leaf
        have hb := stopHere_false hc
        unfold stopHere at hc hc'
        simp only [Bool.or_eq_true, Bool.and_eq_true, decide_eq_true_eq] at hc'
        simp only [Bool.or_eq_false_iff] at hc
        rcases hc' with ((h | h) | h) | h
        · omega
        · rw [← h3.nValidL h.1, ← h3.nValidR h.1, ← hn.nValid] at e2
          have := l1.2.2 h.1
          omega
        · rw [hc.1.2] at h; cases h
        · omega

theorem GOK.all {T : Task F Y P G} {c : Ctx F} {D : Data F} {lab : F → Prop} {okP : P → Prop} : ∀ {t : GTree F Y P} {k : Nat}, GOK T c D lab okP t k →
    t.All (NodeFacts T c D lab okP)
  | .leaf _, _, h => h.1
  | .node _ _ _, _, h => ⟨h.1, GOK.all h.2.2.2.2.1, GOK.all h.2.2.2.1⟩

/-- The loops of two trees with different limits that give the same splits. -/
theorem growLoop_two (R : Rng G) {T : Task F Y P G} {c : Ctx F} (gb : Garbage F) {m ms : Nat} {s : RS G} {r : Record F}
    {t : GTree F Y P} {s' : RS G} (h : Grown R T c s r t s') (hall : t.All (SameChoice T c { c with maxDepth := m, minSplit := ms })) :
    ∀ (g : GState F P G) (rest : List (Record F)), Match g s (r :: rest) → (∀ p, r.parent = some p → p < s.id) →
      ∃ g', Match g' s' rest ∧ (∀ fuel, growLoop R T c gb (t.size + fuel) g = growLoop R T c gb fuel g') ∧
        ∀ fuel, growLoop R T { c with maxDepth := m, minSplit := ms } gb (t.size + fuel) g = growLoop R T { c with maxDepth := m, minSplit := ms } gb fuel g' := by
  induction h with
  | @leaf s r nc w1 sp gr e1 e2 e3 =>
    intro g rest hm hp
    have e2' : chooseSplit T { c with maxDepth := m, minSplit := ms } r nc w1 = .ok (sp, gr) := hall w1 gr e2
    have e1' : computeNodeContext R T { c with maxDepth := m, minSplit := ms } s.work r.sT r.eT r.sV r.eV = .ok (nc, w1) := e1
    obtain ⟨rs, p1, p2, p3⟩ := Records.pop_spec hm.inv hm.abs
    obtain ⟨t1, yp, bS, bE, a1, a2, a3, a4, a5, -⟩ :=
      addNode_spec T.zeroP gb.bin hm.tinv r nc sp.info (by rw [hm.count]; exact hp) nc.yPred
    rw [hm.count] at a1 a2 a4
    rw [hm.bp] at a5
    rw [infoLen_info] at a5
    have hst : growStep R T c gb g = .ok
        { tree := { t1 with yPred := yp }, recs := rs, work := { w1 with rng := gr } } := by
      unfold growStep
      simp only [p1, bind_ok, hm.work, e1, e2, a1, a2, e3, pure_eq_ok]
      rfl
    have hst' : growStep R T { c with maxDepth := m, minSplit := ms } gb g = .ok
        { tree := { t1 with yPred := yp }, recs := rs, work := { w1 with rng := gr } } := by
      unfold growStep
      simp only [p1, bind_ok, hm.work, e1', e2', a1, a2, e3, pure_eq_ok]
      rfl
    have hne : g.recs.nonEmpty = true := (Records.nonEmpty_iff hm.inv).2 (by rw [hm.abs]; simp)
    refine ⟨{ tree := { t1 with yPred := yp }, recs := rs, work := { w1 with rng := gr } }, ⟨p2, p3, a3, a4, a5, rfl⟩, fun fuel => ?_, fun fuel => ?_⟩
    · simp only [GTree.size]
      rw [Nat.add_comm 1 fuel]
      simp only [growLoop, hne, if_true, hst, bind_ok]
    · simp only [GTree.size]
      rw [Nat.add_comm 1 fuel]
      simp only [growLoop, hne, if_true, hst', bind_ok]
  | @node s r nc w1 sp gr w2 posT posV tl tr s2 s3 e1 e2 e3 e4 h5 h6 ih1 ih2 =>
    intro g rest hm hp
    have e2' : chooseSplit T { c with maxDepth := m, minSplit := ms } r nc w1 = .ok (sp, gr) := hall.1 w1 gr e2
    have e1' : computeNodeContext R T { c with maxDepth := m, minSplit := ms } s.work r.sT r.eT r.sV r.eV = .ok (nc, w1) := e1
    have e4' : splitIndices { c with maxDepth := m, minSplit := ms } sp { w1 with rng := gr } r.sT r.eT r.sV r.eV = .ok (w2, posT, posV) := e4
    obtain ⟨rs, p1, p2, p3⟩ := Records.pop_spec hm.inv hm.abs
    obtain ⟨t1, yp, bS, bE, a1, a2, a3, a4, a5, -⟩ :=
      addNode_spec T.zeroP gb.bin hm.tinv r nc sp.info (by rw [hm.count]; exact hp) nc.yPred
    rw [hm.count] at a1 a2 a4
    rw [hm.bp] at a5
    rw [infoLen_info] at a5
    obtain ⟨rs1, r1, r2, r3⟩ := Records.push_spec gb p2 (leftRecord r sp s.id posT posV)
    obtain ⟨rs2, r4, r5, r6⟩ := Records.push_spec gb r2 (rightRecord r sp s.id posT posV)
    rw [r3, p3] at r6
    have hst : growStep R T c gb g = .ok { tree := { t1 with yPred := yp }, recs := rs2, work := w2 } := by
      unfold growStep
      simp only [p1, bind_ok, hm.work, e1, e2, a1, a2, e3, e4, r1, r4, pure_eq_ok, if_true]
    have hst' : growStep R T { c with maxDepth := m, minSplit := ms } gb g = .ok { tree := { t1 with yPred := yp }, recs := rs2, work := w2 } := by
      unfold growStep
      simp only [p1, bind_ok, hm.work, e1', e2', a1, a2, e3, e4', r1, r4, pure_eq_ok, if_true]
    obtain ⟨g1, m1, l1, l1'⟩ := ih1 hall.2.2 { tree := { t1 with yPred := yp }, recs := rs2, work := w2 } _
      ⟨r5, r6, a3, a4, a5, rfl⟩ (by intro p hp'; simp only [rightRecord, Option.some.injEq] at hp' ⊢; omega)
    have id1 := h5.id
    simp only at id1
    obtain ⟨g2, m2, l2, l2'⟩ := ih2 hall.2.1 g1 rest m1
      (by intro p hp'; simp only [leftRecord, Option.some.injEq] at hp'; omega)
    have hne : g.recs.nonEmpty = true := (Records.nonEmpty_iff hm.inv).2 (by rw [hm.abs]; simp)
    have hsz : ∀ fuel, (GTree.node (F := F) (Y := Y) (P := P) ⟨s.id, r, nc, sp, slice s.work.partTrain r.sT r.eT,
        slice s.work.partValid r.sV r.eV⟩ tl tr).size + fuel = (tr.size + (tl.size + fuel)) + 1 := fun fuel => by
      simp only [GTree.size]; omega
    refine ⟨g2, m2, fun fuel => ?_, fun fuel => ?_⟩
    · rw [hsz, growLoop]
      simp only [hne, if_true, hst, bind_ok]
      rw [l1, l2]
    · rw [hsz, growLoop]
      simp only [hne, if_true, hst', bind_ok]
      rw [l1', l2']

/-- Two trees fitted on the same rows with values of `min_samples_split` that have no effect. -/
theorem fitTree_split {R : Rng G} {T : Task F Y P G} {lab : F → Prop} (hT : ValidTask T lab) {c : Ctx F} {D : Data F} {gb : Garbage F} {seed : Nat}
    {train valid : List Nat} {ms : Nat} (h : FitInput c D lab train valid) {arr : TreeArr F P} {w : Work G} (hf : fitTree R T c gb seed train valid = .ok (arr, w))
    (hk : KeepsGen T c) (h1 : c.minSplit ≤ ms) (h2 : ms ≤ 2 * c.minLeaf) : fitTree R T { c with minSplit := ms } gb seed train valid = .ok (arr, w) := by
  obtain ⟨okY, okP, hs⟩ := validTask_safe hT
  obtain ⟨arr1, w1, t, e1, e2⟩ := fitTree_spec R hs gb seed h
  rw [hf] at e1
  injection e1 with e1
  injection e1 with e3 e4
  subst e3 e4
  obtain ⟨s', g1, _⟩ := e2.grown
  have hall : t.All (SameChoice T c { c with maxDepth := c.maxDepth, minSplit := ms }) := e2.ok.all.imp fun a ha => sameChoice_split hk h1 h2 ha
  have hsz := e2.size
  obtain ⟨t0, e0, i0, c0, b0⟩ : ∃ t0 : TreeArr F P, resizeTree T.zeroP TreeArr.empty (some 2047) = .ok t0 ∧ TInv t0 ∧
      t0.nodeCount = 0 ∧ t0.bpEnd = 0 := by
    simp only [resizeTree]
    rw [if_neg (by simp [TreeArr.empty])]
    unfold resizeTree'
    rw [resizeArr_of _ _ (by simp [TreeArr.empty]), resizeArr_of _ _ (by simp [TreeArr.empty])]
    simp only [bind_ok, pure_eq_ok]
    refine ⟨_, rfl, ⟨?_, ?_, ?_, ?_, ?_, ?_, ?_⟩, rfl, rfl⟩
    · simp only [List.length_append, List.length_map, List.length_range]; rfl
    · simp only [List.length_append, List.length_map, List.length_range]; rfl
    · simp only; omega
    · simp only [TreeArr.empty]; omega
    · rfl
    · exact le_refl _
    · intro i hi hi2
      simp only [TreeArr.empty, List.nil_append, List.length_nil, List.getElem?_map] at hi hi2 ⊢
      rw [List.getElem?_range (by omega)]
      rfl
  obtain ⟨ri, ra⟩ := Records.init_inv gb (n := 10) (by omega)
  obtain ⟨rs, p1, p2, p3⟩ := Records.push_spec gb ri (rootRecord train.length valid.length)
  rw [ra] at p3
  obtain ⟨g', m', l1, l2⟩ := growLoop_two R gb g1 hall { tree := t0, recs := rs, work := initWork R c gb seed train valid } [] ⟨p2, p3, i0, c0, b0, rfl⟩
    (by intro p hp; simp [rootRecord] at hp)
  have hne : g'.recs.nonEmpty = false := by
    by_contra h0
    exact ((Records.nonEmpty_iff m'.inv).1 (by simpa using h0)) m'.abs
  have q1 := l1 (2 * train.length + 1 - t.size)
  have q2 := l2 (2 * train.length + 1 - t.size)
  rw [show t.size + (2 * train.length + 1 - t.size) = 2 * train.length + 1 by omega] at q1 q2
  rw [growLoop_done R T c gb _ hne] at q1
  rw [growLoop_done R T _ gb _ hne] at q2
  rw [← hf]
  unfold fitTree grow
  have hw : initWork R { c with minSplit := ms } gb seed train valid = initWork R c gb seed train valid := rfl
  have ht : (initWork R c gb seed train valid).partTrain = train := rfl
  have hv : (initWork R c gb seed train valid).partValid = valid := rfl
  simp only [rootRecord] at p1
  simp only [hw, e0, bind_ok, ht, hv, p1, q1, q2]

/-- The two trees of two forests. -/
theorem buildTree_split {R : Rng G} {T : F → Task F Y P G} {draw : Nat → List Nat} {fuel : Nat} {c : Ctx F} {gb : Garbage F} {d : F} {seed ms : Nat}
    {lab : F → Prop} {D : Data F} {o o' : TreeObj F P G} (hT : ValidTask (T d) lab) (hd : DrawsOK D.n draw) (h : ForestInput c D lab)
    (h' : ForestInput { c with minSplit := ms } D lab) (hlen : c.w.length = D.n)
    (hb : buildTree R T draw fuel c gb d seed = .ok o) (hb' : buildTree R T draw fuel { c with minSplit := ms } gb d seed = .ok o')
    (hk : KeepsGen (T d) c) (h1 : c.minSplit ≤ 2 * c.minLeaf) (h2 : ms ≤ 2 * c.minLeaf) : { o' with ctx := none } = { o with ctx := none } := by
  obtain ⟨b, w, e1, B⟩ := buildTree_boot hd h hlen hb
  obtain ⟨b', w', e1', B'⟩ := buildTree_boot hd h' hlen hb'
  obtain rfl : b = b' := Except.ok.inj (e1.symm.trans e1')
  obtain rfl : w = w' := Except.ok.inj (B.weights.symm.trans B'.weights)
  have h3 : (o.arr, o.work) = (o'.arr, o'.work) := by
    rcases le_total c.minSplit ms with hle | hle
    · exact Except.ok.inj ((fitTree_split (c := { c with w := w }) hT B.input B.fit hk hle h2).symm.trans B'.fit)
    · exact Except.ok.inj (B.fit.symm.trans (fitTree_split (c := { c with w := w, minSplit := ms }) hT B'.input B'.fit hk hle h1))
  obtain ⟨x1, x2, x3, x4, x5, x6⟩ := o
  obtain ⟨y1, y2, y3, y4, y5, y6⟩ := o'
  have a1 := B.agg; have a2 := B'.agg; have s1 := B.step; have s2 := B'.step; have d1 := B.dir; have d2 := B'.dir
  simp only [Prod.mk.injEq] at *
  rw [TreeObj.mk.injEq]
  exact ⟨h3.1.symm, a2.trans a1.symm, s2.trans s1.symm, d2.trans d1.symm, rfl, h3.2.symm⟩

section
variable {L V K W N : Type} [LinearOrder L] [DecidableEq V] [DecidableEq N] [LinearOrder K] [Field K] [IsStrictOrderedRing K]
  [FloorSemiring K]

theorem Outcome.split {lib : Lib V K F G W} {a : FitArgs N V} {p : FitData F Y P G} {lab : F → Prop} {okW okW' : List F → Prop} {e : Est L V K F P G} {np : W}
    {ms : Nat} (hlib : LibOK lib a.nRows) (hT : ValidTask (p.task e.dirichlet) lab)
    (o : Outcome lib a p e np) (o' : Outcome lib a p { e with minSplit := ms } np) (h : FitFacts lib a p lab okW e o.est)
    (h' : FitFacts lib a p lab okW' { e with minSplit := ms } o'.est)
    (hk : (∀ bins ys g os g', (p.task e.dirichlet).orders bins ys g = .ok (os, g') → g' = g) ∨ ∀ b ∈ o.est.isCategorical_, b = false)
    (h1 : e.minSplit ≤ 2 * e.minLeaf) (h2 : ms ≤ 2 * e.minLeaf) :
    NoContext o'.est.trees = NoContext o.est.trees ∧ o'.est = { o.est with minSplit := ms, trees := o'.est.trees } := by
  obtain ⟨mf, ic, enc, fba, trees, hmf1, hrs, hic, hacc, henc, hfba, htrees⟩ := o
  obtain ⟨mf2, ic2, enc2, fba2, trees2, hmf2, hrs2, hic2, hacc2, henc2, hfba2, htrees2⟩ := o'
  obtain rfl : mf = mf2 := Except.ok.inj (hmf1.symm.trans hmf2)
  obtain rfl : ic = ic2 := Except.ok.inj (hic.symm.trans hic2)
  obtain rfl : enc = enc2 := Except.ok.inj (henc.symm.trans henc2)
  obtain rfl : fba = fba2 := Except.ok.inj (hfba.symm.trans hfba2)
  refine ⟨?_, rfl⟩
  have hlen : trees2.length = trees.length := h'.nTrees.trans h.nTrees.symm
  apply List.ext_getElem?
  intro t
  show (trees2.map _)[t]? = (trees.map _)[t]?
  rw [List.getElem?_map, List.getElem?_map]
  cases ht : trees[t]? with
  | none =>
    rw [List.getElem?_eq_none_iff] at ht
    rw [List.getElem?_eq_none (by omega)]
  | some ob =>
    have htl : t < trees2.length := by
      by_contra hc; rw [List.getElem?_eq_none (by omega)] at ht; cases ht
    have ht' : trees2[t]? = some trees2[t] := List.getElem?_eq_getElem htl
    generalize trees2[t] = ob' at ht'
    rw [ht']
    obtain ⟨seed, depth, y, w, q1, q2, q3, q4, q5⟩ := growTrees_getElem? htrees ht
    obtain ⟨seed', depth', y', w', q1', q2', q3', q4', q5'⟩ := growTrees_getElem? htrees2 ht'
    obtain rfl : seed = seed' := Option.some.inj (q1.symm.trans q1')
    obtain rfl : depth = depth' := Option.some.inj (q2.symm.trans q2')
    obtain rfl : y = y' := Option.some.inj (q3.symm.trans q3')
    obtain rfl : w = w' := Option.some.inj (q4.symm.trans q4')
    have x1 := Outcome.explicit _ h ht q1 q5 q3 q4
    have x2 := Outcome.explicit _ h' ht' q1' q5' q3' q4'
    simp only at x1 x2
    have hdraws : DrawsOK (encData fba y w).n (lib.boot a.nRows) := by
      rw [show (encData fba y w).n = a.nRows from x1.1]; exact hlib.boot
    have hwl : w.length = (encData fba y w).n := by rw [show (encData fba y w).n = a.nRows from x1.1]; exact x1.2.2.1
    exact congrArg some (buildTree_split (c := treeCtx fba y w mf depth (enc.map FitCol.isCat) e) (ms := ms) hT hdraws x1.2.2.2 x2.2.2.2 hwl q5 q5'
      (hk.imp id fun hk j hj => by have := hk _ (List.mem_of_getElem? hj); cases this) h1 h2)

end

end Verif
