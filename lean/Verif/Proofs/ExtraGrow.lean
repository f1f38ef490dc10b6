import Verif.Proofs.Extra
import Verif.Proofs.PermuteGrow

/-! # Growing a tree with an additional column that brings nothing new -/
set_option linter.unusedSectionVars false
namespace Verif.Extra

open Spec

variable {F Y P G : Type} [Num F] {T : Task F Y P G} {d : Nat} {c c' : Ctx F}

theorem Ext.y (hx : Ext T d c c') : c'.y = c.y := by rw [hx.eq]
theorem Ext.w (hx : Ext T d c c') : c'.w = c.w := by rw [hx.eq]
theorem Ext.agg (hx : Ext T d c c') : c'.aggregation = c.aggregation := by rw [hx.eq]
theorem Ext.minLeaf (hx : Ext T d c c') : c'.minLeaf = c.minLeaf := by rw [hx.eq]
theorem Ext.maxFeatures' (hx : Ext T d c c') : c'.maxFeatures = d + 1 := by rw [hx.eq]

theorem Ext.value (hx : Ext T d c c') {i : Nat} (hi : i < c.fba.nSamples) (f : Nat) :
    RelM (fun x y => x = y) (c.fba.getValue i f) (c'.fba.getValue i f) := fun u v hu hv => hx.val i hi f (hx.inside i f u hu) u v hu hv

/-- The statistics of a node have one more element, which brings nothing new. -/
structure NcExt (T : Task F Y P G) (d : Nat) (c c' : Ctx F) (nc nc' : NodeCtx F Y P) (h : Hist F Y) : Prop where
  eq : nc' = { nc with hists := nc.hists ++ [h] }
  len : nc.hists.length = d
  new : (∃ j < d, nc.hists[j]? = some h ∧ c'.isCategorical[d]? = c.isCategorical[j]? ∧ (c.isCategorical[j]? = some true → DetOrders T)) ∨
    h.neTrain.length ≤ 1

theorem nodeStats_ext (hx : Ext T d c c') {train valid : List Nat} (ht : ∀ i ∈ train, i < c.fba.nSamples) (hv : ∀ i ∈ valid, i < c.fba.nSamples) (a b : Nat) :
    RelM (fun nc nc' => ∃ h, NcExt T d c c' nc nc' h) (nodeStats T c (List.range d) train valid a b) (nodeStats T c' (List.range (d + 1)) train valid a b) := by
  have hrow : ∀ i, i ∈ train ∨ i ∈ valid → i < c.fba.nSamples := fun i hi => hi.elim (ht i) (hv i)
  intro nc nc' e e'
  unfold nodeStats at e e'
  rw [bind_eq_ok] at e e'
  obtain ⟨s, e1, e2⟩ := e
  obtain ⟨s', e1', e2'⟩ := e'
  cases e2
  cases e2'
  rw [List.range_succ, List.foldlM_append, bind_eq_ok] at e1'
  obtain ⟨s1, e3, e4⟩ := e1'
  have hs : s = s1 := by
    refine RelM.foldlM_mem (S := fun x y => x = y) (f := featureStep T c train valid) (g := featureStep T c' train valid) ?_ rfl s s1 e1 e3
    rintro x _ j hj rfl u v hu hv
    obtain ⟨-, -, -, h⟩ := featureStep_rel (q := True) (fun i hi => hx.value (hrow i hi) j) hx.y hx.w hx.bins hx.agg (fun _ => rfl) u v hu hv
    exact h trivial
  subst hs
  obtain ⟨h1, h2, h3⟩ := features_hists _ e1
  simp only [List.length_nil, List.length_range, Nat.zero_add] at h2
  rw [List.foldlM_cons, bind_eq_ok] at e4
  obtain ⟨s2, e4, e5⟩ := e4
  cases e5
  have hne : s.hists ≠ [] := by
    intro h
    rw [h] at h2
    have := hx.pos
    simp at h2
    omega
  obtain ⟨h, rfl, hone⟩ := featureStep_later hne e4
  refine ⟨h, rfl, h2, ?_⟩
  rcases hx.new with ⟨j, hj, hval, hc1, hc2⟩ | ⟨v, hval⟩
  · refine .inl ⟨j, hj, ?_, hc1, hc2⟩
    obtain ⟨b0, b1, x, q1, q2, q3⟩ := h3 j j (by rw [List.getElem?_range hj])
    obtain ⟨y, r1, r2, -⟩ := featureStep_rel (q := False) (fun i hi => hval i (hrow i hi)) hx.y hx.w hx.bins hx.agg (fun h => h.elim) b1 _ q1 e4
    have k1 : x = y := by simpa using q2.symm.trans r1
    have k2 : h = y := by simpa using r2
    rw [k2, ← k1]
    simpa using q3
  · exact .inr (hone v fun i hi => hval i (ht i hi))

/-- Body of the loop of `find_node_split`. -/
def seek (T : Task F Y P G) (c : Ctx F) (nc : NodeCtx F Y P) (s : Split F × G) (p : Nat × Nat) : M (Split F × G) := do
  let h ← rd nc.hists p.1
  if 1 < h.neTrain.length then findBestAlong T c nc h p.2 s.1 s.2 else return s

theorem fold_seen (hL : GainLaws F) (hirr : ∀ a : F, Num.lt a a = false) {nc : NodeCtx F Y P} (l : List (Nat × Nat)) : ∀ (s s' : Split F × G),
    l.foldlM (seek T c nc) s = .ok s' → GainLe s.1 s'.1 ∧ ∀ p ∈ l, ∀ h, nc.hists[p.1]? = some h → 1 < h.neTrain.length →
      ∃ s0 s1 : Split F × G, findBestAlong T c nc h p.2 s0.1 s0.2 = .ok s1 ∧ GainLe s1.1 s'.1 := by
  induction l with
  | nil =>
    intro s s' e
    cases e
    exact ⟨GainLe.refl _, fun p hp => absurd hp (by simp)⟩
  | cons x l ih =>
    intro s s' e
    rw [List.foldlM_cons, bind_eq_ok] at e
    obtain ⟨t, e1, e2⟩ := e
    obtain ⟨i1, i2⟩ := ih _ _ e2
    unfold seek at e1
    rw [bind_eq_ok] at e1
    obtain ⟨h, e3, e4⟩ := e1
    have hst : GainLe s.1 t.1 := by
      split at e4
      · exact (findBestAlong_twice hL hirr (g' := t.2) e4).1
      · cases e4
        exact GainLe.refl _
    refine ⟨hst.trans i1, fun p hp h' hh hlen => ?_⟩
    rcases List.mem_cons.1 hp with rfl | hp
    · rw [rd_ok.1 e3] at hh
      cases hh
      rw [if_pos hlen] at e4
      exact ⟨s, t, e4, i1⟩
    · exact i2 p hp h' hh hlen

theorem NcExt.search (hx : Ext T d c c') {nc nc' : NodeCtx F Y P} {h : Hist F Y} (hn : NcExt T d c c' nc nc' h) : SameSearch c c' nc nc' :=
  ⟨hx.minLeaf, hx.agg, hx.bins, by rw [hn.eq], by rw [hn.eq], by rw [hn.eq]⟩

theorem findNodeSplit_ext (hL : GainLaws F) (hirr : ∀ a : F, Num.lt a a = false) (hx : Ext T d c c') {nc nc' : NodeCtx F Y P} {h : Hist F Y}
    (hn : NcExt T d c c' nc nc' h) (g : G) :
    RelM (fun x y => x = y) (findNodeSplit T c nc (List.range d) g) (findNodeSplit T c' nc' (List.range (d + 1)) g) := by
  have hz : (List.range (List.range (d + 1)).length).zip (List.range (d + 1)) = (List.range (List.range d).length).zip (List.range d) ++ [(d, d)] := by
    simp only [List.length_range]
    rw [List.range_succ, List.zip_append rfl]
    rfl
  have hmem : ∀ p ∈ (List.range (List.range d).length).zip (List.range d), p.1 = p.2 ∧ p.2 < d := by
    intro p hp
    obtain ⟨k, hk, e⟩ := List.getElem_of_mem hp
    rw [List.getElem_zip] at e
    simp only [List.getElem_range] at e
    subst e
    simp at hk
    exact ⟨rfl, hk⟩
  have hstep : ∀ s : Split F × G, ∀ p ∈ (List.range (List.range d).length).zip (List.range d), seek T c' nc' s p = seek T c nc s p := by
    intro s p hp
    obtain ⟨h1, h2⟩ := hmem p hp
    unfold seek
    have : rd nc'.hists p.1 = rd nc.hists p.1 := by
      unfold rd
      rw [hn.eq]
      simp only
      rw [List.getElem?_append_left (by rw [hn.len]; omega)]
    rw [this]
    refine bind_congr fun x => ?_
    rw [findBestAlong_same (hn.search hx) x (hx.cat _ h2)]
  have e0 : ∀ (c : Ctx F) (nc : NodeCtx F Y P) (fs : List Nat), findNodeSplit T c nc fs g = (((List.range fs.length).zip fs).foldlM (seek T c nc) (Split.reset, g) >>= fun x =>
      if x.1.found && x.1.isCat then (do let best ← computeBinPartition c x.1; return (best, x.2)) else return x) := fun _ _ _ => rfl
  rw [e0, e0, hz]
  refine RelM.bind (S := fun x y => x = y) ?_ ?_
  · intro x y h1 h2
    rw [List.foldlM_append, bind_eq_ok] at h2
    obtain ⟨x1, h2, h3⟩ := h2
    have e1 : x = x1 := by
      refine RelM.foldlM_mem (S := fun x y => x = y) (f := seek T c nc) (g := seek T c' nc') ?_ rfl x x1 h1 h2
      rintro s _ p hp rfl
      rw [hstep s p hp]
      exact RelM.same
    subst e1
    rw [List.foldlM_cons, bind_eq_ok] at h3
    obtain ⟨y1, h3, h4⟩ := h3
    cases h4
    unfold seek at h3
    rw [bind_eq_ok] at h3
    obtain ⟨h', h5, h3⟩ := h3
    obtain rfl : h' = h := by
      have := rd_ok.1 h5
      rw [hn.eq] at this
      simp only at this
      rw [List.getElem?_append_right (by rw [hn.len]), hn.len] at this
      simpa using this.symm
    split at h3
    · rename_i hlen
      rcases hn.new with ⟨j, hj, k1, k2, k3⟩ | k
      · obtain ⟨s0, s1, q1, q2⟩ := (fold_seen hL hirr _ _ _ h2).2 (j, j) (by
          rw [List.mem_iff_getElem]
          exact ⟨j, by simp [hj], by simp⟩) h' (by
          rw [hn.eq]
          simp only
          rw [List.getElem?_append_left (by rw [hn.len]; omega)]
          exact k1) hlen
        have := (findBestAlong_twice hL hirr (g' := s1.2) q1).2 d x.1 x.2 (by rw [hx.cat _ hj]; exact k3) (k2.trans (hx.cat _ hj).symm) q2
        rw [this] at h3
        cases h3
        rfl
      · omega
    · cases h3
      rfl
  · rintro x _ rfl
    have : computeBinPartition c' x.1 = computeBinPartition c x.1 := by
      unfold computeBinPartition
      rw [hx.bins]
    rw [this]
    exact RelM.same

theorem splitSide_ext (hx : Ext T d c c') (s : Split F) {part : List Nat} (hp : ∀ i ∈ part, i < c.fba.nSamples) (lb rb : List Nat) (start stop : Nat) :
    RelM (fun x y => x = y) (splitSide c s part lb rb start stop) (splitSide c' s part lb rb start stop) := by
  unfold splitSide
  refine RelM.bind (S := fun x y => x = y) ?_ ?_
  · refine RelM.foldlM_mem ?_ rfl
    rintro ⟨lb, rb, nl, nr⟩ _ i hi rfl
    simp only
    refine (hx.value (hp i (slice_mem hi)) s.feature).bind ?_
    rintro b _ rfl
    exact RelM.same
  · rintro x _ rfl
    exact RelM.same

/-- The modified arrays, with one more sampled column. -/
structure WorkExt (d n : Nat) (k k' : Work G) : Prop where
  eq : k' = { k with pool := k'.pool, sampled := List.range (d + 1) }
  sampled : k.sampled = List.range d
  train : ∀ i ∈ k.partTrain, i < n
  valid : ∀ i ∈ k.partValid, i < n

theorem splitIndices_ext (hx : Ext T d c c') (s : Split F) {k k' : Work G} (hk : WorkExt d c.fba.nSamples k k') (sT eT sV eV : Nat) :
    RelM (fun x y => WorkExt d c.fba.nSamples x.1 y.1 ∧ x.2 = y.2) (splitIndices c s k sT eT sV eV) (splitIndices c' s k' sT eT sV eV) := by
  intro x y e e'
  obtain ⟨k1, p, q⟩ := x
  have hrows := Bins.splitIndices_rows e
  unfold splitIndices at e e'
  rw [hk.eq] at e'
  simp only [bind_eq_ok] at e e'
  obtain ⟨⟨pt, lb, rb, posT⟩, h1, ⟨pv, lb2, rb2, posV⟩, h2, h3⟩ := e
  obtain ⟨⟨pt', lb', rb', posT'⟩, h1', ⟨pv', lb2', rb2', posV'⟩, h2', h3'⟩ := e'
  simp only at h1 h1' h2 h2' h3 h3'
  cases splitSide_ext hx s hk.train _ _ _ _ _ _ h1 h1'
  cases splitSide_ext hx s hk.valid _ _ _ _ _ _ h2 h2'
  cases h3
  cases h3'
  exact ⟨⟨rfl, hk.sampled, fun i hi => hk.train i (hrows.1 i hi), fun i hi => hk.valid i (hrows.2 i hi)⟩, rfl⟩

/-- States of the loops. -/
structure GExt (d n : Nat) (s s' : GState F P G) : Prop where
  tree : s'.tree = s.tree
  recs : s'.recs = s.recs
  work : WorkExt d n s.work s'.work

theorem computeNodeContext_ext (R : Rng G) (hx : Ext T d c c') {k k' : Work G} (hk : WorkExt d c.fba.nSamples k k') (sT eT sV eV : Nat) :
    RelM (fun x y => (∃ h, NcExt T d c c' x.1 y.1 h) ∧ x.2 = k ∧ y.2 = k') (computeNodeContext R T c k sT eT sV eV)
      (computeNodeContext R T c' k' sT eT sV eV) := by
  have e1 : sampleFeatures R c k = .ok k := by
    unfold sampleFeatures
    rw [if_neg (by rw [hx.maxFeatures, hx.cols]; simp)]
    rfl
  have e2 : sampleFeatures R c' k' = .ok k' := by
    unfold sampleFeatures
    rw [if_neg (by rw [hx.maxFeatures', hx.cols']; simp)]
    rfl
  unfold computeNodeContext
  rw [e1, e2, bind_ok, bind_ok]
  refine RelM.same.bind fun a _ e => ?_
  subst e
  refine RelM.same.bind fun b _ e => ?_
  subst e
  have h1 : k'.sampled = List.range (d + 1) := by rw [hk.eq]
  have h2 : k'.partTrain = k.partTrain := by rw [hk.eq]
  have h3 : k'.partValid = k.partValid := by rw [hk.eq]
  rw [h1, h2, h3, hk.sampled]
  refine (nodeStats_ext hx (fun i hi => hk.train i (slice_mem hi)) (fun i hi => hk.valid i (slice_mem hi)) a b).bind fun nc nc' hn => ?_
  exact RelM.pure' ⟨hn, rfl, rfl⟩

theorem growStep_ext (hL : GainLaws F) (hirr : ∀ a : F, Num.lt a a = false) (R : Rng G) (hx : Ext T d c c') (gb : Garbage F) {s s' : GState F P G}
    (h : GExt d c.fba.nSamples s s') : RelM (GExt d c.fba.nSamples) (growStep R T c gb s) (growStep R T c' gb s') := by
  unfold growStep
  rw [h.recs, h.tree]
  refine RelM.same.bind fun x _ e => ?_
  subst e
  obtain ⟨r, recs⟩ := x
  simp only
  refine (computeNodeContext_ext R hx h.work r.sT r.eT r.sV r.eV).bind ?_
  rintro ⟨nc, k⟩ ⟨nc', k'⟩ ⟨⟨hh, hn⟩, e1, e2⟩
  simp only at hn e1 e2 ⊢
  subst e1 e2
  have hr : s'.work.rng = s.work.rng := by rw [h.work.eq]
  have hs : s'.work.sampled = List.range (d + 1) := by rw [h.work.eq]
  refine RelM.bind (S := fun x y => x = y) ?_ ?_
  · unfold chooseSplit
    have : stopHere c' r nc'.nTrain nc'.nValid = stopHere c r nc.nTrain nc.nValid := by
      rw [hn.eq]
      unfold stopHere
      rw [hx.agg, show c'.minSplit = c.minSplit by rw [hx.eq], show c'.maxDepth = c.maxDepth by rw [hx.eq]]
    rw [this, hr, hs, h.work.sampled]
    split
    · exact RelM.same
    · exact findNodeSplit_ext hL hirr hx hn _
  rintro ⟨sp, g⟩ _ rfl
  simp only
  have ha : addNode T.zeroP gb.bin s.tree r nc' sp.info = addNode T.zeroP gb.bin s.tree r nc sp.info := by
    rw [hn.eq]
    rfl
  have hy : nc'.yPred = nc.yPred := by rw [hn.eq]
  rw [ha, hy]
  refine RelM.same.bind fun x _ e => ?_
  subst e
  obtain ⟨tree, k⟩ := x
  simp only
  refine RelM.same.bind fun yp _ e => ?_
  subst e
  have hw : WorkExt d c.fba.nSamples { s.work with rng := g } { s'.work with rng := g } := by
    refine ⟨?_, h.work.sampled, h.work.train, h.work.valid⟩
    conv_lhs => rw [h.work.eq]
  split
  · refine (splitIndices_ext hx sp hw r.sT r.eT r.sV r.eV).bind ?_
    rintro ⟨k1, pT, pV⟩ ⟨k2, pT', pV'⟩ ⟨q1, q2⟩
    cases q2
    simp only at q1 ⊢
    refine RelM.same.bind fun x _ e => ?_
    subst e
    refine RelM.same.bind fun x _ e => ?_
    subst e
    exact RelM.pure' ⟨rfl, rfl, q1⟩
  · exact RelM.pure' ⟨rfl, rfl, hw⟩

theorem growLoop_ext (hL : GainLaws F) (hirr : ∀ a : F, Num.lt a a = false) (R : Rng G) (hx : Ext T d c c') (gb : Garbage F) (fuel : Nat)
    {s s' : GState F P G} (h : GExt d c.fba.nSamples s s') : RelM (GExt d c.fba.nSamples) (growLoop R T c gb fuel s) (growLoop R T c' gb fuel s') := by
  induction fuel generalizing s s' with
  | zero =>
    unfold growLoop
    rw [h.recs]
    split
    · intro _ _ e
      cases e
    · exact RelM.pure h
  | succ fuel ih =>
    unfold growLoop
    rw [h.recs]
    split
    · exact (growStep_ext hL hirr R hx gb h).bind fun x y hxy => ih hxy
    · exact RelM.pure h

/-- The same tree is grown. -/
theorem fitTree_ext (hL : GainLaws F) (hirr : ∀ a : F, Num.lt a a = false) (R : Rng G) (hx : Ext T d c c') (gb : Garbage F) (seed : Nat)
    {train valid : List Nat} (ht : ∀ i ∈ train, i < c.fba.nSamples) (hv : ∀ i ∈ valid, i < c.fba.nSamples) :
    RelM (fun x y => y.1 = x.1) (fitTree R T c gb seed train valid) (fitTree R T c' gb seed train valid) := by
  rw [fitTree_eq, fitTree_eq]
  refine RelM.bind (S := GExt d c.fba.nSamples) ?_ ?_
  · unfold growRaw
    refine RelM.same.bind fun t _ e => ?_
    subst e
    have h1 : (initWork R c' gb seed train valid).partTrain = (initWork R c gb seed train valid).partTrain := rfl
    have h2 : (initWork R c' gb seed train valid).partValid = (initWork R c gb seed train valid).partValid := rfl
    rw [h1, h2]
    refine RelM.same.bind fun recs _ e => ?_
    subst e
    refine growLoop_ext hL hirr R hx gb _ ⟨rfl, rfl, ?_, ?_, ht, hv⟩
    · unfold initWork
      rw [hx.rows, hx.maxFeatures']
    · show List.range c.maxFeatures = List.range d
      rw [hx.maxFeatures]
  · rintro s s' h
    unfold growEnd
    rw [hx.agg, show c'.step = c.step by rw [hx.eq], h.tree]
    split
    · refine RelM.same.bind fun ns _ e => ?_
      subst e
      exact RelM.pure' rfl
    · exact RelM.pure' rfl

end Verif.Extra
