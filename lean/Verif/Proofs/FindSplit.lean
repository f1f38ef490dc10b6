import Verif.Proofs.SplitSearch

set_option linter.unusedSectionVars false

/-! The search of the best split of a node, from the loops over the bins to the loop over the features. -/
namespace Verif

open Spec

variable {F Y P G : Type} [Num F]

/-- Contents of `n_samples_valid_left_cumsum` that make an order valid for a numerical feature. -/
structure CumOK (c : Ctx F) (D : Data F) (j : Nat) (isCat : Bool) (valid cumsum ordered : List Nat) : Prop where
  len : cumsum.length = c.maxNBins
  value : isCat = false → ∀ b ∈ ordered, cumsum[b]? = some (if c.aggregation then cntLe D j b valid else 0)
  sorted : isCat = false → ordered.Pairwise (· < ·)

/-- Hypotheses on a node and a feature. -/
structure NodeHyp (T : Task F Y P G) (c : Ctx F) (D : Data F) (lab : F → Prop) (j : Nat) (train valid : List Nat)
    (nc : NodeCtx F Y P) (h : Hist F Y) : Prop where
  holds : Holds c D
  feat : j < D.d
  okTrain : ∀ i ∈ train, i < D.n ∧ lab (D.y i)
  okValid : ∀ i ∈ valid, i < D.n ∧ lab (D.y i)
  nTrain : nc.nTrain = train.length
  nValid : nc.nValid = valid.length
  hist : HistOK T c D j train valid h

theorem NodeHyp.bin_lt {T : Task F Y P G} {c : Ctx F} {D : Data F} {lab : F → Prop} {j : Nat} {train valid : List Nat}
    {nc : NodeCtx F Y P} {h : Hist F Y} (H : NodeHyp T c D lab j train valid nc h) {b : Nat} (hb : b ∈ h.neTrain) :
    b < c.maxNBins := by
  obtain ⟨i, hi, rfl⟩ := (H.hist.neMem b).1 hb
  exact H.holds.bound i j (H.okTrain i hi).1 H.feat

/-- Validation samples counted on the left after the bins `q ++ [b]`. -/
def vLeft (c : Ctx F) (D : Data F) (j : Nat) (isCat : Bool) (valid q : List Nat) (b : Nat) : Nat :=
  if c.aggregation then (if isCat then cntIn D j (q ++ [b]) valid else cntLe D j b valid) else 0

theorem accOf_counts {T : Task F Y P G} {lab : F → Prop} {okY : Y → Prop} {okP : P → Prop}
    (hT : TaskSafe T lab okY okP) {c : Ctx F} {D : Data F} {j : Nat} {train valid : List Nat}
    {nc : NodeCtx F Y P} {h : Hist F Y} (H : NodeHyp T c D lab j train valid nc h) (isCat : Bool) {cumsum : List Nat} :
    ∀ (pre : List Nat), pre.Nodup → (∀ b ∈ pre, b ∈ h.neTrain) →
      (accOf T nc h isCat cumsum pre).nL = cntIn D j pre train ∧
      (accOf T nc h isCat cumsum pre).nR = train.length - cntIn D j pre train ∧
      (isCat = true → (accOf T nc h isCat cumsum pre).vL = if c.aggregation then cntIn D j pre valid else 0) ∧
      okY (accOf T nc h isCat cumsum pre).yL ∧ okY (accOf T nc h isCat cumsum pre).yR := by
  intro pre
  have hys : ∀ y ∈ h.ySum, okY y := by
    intro y hy
    obtain ⟨b, hb, rfl⟩ := List.getElem_of_mem hy
    rw [H.hist.lenY] at hb
    obtain ⟨y', e1, e2⟩ := H.hist.ySum b hb
    obtain ⟨y'', e3, e4⟩ := sumY_ok hT D (inBin D j b train) (fun i hi => (H.okTrain i (List.mem_filter.1 hi).1).2)
    rw [e3] at e2; injection e2 with e2
    have : h.ySum[b]? = some y'' := by rw [e1, e2]
    obtain ⟨_, e5⟩ := List.getElem?_eq_some_iff.1 this
    rw [e5]; exact e4
  induction pre using List.reverseRecOn with
  | nil =>
    intro _ _
    refine ⟨by simp [accOf, cntIn_nil], by simp [accOf, cntIn_nil, H.nTrain], by simp [accOf, cntIn_nil], hT.zeroY, ?_⟩
    simp only [accOf, List.foldl_nil]
    suffices ∀ (l : List Y) (z : Y), okY z → (∀ y ∈ l, okY y) → okY (l.foldl T.plusY z) from
      this _ _ hT.zeroY hys
    intro l
    induction l with
    | nil => intro z hz _; exact hz
    | cons y l ih =>
      intro z hz hl
      exact ih _ (hT.plusY _ _ hz (hl y (by simp))) (fun y' hy' => hl y' (by simp [hy']))
  | append_singleton pre b ih =>
    intro hnd hin
    have hnd' := List.nodup_append.1 hnd
    have hb : b ∉ pre := fun hbp => hnd'.2.2 b hbp b (by simp) rfl
    have hbc := H.bin_lt (hin b (by simp))
    obtain ⟨e1, e2, e3, e4, e5⟩ := ih hnd'.1 (fun x hx => hin x (by simp [hx]))
    have n1 : h.nTrain.getD b 0 = (inBin D j b train).length := by
      simp [List.getD_eq_getElem?_getD, H.hist.nTrain b hbc]
    have n2 : h.nValid.getD b 0 = if c.aggregation then (inBin D j b valid).length else 0 := by
      simp [List.getD_eq_getElem?_getD, H.hist.nValid b hbc]
    have hyb : okY (h.ySum.getD b T.zeroY) := by
      obtain ⟨y', f1, f2⟩ := H.hist.ySum b hbc
      rw [List.getD_eq_getElem?_getD, f1]
      exact hys _ (List.mem_of_getElem? f1)
    rw [accOf_snoc]
    refine ⟨?_, ?_, ?_, hT.plusY _ _ e4 hyb, hT.minusY _ _ e5 hyb⟩
    · simp only [accStep, e1, n1, cntIn_snoc _ _ _ _ _ hb]
    · simp only [accStep, e2, n1, cntIn_snoc _ _ _ _ _ hb]; omega
    · intro hc
      have e3' := e3 hc
      subst hc
      simp only [accStep, if_true, e3', n2, cntIn_snoc _ _ _ _ _ hb]
      split <;> rfl

theorem IsCut.split {ordered q : List Nat} {b : Nat} (h : IsCut ordered q b) :
    ∃ post, ordered = q ++ b :: post ∧ post ≠ [] := by
  obtain ⟨r, hr⟩ := h
  have hne : ordered ≠ [] := by rintro rfl; simp at hr
  refine ⟨r ++ [ordered.getLast hne], ?_, by simp⟩
  conv_lhs => rw [← List.dropLast_concat_getLast hne, hr]
  simp

theorem isCut_of_split {ordered q post : List Nat} {b : Nat} (h : ordered = q ++ b :: post) (hp : post ≠ []) :
    IsCut ordered q b := by
  refine ⟨post.dropLast, ?_⟩
  rw [h, List.dropLast_append_of_ne_nil (by simp), List.dropLast_cons_of_ne_nil hp]

theorem accOf_vL {T : Task F Y P G} {lab : F → Prop} {okY : Y → Prop} {okP : P → Prop}
    (hT : TaskSafe T lab okY okP) {c : Ctx F} {D : Data F} {j : Nat} {train valid : List Nat}
    {nc : NodeCtx F Y P} {h : Hist F Y} (H : NodeHyp T c D lab j train valid nc h) {isCat : Bool}
    {cumsum ordered : List Nat} (hp : ordered.Perm h.neTrain) (hc : CumOK c D j isCat valid cumsum ordered)
    {q : List Nat} {b : Nat} (hq : IsCut ordered q b) :
    (accOf T nc h isCat cumsum (q ++ [b])).vL = vLeft c D j isCat valid q b := by
  obtain ⟨post, hs, hpost⟩ := hq.split
  have hnd : ordered.Nodup := hp.nodup_iff.2 H.hist.neNodup
  have hb : b ∈ ordered := by rw [hs]; simp
  cases hcat : isCat with
  | true =>
    have hnd2 : (q ++ [b]).Nodup := by
      rw [hs, show q ++ b :: post = (q ++ [b]) ++ post by simp] at hnd
      exact (List.nodup_append.1 hnd).1
    have := (accOf_counts hT H true (cumsum := cumsum) (q ++ [b]) hnd2
      (fun x hx => hp.mem_iff.1 (by rw [hs]; simp at hx ⊢; tauto))).2.2.1 rfl
    rw [this]; simp [vLeft]
  | false =>
    rw [accOf_snoc]
    simp only [accStep, Bool.false_eq_true, if_false, vLeft, List.getD_eq_getElem?_getD]
    rw [hc.value hcat b hb]
    simp

theorem orderOK {T : Task F Y P G} {lab : F → Prop} {okY : Y → Prop} {okP : P → Prop}
    (hT : TaskSafe T lab okY okP) {c : Ctx F} {D : Data F} {j : Nat} {train valid : List Nat}
    {nc : NodeCtx F Y P} {h : Hist F Y} (H : NodeHyp T c D lab j train valid nc h) {isCat : Bool}
    {cumsum ordered : List Nat} (hp : ordered.Perm h.neTrain) (hc : CumOK c D j isCat valid cumsum ordered) :
    OrderOK T c nc h isCat cumsum ordered := by
  have hnd : ordered.Nodup := hp.nodup_iff.2 H.hist.neNodup
  have hlt : ∀ b ∈ ordered, b < c.maxNBins := fun b hb => H.bin_lt (hp.mem_iff.1 hb)
  have hpre : ∀ pre post, ordered = pre ++ post → pre.Nodup ∧ ∀ b ∈ pre, b ∈ h.neTrain := by
    intro pre post hs
    refine ⟨(List.nodup_append.1 (hs ▸ hnd)).1, fun b hb => hp.mem_iff.1 (by rw [hs]; simp [hb])⟩
  have hcutmem : ∀ q b, IsCut ordered q b → b ∈ ordered := by
    intro q b hq; obtain ⟨post, hs, _⟩ := hq.split; rw [hs]; simp
  refine ⟨length_le_of_nodup hnd hlt, ?_, ?_, ?_, ?_, ?_⟩
  · intro q b hq
    have hb := hlt b (hcutmem q b hq)
    have hw : b < h.wTrain.length := (List.getElem?_eq_some_iff.1 (H.hist.wTrain b hb)).1
    exact ⟨by rw [H.hist.lenN]; exact hb, hw, by rw [H.hist.lenY]; exact hb, by rw [H.hist.lenV]; exact hb,
      by rw [hc.len]; exact hb⟩
  · intro q b hq
    obtain ⟨post, hs, _⟩ := hq.split
    obtain ⟨g1, g2⟩ := hpre q _ hs
    obtain ⟨e1, e2, _⟩ := accOf_counts hT H isCat (cumsum := cumsum) q g1 g2
    have hbq : b ∉ q := by
      intro hbq
      rw [hs] at hnd
      exact (List.nodup_append.1 hnd).2.2 b hbq b (by simp) rfl
    have := cntIn_snoc D j q train b hbq
    have hle := cntIn_le D j (q ++ [b]) train
    rw [e2, List.getD_eq_getElem?_getD, H.hist.nTrain b (hlt b (hcutmem q b hq))]
    simp only [Option.getD_some]
    omega
  · intro q b hq
    rw [accOf_vL hT H hp hc hq, H.nValid]
    unfold vLeft
    split
    · split
      · exact cntIn_le _ _ _ _
      · exact cntLe_le _ _ _ _
    · omega
  · intro q b hq
    obtain ⟨post, hs, _⟩ := hq.split
    obtain ⟨g1, g2⟩ := hpre (q ++ [b]) post (by simp [hs])
    obtain ⟨_, _, _, e4, e5⟩ := accOf_counts hT H isCat (cumsum := cumsum) _ g1 g2
    exact hT.childs _ _ _ _ e4 e5
  · intro q b q' b' hq hq'
    obtain ⟨post, hs, _⟩ := hq.split
    obtain ⟨post', hs', _⟩ := hq'.split
    obtain ⟨g1, g2⟩ := hpre (q ++ [b]) post (by simp [hs])
    obtain ⟨g1', g2'⟩ := hpre (q ++ b :: q' ++ [b']) post' (by simp [hs'])
    obtain ⟨_, e2, _⟩ := accOf_counts hT H isCat (cumsum := cumsum) _ g1 g2
    obtain ⟨_, e2', _⟩ := accOf_counts hT H isCat (cumsum := cumsum) _ g1' g2'
    have hsub : ∀ x ∈ q ++ [b], x ∈ q ++ b :: q' ++ [b'] := by intro x hx; simp at hx ⊢; tauto
    refine ⟨?_, ?_⟩
    · rw [e2, e2']
      have := cntIn_mono D j hsub train
      omega
    · rw [accOf_vL hT H hp hc hq, accOf_vL hT H hp hc hq']
      unfold vLeft
      split
      · split
        · exact cntIn_mono D j hsub valid
        · rename_i hcat
          apply cntLe_mono
          have hs2 := hc.sorted (by simpa using hcat)
          rw [hs', List.append_assoc, List.cons_append, List.pairwise_append, List.pairwise_cons] at hs2
          exact Nat.le_of_lt (hs2.2.1.1 b' (by simp))
      · omega

/-- The orders of the bins tried on a feature, with their cumulated counts. -/
structure Tried (T : Task F Y P G) (c : Ctx F) (D : Data F) (j : Nat) (valid : List Nat) (h : Hist F Y) (isCat : Bool)
    (cumsum : List Nat) (os : List (List Nat)) : Prop where
  cat : isCat = true → ∃ g g', T.orders h.neTrain h.ySum g = .ok (os, g')
  num : isCat = false → os = [sortNat h.neTrain]
  perm : ∀ o ∈ os, o.Perm h.neTrain
  cum : ∀ o ∈ os, CumOK c D j isCat valid cumsum o

/-- A sequence of orders. -/
theorem tryOrders_spec {T : Task F Y P G} {c : Ctx F} {nc : NodeCtx F Y P} {h : Hist F Y} (feature : Nat) {isCat : Bool}
    {cumsum : List Nat} (os : List (List Nat)) (hO : ∀ o ∈ os, OrderOK T c nc h isCat cumsum o) (best : Split F) :
    ∃ best', os.foldlM (fun best o => tryOrder T c nc h feature isCat cumsum o best) best = .ok best' ∧
        (best' = best ∨ ∃ o ∈ os, Chosen T c nc h feature isCat cumsum o best best') ∧
        (GainLaws F → NoWorse best best') ∧
        (GainLaws F → LtIrrefl F → ∀ o ∈ os, ∀ q b, IsCut o q b → Beats T c nc h isCat cumsum q b best') := by
  induction os generalizing best with
  | nil => exact ⟨best, rfl, Or.inl rfl, fun _ x hx => hx, by simp⟩
  | cons o os ih =>
    obtain ⟨b1, e1, e2, e3, e4⟩ := tryOrder_spec feature (hO o (by simp)) best
    obtain ⟨b2, f1, f2, f3, f4⟩ := ih (fun o' ho' => hO o' (by simp [ho'])) b1
    refine ⟨b2, by simp only [List.foldlM_cons, e1, bind_ok, f1], ?_, ?_, ?_⟩
    · rcases f2 with rfl | ⟨o', ho', q, b, i, c1, c2, c3, c4⟩
      · rcases e2 with rfl | e2
        · exact Or.inl rfl
        · exact Or.inr ⟨o, by simp, e2⟩
      · refine Or.inr ⟨o', by simp [ho'], q, b, i, c1, c2, c3, ?_⟩
        rcases e2 with rfl | ⟨q', b', i', d1, d2, d3, d4⟩
        · exact c4
        · rw [c4, d4]; rfl
    · intro L x hx; exact f3 L x (e3 L x hx)
    · intro L I o' ho' q b hq
      rcases List.mem_cons.1 ho' with rfl | ho'
      · intro hadm i hi
        exact f3 L _ (e4 L I q b hq hadm i hi)
      · exact f4 L I o' ho' q b hq

theorem findBestAlong_spec {T : Task F Y P G} {lab : F → Prop} {okY : Y → Prop} {okP : P → Prop}
    (hT : TaskSafe T lab okY okP) {c : Ctx F} {D : Data F} {j : Nat} {train valid : List Nat}
    {nc : NodeCtx F Y P} {h : Hist F Y} (H : NodeHyp T c D lab j train valid nc h)
    (hv : c.aggregation = true → valid ≠ []) (best : Split F) (g : G) :
    ∃ best' g' isCat cumsum os, findBestAlong T c nc h j best g = .ok (best', g') ∧ c.isCategorical[j]? = some isCat ∧
      Tried T c D j valid h isCat cumsum os ∧
      (best' = best ∨ ∃ o ∈ os, Chosen T c nc h j isCat cumsum o best best') ∧
      (GainLaws F → NoWorse best best') ∧
      (GainLaws F → LtIrrefl F → ∀ o ∈ os, ∀ q b, IsCut o q b → Beats T c nc h isCat cumsum q b best') := by
  have hjc : j < c.isCategorical.length := by rw [H.holds.cat]; exact H.feat
  cases hcat : c.isCategorical[j] with
  | true =>
    have hys : ∀ b ∈ h.neTrain, ∃ y, h.ySum[b]? = some y ∧ okY y := by
      intro b hb
      obtain ⟨y', e1, e2⟩ := H.hist.ySum b (H.bin_lt hb)
      obtain ⟨y'', e3, e4⟩ := sumY_ok hT D (inBin D j b train) (fun i hi => (H.okTrain i (List.mem_filter.1 hi).1).2)
      rw [e3] at e2; injection e2 with e2
      exact ⟨y', e1, e2 ▸ e4⟩
    obtain ⟨os, g', e1, e2⟩ := hT.orders h.neTrain h.ySum g hys
    have hcum : ∀ o ∈ os, CumOK c D j true valid (List.replicate h.nTrain.length 0) o := by
      intro o _
      exact ⟨by simp [H.hist.lenN], by simp, by simp⟩
    obtain ⟨best', f1, f2, f3, f4⟩ := tryOrders_spec (T := T) (c := c) (nc := nc) (h := h) j (isCat := true)
      (cumsum := List.replicate h.nTrain.length 0) os (fun o ho => orderOK hT H (e2 o ho) (hcum o ho)) best
    refine ⟨best', g', true, _, os, ?_, by rw [List.getElem?_eq_getElem hjc, hcat],
      ⟨fun _ => ⟨g, g', e1⟩, by simp, e2, hcum⟩, f2, f3, f4⟩
    simp only [findBestAlong, rd_of_lt hjc, hcat, bind_ok, if_true, e1, f1, pure_eq_ok]
  | false =>
    have hcs : ∃ cs, (if c.aggregation then cumsumValid h.nValid (sortNat h.neTrain) (sortNat h.neValid)
          (List.replicate h.nTrain.length 0) else .ok (List.replicate h.nTrain.length 0) : M _) = .ok cs ∧
        CumOK c D j false valid cs (sortNat h.neTrain) := by
      cases hagg : c.aggregation with
      | false =>
        simp only [Bool.false_eq_true, if_false]
        refine ⟨_, rfl, by simp [H.hist.lenN], ?_, fun _ => sortNat_lt H.hist.neNodup⟩
        intro _ b hb
        have := H.bin_lt (mem_sortNat.1 hb)
        simp [hagg, H.hist.lenN, this]
      | true =>
        simp only [if_true]
        obtain ⟨cs, e1, e2, e3⟩ := cumsumValid_spec D j valid (sortNat h.neTrain) (sortNat h.neValid) h.nValid
          (List.replicate h.nTrain.length 0) (sortNat_lt H.hist.nevNodup) (sortNat_lt H.hist.neNodup)
          (by
            intro h0
            obtain ⟨i, l, hil⟩ := List.exists_cons_of_ne_nil (hv hagg)
            have : D.X i j ∈ sortNat h.neValid :=
              mem_sortNat.2 ((H.hist.nevMem _).2 ⟨hagg, i, by rw [hil]; simp, rfl⟩)
            rw [h0] at this; simp at this)
          (fun i hi => mem_sortNat.2 ((H.hist.nevMem _).2 ⟨hagg, i, hi, rfl⟩))
          (by
            intro b hb
            obtain ⟨_, i, hi, rfl⟩ := (H.hist.nevMem b).1 (mem_sortNat.1 hb)
            have := H.hist.nValid _ (H.holds.bound i j (H.okValid i hi).1 H.feat)
            rw [this]; simp [hagg])
          (by intro b hb; simpa [H.hist.lenN] using H.bin_lt (mem_sortNat.1 hb))
        refine ⟨cs, e1, by simp [e2, H.hist.lenN], ?_, fun _ => sortNat_lt H.hist.neNodup⟩
        intro _ b hb
        simp [hagg, e3 b hb]
    obtain ⟨cs, e1, e2⟩ := hcs
    have hcum : ∀ o ∈ [sortNat h.neTrain], CumOK c D j false valid cs o := by
      intro o ho; simp at ho; subst ho; exact e2
    have hperm : ∀ o ∈ [sortNat h.neTrain], o.Perm h.neTrain := by
      intro o ho; simp at ho; subst ho; exact sortNat_perm _
    obtain ⟨best', f1, f2, f3, f4⟩ := tryOrders_spec (T := T) (c := c) (nc := nc) (h := h) j (isCat := false)
      (cumsum := cs) [sortNat h.neTrain] (fun o ho => orderOK hT H (hperm o ho) (hcum o ho)) best
    refine ⟨best', g, false, cs, [sortNat h.neTrain], ?_, by rw [List.getElem?_eq_getElem hjc, hcat],
      ⟨by simp, fun _ => rfl, hperm, hcum⟩, f2, f3, f4⟩
    have f1' : tryOrder T c nc h j false cs (sortNat h.neTrain) best = .ok best' := by
      simp only [List.foldlM_cons, List.foldlM_nil] at f1
      cases ht : tryOrder T c nc h j false cs (sortNat h.neTrain) best with
      | error e => rw [ht] at f1; simp at f1
      | ok v => rw [ht] at f1; simpa using f1
    simp only [findBestAlong, rd_of_lt hjc, hcat, bind_ok, Bool.false_eq_true, if_false, e1, f1', pure_eq_ok]

theorem partitionSize_spec (bins : List Nat) (thr : Nat) (q post : List Nat) (h : bins = q ++ thr :: post)
    (hq : thr ∉ q) : ∀ (fuel idx : Nat), idx ≤ q.length → q.length - idx < fuel →
      partitionSize bins thr fuel idx = .ok (q.length + 1) := by
  intro fuel
  induction fuel with
  | zero => intro idx _ h; omega
  | succ fuel ih =>
    intro idx hi hf
    have hlt : idx < bins.length := by rw [h]; simp; omega
    simp only [partitionSize, rd_of_lt hlt, bind_ok]
    rcases Nat.lt_or_ge idx q.length with hlt' | hge
    · have hv : bins[idx] = q[idx] := by
        have : bins[idx]? = q[idx]? := by rw [h, List.getElem?_append_left hlt']
        simpa [hlt, hlt'] using this
      have hne : bins[idx] ≠ thr := by
        intro he; apply hq; rw [← he, hv]; exact List.getElem_mem hlt'
      rw [if_pos hne]
      exact ih (idx + 1) (by omega) (by omega)
    · have : idx = q.length := by omega
      subst this
      have hv : bins[q.length] = thr := by
        have : bins[q.length]? = some thr := by rw [h]; simp
        simpa [hlt] using this
      rw [if_neg (by simp [hv])]; rfl

theorem inBin_pos (D : Data F) (j b : Nat) (l : List Nat) (h : ∃ i ∈ l, D.X i j = b) : 0 < (inBin D j b l).length := by
  by_contra h0
  exact (inBin_length_pos D j b l).1 (by omega) h

/-- The features looked at by `find_node_split`: those with more than one non-empty bin. -/
def Looked (nc : NodeCtx F Y P) (sampled : List Nat) (f j : Nat) (h : Hist F Y) : Prop :=
  sampled[f]? = some j ∧ nc.hists[f]? = some h ∧ 1 < h.neTrain.length

/-- Origin of the split found at a node. -/
def Origin (T : Task F Y P G) (c : Ctx F) (D : Data F) (valid : List Nat) (nc : NodeCtx F Y P) (sampled : List Nat)
    (best : Split F) : Prop :=
  ∃ f j h isCat cumsum os o, Looked nc sampled f j h ∧ c.isCategorical[j]? = some isCat ∧
    Tried T c D j valid h isCat cumsum os ∧ o ∈ os ∧ Chosen T c nc h j isCat cumsum o Split.reset best

/-- All candidates of all features looked at are beaten. -/
def Optimal (T : Task F Y P G) (c : Ctx F) (D : Data F) (valid : List Nat) (nc : NodeCtx F Y P)
    (sampled : List Nat) (best : Split F) : Prop :=
  ∀ f j h, Looked nc sampled f j h → ∃ isCat cumsum os, c.isCategorical[j]? = some isCat ∧
    Tried T c D j valid h isCat cumsum os ∧ ∀ o ∈ os, ∀ q b, IsCut o q b → Beats T c nc h isCat cumsum q b best

theorem zip_range_mem {l : List Nat} {f j : Nat} : (f, j) ∈ (List.range l.length).zip l ↔ l[f]? = some j := by
  constructor
  · intro h
    obtain ⟨k, hk, e⟩ := List.getElem_of_mem h
    simp at e hk
    obtain ⟨rfl, rfl⟩ := e
    simp [hk]
  · intro h
    obtain ⟨hf, rfl⟩ := List.getElem?_eq_some_iff.1 h
    have : ((List.range l.length).zip l)[f]'(by simpa using hf) = (f, l[f]) := by simp
    rw [← this]; exact List.getElem_mem _

/-- The loop over the features, before the computation of the set of categories. -/
theorem searchLoop_spec {T : Task F Y P G} {lab : F → Prop} {okY : Y → Prop} {okP : P → Prop}
    (hT : TaskSafe T lab okY okP) {c : Ctx F} {D : Data F} (hD : Holds c D) {sampled train valid : List Nat}
    {nc : NodeCtx F Y P} (hn : NodeOK T c D okP sampled train valid nc) (hf : ∀ j ∈ sampled, j < D.d)
    (htr : ∀ i ∈ train, i < D.n ∧ lab (D.y i)) (hva : ∀ i ∈ valid, i < D.n ∧ lab (D.y i))
    (hv : c.aggregation = true → valid ≠ []) (g : G) :
    ∃ best g', ((List.range sampled.length).zip sampled).foldlM
      (fun (s : Split F × G) (p : Nat × Nat) => do
        let h ← rd nc.hists p.1
        if 1 < h.neTrain.length then findBestAlong T c nc h p.2 s.1 s.2 else return s)
      (Split.reset, g) = .ok (best, g') ∧
      (best = Split.reset ∨ Origin T c D valid nc sampled best) ∧
      (GainLaws F → LtIrrefl F → Optimal T c D valid nc sampled best) := by
  obtain ⟨⟨best, g'⟩, h1, h2, h3⟩ := foldlM_inv (l := (List.range sampled.length).zip sampled)
    (f := fun (s : Split F × G) (p : Nat × Nat) => do
        let h ← rd nc.hists p.1
        if 1 < h.neTrain.length then findBestAlong T c nc h p.2 s.1 s.2 else return s)
    (s := (Split.reset, g))
    (fun pre s => (s.1 = Split.reset ∨ Origin T c D valid nc sampled s.1) ∧
      (GainLaws F → LtIrrefl F → ∀ f j h, (f, j) ∈ pre → Looked nc sampled f j h →
        ∃ isCat cumsum os, c.isCategorical[j]? = some isCat ∧ Tried T c D j valid h isCat cumsum os ∧
        ∀ o ∈ os, ∀ q b, IsCut o q b → Beats T c nc h isCat cumsum q b s.1))
    ⟨Or.inl rfl, by simp⟩
    (by
      rintro pre ⟨f, j⟩ post ⟨best, g⟩ hs ⟨g1, g2⟩
      have hmem : (f, j) ∈ (List.range sampled.length).zip sampled := by rw [hs]; simp
      have hfj := zip_range_mem.1 hmem
      obtain ⟨h, hh, hok⟩ := hn.hists f j hfj
      have hjd : j < D.d := hf j (List.mem_of_getElem? hfj)
      simp only [rd_ok.2 hh, bind_ok]
      by_cases hlen : 1 < h.neTrain.length
      · simp only [hlen, if_true]
        obtain ⟨best', g', isCat, cumsum, os, e1, e2, e3, e4, e5, e6⟩ :=
          findBestAlong_spec hT ⟨hD, hjd, htr, hva, hn.nTrain, hn.nValid, hok⟩ hv best g
        refine ⟨(best', g'), e1, ?_, ?_⟩
        · rcases e4 with rfl | ⟨o, ho, q, b, i, c1, c2, c3, c4⟩
          · exact g1
          · refine Or.inr ⟨f, j, h, isCat, cumsum, os, o, ⟨hfj, hh, hlen⟩, e2, e3, ho, q, b, i, c1, c2, c3, ?_⟩
            simp only at c4 ⊢
            rcases g1 with g1 | ⟨_, _, _, _, _, _, _, _, _, _, _, _, _, _, _, _, _, g1⟩
            · simp only at g1; rw [c4, g1]
            · simp only at g1; rw [c4, g1]; rfl
        · intro L I f' j' h' hm hl
          rcases List.mem_append.1 hm with hm | hm
          · obtain ⟨isCat', cumsum', os', k1, k2, k3⟩ := g2 L I f' j' h' hm hl
            refine ⟨isCat', cumsum', os', k1, k2, ?_⟩
            intro o ho q b hq hadm i hi
            exact e5 L _ (k3 o ho q b hq hadm i hi)
          · simp at hm
            obtain ⟨rfl, rfl⟩ := hm
            have : h' = h := by
              have := hl.2.1; rw [hh] at this; injection this with this; exact this.symm
            subst this
            exact ⟨isCat, cumsum, os, e2, e3, e6 L I⟩
      · simp only [hlen, if_false]
        refine ⟨(best, g), rfl, g1, ?_⟩
        intro L I f' j' h' hm hl
        rcases List.mem_append.1 hm with hm | hm
        · exact g2 L I f' j' h' hm hl
        · exfalso
          simp at hm
          obtain ⟨rfl, rfl⟩ := hm
          have : h' = h := by
            have := hl.2.1; rw [hh] at this; injection this with this; exact this.symm
          subst this
          exact hlen hl.2.2)
  refine ⟨best, g', h1, h2, ?_⟩
  intro L I f j h hl
  exact h3 L I f j h (zip_range_mem.2 hl.1) hl

/-- What is known of a split that was found: the counts are those of the samples that go to each side. -/
structure SplitOK (c : Ctx F) (D : Data F) (sampled train valid : List Nat) (sp : Split F) : Prop where
  feature : sp.feature ∈ sampled
  isCat : c.isCategorical[sp.feature]? = some sp.isCat
  part : sp.isCat = true → sp.partition.Pairwise (· < ·) ∧ sp.partition ≠ [] ∧
    ∀ b ∈ sp.partition, ∃ i ∈ train, D.X i sp.feature = b
  thr : ∃ i ∈ train, D.X i sp.feature = sp.binThreshold
  partLen : sp.partition.length ≤ c.maxNBins
  nTrainL : sp.nTrainL = (train.filter fun i => goesLeft sp (D.X i sp.feature)).length
  nTrainR : sp.nTrainR = (train.filter fun i => !goesLeft sp (D.X i sp.feature)).length
  nValidL : c.aggregation = true → sp.nValidL = (valid.filter fun i => goesLeft sp (D.X i sp.feature)).length
  nValidR : c.aggregation = true → sp.nValidR = (valid.filter fun i => !goesLeft sp (D.X i sp.feature)).length
  pos : 0 < sp.nTrainL ∧ 0 < sp.nTrainR
  leaf : c.minLeaf ≤ sp.nTrainL ∧ c.minLeaf ≤ sp.nTrainR ∧
    (c.aggregation = true → c.minLeaf ≤ sp.nValidL ∧ c.minLeaf ≤ sp.nValidR)

theorem length_filter_not (p : Nat → Bool) (l : List Nat) :
    (l.filter fun i => !p i).length = l.length - (l.filter p).length := by
  have := List.length_eq_length_filter_add (l := l) p
  omega

theorem findNodeSplit_spec {T : Task F Y P G} {lab : F → Prop} {okY : Y → Prop} {okP : P → Prop}
    (hT : TaskSafe T lab okY okP) {c : Ctx F} {D : Data F} (hD : Holds c D) {sampled train valid : List Nat}
    {nc : NodeCtx F Y P} (hn : NodeOK T c D okP sampled train valid nc) (hf : ∀ j ∈ sampled, j < D.d)
    (htr : ∀ i ∈ train, i < D.n ∧ lab (D.y i)) (hva : ∀ i ∈ valid, i < D.n ∧ lab (D.y i))
    (hv : c.aggregation = true → valid ≠ []) (g : G) :
    ∃ sp g', findNodeSplit T c nc sampled g = .ok (sp, g') ∧
      (sp = Split.reset ∨ (sp.found = true ∧ SplitOK c D sampled train valid sp)) ∧
      ∃ best : Split F, sp = { best with partition := sp.partition } ∧
        (best = Split.reset ∨ Origin T c D valid nc sampled best ∧
          (sp.isCat = true → ∃ f j h q, Looked nc sampled f j h ∧ IsCut sp.bins q sp.binThreshold ∧
            sp.partition = sortNat (q ++ [sp.binThreshold]))) ∧
        (GainLaws F → LtIrrefl F → Optimal T c D valid nc sampled best) := by
  obtain ⟨best, g', e1, e2, e3⟩ := searchLoop_spec hT hD hn hf htr hva hv g
  rcases e2 with rfl | hor
  · refine ⟨Split.reset, g', ?_, Or.inl rfl, Split.reset, rfl, Or.inl rfl, e3⟩
    have h0 : (Split.reset : Split F).found = false := rfl
    unfold findNodeSplit
    rw [e1]
    simp only [bind_ok, h0, Bool.false_and, Bool.false_eq_true, if_false, pure_eq_ok]
  · have hor' := hor
    obtain ⟨f, j, h, isCat, cumsum, os, o, hl, hc, htd, ho, q, b, i, hcut, hadm, hi, hb⟩ := hor
    have hjs : j ∈ sampled := List.mem_of_getElem? hl.1
    obtain ⟨h', hh', hok⟩ := hn.hists f j hl.1
    have : h' = h := by have := hl.2.1; rw [hh'] at this; injection this
    subst this
    have H : NodeHyp T c D lab j train valid nc h' := ⟨hD, hf j hjs, htr, hva, hn.nTrain, hn.nValid, hok⟩
    have hp := htd.perm o ho
    have hnd : o.Nodup := hp.nodup_iff.2 hok.neNodup
    obtain ⟨post, hs, hpost⟩ := hcut.split
    have hbq : b ∉ q := by
      intro hbq
      rw [hs] at hnd
      exact (List.nodup_append.1 hnd).2.2 b hbq b (by simp) rfl
    have hpre : (q ++ [b]).Nodup ∧ ∀ x ∈ q ++ [b], x ∈ h'.neTrain := by
      refine ⟨?_, fun x hx => hp.mem_iff.1 (by rw [hs]; simp at hx ⊢; tauto)⟩
      rw [hs, show q ++ b :: post = (q ++ [b]) ++ post by simp] at hnd
      exact (List.nodup_append.1 hnd).1
    obtain ⟨a1, a2, _, _, _⟩ := accOf_counts hT H isCat (cumsum := cumsum) _ hpre.1 hpre.2
    have a3 := accOf_vL hT H hp (htd.cum o ho) hcut
    have hvle := (orderOK hT H hp (htd.cum o ho)).vle q b hcut
    -- the fields of the stored split
    have f1 : best.feature = j := by rw [hb]; rfl
    have f2 : best.isCat = isCat := by rw [hb]; rfl
    have f3 : best.binThreshold = b := by rw [hb]; rfl
    have f4 : best.bins = o := by rw [hb]; rfl
    have f5 : best.found = true := by rw [hb]; rfl
    have f6 : best.nTrainL = cntIn D j (q ++ [b]) train := by rw [hb, ← a1]; rfl
    have f7 : best.nTrainR = train.length - cntIn D j (q ++ [b]) train := by rw [hb, ← a2]; rfl
    have f8 : best.nValidL = vLeft c D j isCat valid q b := by rw [hb, ← a3]; rfl
    have f9 : best.nValidR = valid.length - vLeft c D j isCat valid q b := by
      rw [hb, ← a3, ← hn.nValid]; rfl
    have f10 : best.partition = [] := by rw [hb]; rfl
    have hthr : ∃ i ∈ train, D.X i j = b := (hok.neMem b).1 (hpre.2 b (by simp))
    -- both sides are non-empty
    have hposL : 0 < cntIn D j (q ++ [b]) train := by
      rw [cntIn_snoc _ _ _ _ _ hbq]
      have := inBin_pos D j b train hthr
      omega
    have hposR : cntIn D j (q ++ [b]) train < train.length := by
      obtain ⟨x, l, rfl⟩ := List.exists_cons_of_ne_nil hpost
      have hx : x ∉ q ++ [b] := by
        intro hx
        rw [hs, show q ++ b :: x :: l = (q ++ [b]) ++ x :: l by simp] at hnd
        exact (List.nodup_append.1 hnd).2.2 x hx x (by simp) rfl
      have h1 := cntIn_snoc D j (q ++ [b]) train x hx
      have h2 := cntIn_le D j (q ++ [b] ++ [x]) train
      have h3 := inBin_pos D j x train ((hok.neMem x).1 (hp.mem_iff.1 (by rw [hs]; simp)))
      omega
    have hleafs : c.minLeaf ≤ best.nTrainL ∧ c.minLeaf ≤ best.nTrainR ∧
        (c.aggregation = true → c.minLeaf ≤ best.nValidL ∧ c.minLeaf ≤ best.nValidR) := by
      refine ⟨?_, ?_, fun hagg => ⟨?_, ?_⟩⟩
      · rw [hb]; exact hadm.1
      · rw [hb]; exact hadm.2.2.1
      · rw [hb]; exact hadm.2.1 hagg
      · rw [hb]; exact hadm.2.2.2 hagg
    have hcm : c.isCategorical[best.feature]? = some best.isCat := by rw [f1, f2]; exact hc
    have hfm : best.feature ∈ sampled := by rw [f1]; exact hjs
    have hthr' : ∃ i ∈ train, D.X i best.feature = best.binThreshold := by rw [f1, f3]; exact hthr
    cases hcat : isCat with
    | false =>
      rw [hcat] at f2 a3
      have hos := htd.num hcat
      have hsorted : o.Pairwise (· < ·) := (htd.cum o ho).sorted hcat
      have hgl : ∀ x, goesLeft best x = decide (x ≤ b) := by intro x; simp [goesLeft, f2, f3]
      have hmemle : ∀ i ∈ train, D.X i j ∈ q ++ [b] ↔ D.X i j ≤ b := by
        intro i hi
        have hin : D.X i j ∈ o := hp.mem_iff.2 ((hok.neMem _).2 ⟨i, hi, rfl⟩)
        rw [hs] at hin hsorted
        rw [List.pairwise_append, List.pairwise_cons] at hsorted
        constructor
        · intro hx
          rcases List.mem_append.1 hx with hx | hx
          · exact Nat.le_of_lt (hsorted.2.2 _ hx b (by simp))
          · simp at hx; omega
        · intro hx
          rcases List.mem_append.1 hin with h' | h'
          · simp [h']
          · rcases List.mem_cons.1 h' with h' | h'
            · simp [h']
            · have := hsorted.2.1.1 _ h'; omega
      have hcl : cntIn D j (q ++ [b]) train = (train.filter fun i => goesLeft best (D.X i best.feature)).length := by
        rw [cntIn_eq_cntLe D j hmemle, ← List.countP_eq_length_filter, f1]
        simp only [hgl]; rfl
      have hvl : c.aggregation = true → vLeft c D j isCat valid q b =
          (valid.filter fun i => goesLeft best (D.X i best.feature)).length := by
        intro hagg
        rw [← List.countP_eq_length_filter, f1]
        simp only [hgl, vLeft, hagg, hcat, if_true, Bool.false_eq_true, if_false]; rfl
      refine ⟨best, g', ?_, Or.inr ⟨f5, ?_⟩, best, rfl, Or.inr ⟨hor', by simp [f2]⟩, e3⟩
      · unfold findNodeSplit
        rw [e1]
        simp only [bind_ok, f5, f2, Bool.and_false, Bool.false_eq_true, if_false, pure_eq_ok]
      · refine ⟨hfm, hcm, by simp [f2], hthr', by simp [f10], by rw [f6, hcl], ?_, ?_, ?_, by omega, hleafs⟩
        · rw [f7, hcl, length_filter_not (fun i => goesLeft best (D.X i best.feature))]
        · intro hagg; rw [f8, hvl hagg]
        · intro hagg; rw [f9, hvl hagg, length_filter_not (fun i => goesLeft best (D.X i best.feature))]
    | true =>
      rw [hcat] at f2 a3
      have hps := partitionSize_spec o b q post hs hbq (o.length + 1) 0 (by omega)
        (by rw [hs]; simp; omega)
      have htake : o.take (q.length + 1) = q ++ [b] := by
        rw [hs, show q ++ b :: post = (q ++ [b]) ++ post by simp]
        rw [List.take_append_of_le_length (by simp), List.take_of_length_le (by simp)]
      have hcap : q.length + 1 ≤ c.maxNBins := by
        have h1 := (orderOK hT H hp (htd.cum o ho)).len
        have h2 : o.length = q.length + (post.length + 1) := by rw [hs]; simp
        omega
      have hgl : ∀ x, goesLeft { best with partition := sortNat (q ++ [b]) } x = decide (x ∈ q ++ [b]) := by
        intro x; simp only [goesLeft, f2, if_true, mem_sortNat]
      have hcl : cntIn D j (q ++ [b]) train = (train.filter fun i =>
          goesLeft { best with partition := sortNat (q ++ [b]) } (D.X i best.feature)).length := by
        rw [← List.countP_eq_length_filter]
        simp only [hgl]
        simp only [f1]; rfl
      have hvl : c.aggregation = true → vLeft c D j isCat valid q b = (valid.filter fun i =>
          goesLeft { best with partition := sortNat (q ++ [b]) } (D.X i best.feature)).length := by
        intro hagg
        rw [← List.countP_eq_length_filter]
        simp only [hgl, vLeft, hagg, hcat, if_true]
        simp only [f1]; rfl
      refine ⟨{ best with partition := sortNat (q ++ [b]) }, g', ?_, Or.inr ⟨f5, ?_⟩, best, rfl,
        Or.inr ⟨hor', fun _ => ⟨f, j, h', q, hl, by simp only [f3, f4]; exact hcut, by simp only [f3]⟩⟩, e3⟩
      · unfold findNodeSplit
        rw [e1]
        simp only [bind_ok, f5, f2, Bool.and_true, if_true, computeBinPartition, f4, f3, hps, htake,
          hcap, pure_eq_ok]
      · refine ⟨hfm, hcm, ?_, hthr', by simpa [(sortNat_perm _).length_eq] using hcap, by rw [← hcl]; exact f6, ?_, ?_, ?_,
          by simp only; omega, hleafs⟩
        · intro _
          refine ⟨sortNat_lt hpre.1, ?_, ?_⟩
          · intro h0
            have : b ∈ sortNat (q ++ [b]) := mem_sortNat.2 (by simp)
            simp only at h0
            rw [h0] at this; simp at this
          · intro x hx
            simp only [f1]
            exact (hok.neMem x).1 (hpre.2 x (mem_sortNat.1 hx))
        · rw [length_filter_not (fun i => goesLeft { best with partition := sortNat (q ++ [b]) } (D.X i best.feature)), ← hcl]
          exact f7
        · intro hagg; rw [← hvl hagg]; exact f8
        · intro hagg
          rw [length_filter_not (fun i => goesLeft { best with partition := sortNat (q ++ [b]) } (D.X i best.feature)),
            ← hvl hagg]
          exact f9

end Verif
