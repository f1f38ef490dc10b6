import Verif.Proofs.RealTree

/-! Leaves of trees without limits and the recorded impurities, for any arithmetic of the weights and labels. -/
set_option linter.unusedSectionVars false
namespace Verif

open Spec

section
variable {F Y P G : Type} [Num F] {T : Task F Y P G} {lab : F → Prop} {okY : Y → Prop} {okP : P → Prop} {c : Ctx F} {D : Data F}
  {train valid sampled : List Nat} {nc : NodeCtx F Y P}

theorem NodeOK.hyp (hD : Holds c D) (hn : NodeOK T c D okP sampled train valid nc) (hf : ∀ j ∈ sampled, j < D.d)
    (htr : ∀ i ∈ train, i < D.n ∧ lab (D.y i)) (hva : ∀ i ∈ valid, i < D.n ∧ lab (D.y i)) {f j : Nat} {h : Hist F Y}
    (hl : Looked nc sampled f j h) : NodeHyp T c D lab j train valid nc h := by
  obtain ⟨h', hh', hok⟩ := hn.hists f j hl.1
  obtain rfl : h' = h := Option.some.inj (hh'.symm.trans hl.2.1)
  exact ⟨hD, hf j (List.mem_of_getElem? hl.1), htr, hva, hn.nTrain, hn.nValid, hok⟩

/-- If no split is found although one sample on each side is enough, then all training samples have the same bins in the features tried. -/
theorem notFound_same_bins (hT : TaskSafe T lab okY okP) (hne : ∀ bins ySum g os g', T.orders bins ySum g = .ok (os, g') → os ≠ [])
    (hG : GainLaws F) (hI : LtIrrefl F) (hinf : ∀ x : F, Num.gtNegInf x = true) (hD : Holds c D)
    (hn : NodeOK T c D okP sampled train valid nc) (hf : ∀ j ∈ sampled, j < D.d)
    (htr : ∀ i ∈ train, i < D.n ∧ lab (D.y i)) (hva : ∀ i ∈ valid, i < D.n ∧ lab (D.y i))
    (hagg : c.aggregation = false) (hleaf : c.minLeaf = 1) {g g' : G} {sp : Split F} (hsp : findNodeSplit T c nc sampled g = .ok (sp, g'))
    (hfound : sp.found = false) {j i r : Nat} (hj : j ∈ sampled) (hi : i ∈ train) (hr : r ∈ train) : D.X r j = D.X i j := by
  by_contra hne'
  obtain ⟨sp', g1, e1, e2, best, e3, e4, e5⟩ := findNodeSplit_spec hT hD hn hf htr hva (fun h => by rw [hagg] at h; cases h) g
  obtain ⟨rfl, rfl⟩ := Prod.mk.inj (Except.ok.inj (hsp.symm.trans e1))
  have hbest : best = Split.reset := by
    rcases e4 with h | ⟨⟨f, j, h, isCat, cumsum, os, o, hl, hc, htd, ho, q, b, i, hcut, hadm, hi, hb⟩, -⟩
    · exact h
    · rw [e3, hb] at hfound; cases hfound
  obtain ⟨f, hf', hfj⟩ := List.getElem_of_mem hj
  have hfj : sampled[f]? = some j := by rw [List.getElem?_eq_getElem hf', hfj]
  obtain ⟨h, hh, hok⟩ := hn.hists f j hfj
  have hi' := (hok.neMem _).2 ⟨i, hi, rfl⟩
  have hr' := (hok.neMem _).2 ⟨r, hr, rfl⟩
  have hlen : 1 < h.neTrain.length := by
    match hx : h.neTrain with
    | [] => rw [hx] at hi'; cases hi'
    | [x] =>
      rw [hx, List.mem_singleton] at hi' hr'
      exact absurd (hr'.trans hi'.symm) hne'
    | x :: y :: l => simp
  have hl : Looked nc sampled f j h := ⟨hfj, hh, hlen⟩
  have H := hn.hyp hD hf htr hva hl
  obtain ⟨isCat, cumsum, os, k1, k2, k3⟩ := e5 hG hI f j h hl
  obtain ⟨o, ho⟩ : ∃ o, o ∈ os := by
    cases isCat with
    | false => exact ⟨sortNat h.neTrain, by rw [k2.num rfl]; simp⟩
    | true =>
      obtain ⟨g0, g0', h0⟩ := k2.cat rfl
      exact List.exists_mem_of_ne_nil _ (hne _ _ _ _ _ h0)
  have hp := k2.perm o ho
  have hol := hp.length_eq
  match o, hp, hol, ho with
  | [], _, hol, _ => simp at hol; omega
  | [_], _, hol, _ => simp at hol; omega
  | b :: b' :: o', hp, _, ho =>
    have hnd := hp.nodup_iff.2 hok.neNodup
    have hcut : IsCut (b :: b' :: o') [] b := isCut_of_split (post := b' :: o') rfl (by simp)
    have hb := hp.mem_iff.1 (List.mem_cons_self)
    have hb' := hp.mem_iff.1 (show b' ∈ b :: b' :: o' by simp)
    obtain ⟨c1, c2, -, o1, o2⟩ := accOf_counts hT H isCat (cumsum := cumsum) [b] (by simp) (by simpa using hb)
    obtain ⟨a, ha, hab⟩ := (hok.neMem b).1 hb
    obtain ⟨a', ha', hab'⟩ := (hok.neMem b').1 hb'
    have hbb : b ≠ b' := by
      rintro rfl
      simp at hnd
    have n1 : 0 < cntIn D j [b] train := List.countP_pos_iff.2 ⟨a, ha, by simp [hab]⟩
    have n2 : cntIn D j [b] train < train.length := by
      refine lt_of_le_of_ne (cntIn_le _ _ _ _) fun he => ?_
      have := List.countP_eq_length.1 he a' ha'
      simp only [hab', List.mem_singleton, decide_eq_true_eq] at this
      exact hbb this.symm
    obtain ⟨x, hx⟩ := hT.childs (accOf T nc h isCat cumsum [b]).wL (accOf T nc h isCat cumsum [b]).wR _ _ o1 o2
    have hA : ¬ c.aggregation = true := by rw [hagg]; simp
    have hadm : Adm c nc (accOf T nc h isCat cumsum ([] ++ [b])) := by
      rw [List.nil_append, Adm, hleaf]
      exact ⟨by omega, fun h => absurd h hA, by omega, fun h => absurd h hA⟩
    have := k3 _ ho [] b hcut hadm x hx
    rw [hbest] at this
    simp only [gainGt, Split.reset, hinf] at this
    cases this

/-- The impurities that are stored with a split are those of the sums on both sides of a cut of the bins, and the test of the split is this cut. -/
theorem found_origin (hT : TaskSafe T lab okY okP) (hD : Holds c D)
    (hn : NodeOK T c D okP sampled train valid nc) (hf : ∀ j ∈ sampled, j < D.d)
    (htr : ∀ i ∈ train, i < D.n ∧ lab (D.y i)) (hva : ∀ i ∈ valid, i < D.n ∧ lab (D.y i))
    (hv : c.aggregation = true → valid ≠ []) {g g' : G} {sp : Split F} (hsp : findNodeSplit T c nc sampled g = .ok (sp, g'))
    (hfound : sp.found = true) :
    ∃ h isCat cumsum pre, NodeHyp T c D lab sp.feature train valid nc h ∧ pre.Nodup ∧ (∀ b ∈ pre, b ∈ h.neTrain) ∧
      (∀ i ∈ train, goesLeft sp (D.X i sp.feature) = decide (D.X i sp.feature ∈ pre)) ∧
      (let a := accOf T nc h isCat cumsum pre; T.childs a.wL a.wR a.yL a.yR = .ok (sp.impL, sp.impR)) := by
  obtain ⟨sp', g1, e1, e2, best, e3, e4, e5⟩ := findNodeSplit_spec hT hD hn hf htr hva hv g
  obtain ⟨rfl, rfl⟩ := Prod.mk.inj (Except.ok.inj (hsp.symm.trans e1))
  rcases e4 with rfl | ⟨hor, hpart⟩
  · rw [e3] at hfound; cases hfound
  obtain ⟨f, j, h, isCat, cumsum, os, o, hl, hc, htd, ho, q, b, i, hcut, hadm, hi, hb⟩ := hor
  have f1 : sp.feature = j := by rw [e3, hb]; rfl
  have f2 : sp.isCat = isCat := by rw [e3, hb]; rfl
  have f3 : sp.binThreshold = b := by rw [e3, hb]; rfl
  have f4 : sp.bins = o := by rw [e3, hb]; rfl
  have f5 : sp.impL = i.1 := by rw [e3, hb]; rfl
  have f6 : sp.impR = i.2 := by rw [e3, hb]; rfl
  have H := hn.hyp hD hf htr hva hl
  have hperm := htd.perm o ho
  have hnd : o.Nodup := hperm.nodup_iff.2 H.hist.neNodup
  obtain ⟨post, hs, -⟩ := hcut.split
  have hnd2 : (q ++ [b]).Nodup := by
    rw [hs, show q ++ b :: post = (q ++ [b]) ++ post by simp] at hnd
    exact (List.nodup_append.1 hnd).1
  have hin2 : ∀ x ∈ q ++ [b], x ∈ h.neTrain := fun x hx => hperm.mem_iff.1 (by rw [hs]; simp at hx ⊢; tauto)
  refine ⟨h, isCat, cumsum, q ++ [b], by rw [f1]; exact H, hnd2, hin2, fun i' hi' => ?_, by rw [f5, f6]; exact hi⟩
  unfold goesLeft
  rw [f1, f2, f3]
  cases hcat : isCat with
  | true =>
    simp only [if_true]
    obtain ⟨_, _, _, q', _, hcut', hpq⟩ := hpart (by rw [f2, hcat])
    rw [f4, f3] at hcut'
    rw [f3] at hpq
    have : q' = q := by
      obtain ⟨p2, s2, _⟩ := hcut'.split
      have hb1 : b ∉ q := by
        intro hbq; rw [hs] at hnd
        exact (List.nodup_append.1 hnd).2.2 b hbq b (by simp) rfl
      have hb2 : b ∉ q' := by
        intro hbq; rw [s2] at hnd
        exact (List.nodup_append.1 hnd).2.2 b hbq b (by simp) rfl
      have i1 : o.idxOf b = q.length := by rw [hs, List.idxOf_append_of_notMem hb1]; simp
      have i2 : o.idxOf b = q'.length := by rw [s2, List.idxOf_append_of_notMem hb2]; simp
      have t1 : o.take q.length = q := by rw [hs]; simp
      have t2 : o.take q'.length = q' := by rw [s2]; simp
      rw [← t1, ← t2, ← i1, ← i2]
    subst this
    rw [hpq]
    simp only [mem_sortNat]
  | false =>
    subst hcat
    have hsorted := (htd.cum o ho).sorted rfl
    have hin : D.X i' j ∈ o := hperm.mem_iff.2 ((H.hist.neMem _).2 ⟨i', hi', rfl⟩)
    rw [hs] at hin hsorted
    rw [List.pairwise_append, List.pairwise_cons] at hsorted
    simp only [Bool.false_eq_true, if_false, decide_eq_decide]
    constructor
    · intro hx
      rcases List.mem_append.1 hin with h' | h'
      · simp [h']
      · rcases List.mem_cons.1 h' with h' | h'
        · simp [h']
        · have := hsorted.2.1.1 _ h'; omega
    · intro hx
      rcases List.mem_append.1 hx with hx | hx
      · exact Nat.le_of_lt (hsorted.2.2 _ hx b (by simp))
      · simp at hx; omega

end

end Verif
