import Verif.Proofs.RealSplit

set_option linter.unusedSectionVars false

/-! The split found at a node maximises the gain, over the real numbers. -/
namespace Verif

open Spec

variable {Y P G V : Type} [AddCommGroup V]

/-- Minus the weighted impurity of the two sides. -/
noncomputable def proxyGain (I : Data ℝ → List Nat → ℝ) (D : Data ℝ) (l : List Nat) (goes : Nat → Bool) : ℝ :=
  -(totalW D (l.filter goes) * I D (l.filter goes)) -
    totalW D (l.filter fun i => !goes i) * I D (l.filter fun i => !goes i)

theorem infoGain_eq (I : Data ℝ → List Nat → ℝ) (D : Data ℝ) (l : List Nat) (goes : Nat → Bool) :
    infoGain I D l goes = I D l + proxyGain I D l goes / totalW D l := by
  unfold infoGain proxyGain
  ring

theorem infoGain_le (I : Data ℝ → List Nat → ℝ) {D : Data ℝ} {l : List Nat} {g1 g2 : Nat → Bool} (hW : 0 < totalW D l)
    (h : proxyGain I D l g1 ≤ proxyGain I D l g2) : infoGain I D l g1 ≤ infoGain I D l g2 := by
  rw [infoGain_eq, infoGain_eq]
  have := div_le_div_of_nonneg_right h hW.le
  linarith

/-- The test of a candidate. -/
def cutTest (D : Data ℝ) (j : Nat) (isCat : Bool) (q : List Nat) (b : Nat) (i : Nat) : Bool :=
  if isCat then decide (D.X i j ∈ q ++ [b]) else decide (D.X i j ≤ b)

section
variable {T : Task ℝ Y P G} {lab : ℝ → Prop} {okY : Y → Prop} {okP : P → Prop} {φ : Y → V} {e : ℝ → ℝ → V}
  {imp : ℝ → V → ℝ} {I : Data ℝ → List Nat → ℝ} {Ks : List (List Key)} {c : Ctx ℝ} {D : Data ℝ} {j : Nat}
  {train valid : List Nat} {nc : NodeCtx ℝ Y P} {h : Hist ℝ Y}

theorem cut_test (H : NodeHyp T c D lab j train valid nc h) {isCat : Bool} {cumsum o : List Nat} (hp : o.Perm h.neTrain)
    (hc : CumOK c D j isCat valid cumsum o) {q : List Nat} {b : Nat} (hq : IsCut o q b) :
    ∀ i ∈ train, decide (D.X i j ∈ q ++ [b]) = cutTest D j isCat q b i := by
  intro i hi
  cases isCat with
  | true => simp [cutTest]
  | false =>
    obtain ⟨post, hs, _⟩ := hq.split
    have hsorted := hc.sorted rfl
    have hin : D.X i j ∈ o := hp.mem_iff.2 ((H.hist.neMem _).2 ⟨i, hi, rfl⟩)
    rw [hs] at hin hsorted
    rw [List.pairwise_append, List.pairwise_cons] at hsorted
    simp only [cutTest, Bool.false_eq_true, if_false, decide_eq_decide]
    constructor
    · intro hx
      rcases List.mem_append.1 hx with hx | hx
      · exact Nat.le_of_lt (hsorted.2.2 _ hx b (by simp))
      · simp at hx; omega
    · intro hx
      rcases List.mem_append.1 hin with h' | h'
      · simp [h']
      · rcases List.mem_cons.1 h' with h' | h'
        · simp [h']
        · have := hsorted.2.1.1 _ h'; omega

/-- A candidate is admissible for the code exactly when it is for the specification, and its gain is the one of the
specification. -/
theorem cut_real (hT : TaskSafe T lab okY okP) (L : LinTask T lab okY φ e imp)
    (hI : ∀ (D : Data ℝ) (l : List Nat), (∀ i ∈ l, 0 ≤ D.w i) → imp (totalW D l) (vsum e D l) = I D l)
    (H : NodeHyp T c D lab j train valid nc h) (hW : nc.wTrain = sumW D train) (hw : ∀ i ∈ train, 0 < D.w i)
    {isCat : Bool} {cumsum o : List Nat} (hp : o.Perm h.neTrain)
    (hc : CumOK c D j isCat valid cumsum o) {q : List Nat} {b : Nat} (hq : IsCut o q b) :
    (Admissible c (cutTest D j isCat q b) train valid ↔ Adm c nc (accOf T nc h isCat cumsum (q ++ [b]))) ∧
    let a := accOf T nc h isCat cumsum (q ++ [b])
    ∃ i, T.childs a.wL a.wR a.yL a.yR = .ok i ∧
      informationGainProxy i.1 i.2 a.wL a.wR = proxyGain I D train (cutTest D j isCat q b) := by
  obtain ⟨post, hs, hpost⟩ := hq.split
  have hnd : o.Nodup := hp.nodup_iff.2 H.hist.neNodup
  have hnd2 : (q ++ [b]).Nodup := by
    rw [hs, show q ++ b :: post = (q ++ [b]) ++ post by simp] at hnd
    exact (List.nodup_append.1 hnd).1
  have hin2 : ∀ x ∈ q ++ [b], x ∈ h.neTrain := fun x hx => hp.mem_iff.1 (by rw [hs]; simp at hx ⊢; tauto)
  have ht := cut_test H hp hc hq
  have hf1 : (train.filter fun i => decide (D.X i j ∈ q ++ [b])) = train.filter (cutTest D j isCat q b) :=
    List.filter_congr ht
  have hf2 : (train.filter fun i => !decide (D.X i j ∈ q ++ [b])) = train.filter fun i => !cutTest D j isCat q b i :=
    List.filter_congr fun i hi => by rw [ht i hi]
  obtain ⟨c1, c2, _, o1, o2⟩ := accOf_counts hT H isCat (cumsum := cumsum) _ hnd2 hin2
  have c3 := accOf_vL hT H hp hc hq
  obtain ⟨r1, r2, r3, r4⟩ := accOf_real hT L H hW isCat (cumsum := cumsum) _ hnd2 hin2
  rw [hf1] at r1 r3
  rw [hf2] at r2 r4
  have n1 : cntIn D j (q ++ [b]) train = (train.filter (cutTest D j isCat q b)).length := by
    rw [← hf1, ← List.countP_eq_length_filter]; rfl
  have n3 : c.aggregation = true → vLeft c D j isCat valid q b = (valid.filter (cutTest D j isCat q b)).length := by
    intro ha
    rw [← List.countP_eq_length_filter]
    unfold vLeft
    rw [if_pos ha]
    cases isCat with
    | true => simp only [if_true]; rfl
    | false => simp only [Bool.false_eq_true, if_false]; rfl
  constructor
  · unfold Admissible Adm
    rw [c1, c2, c3, n1, length_filter_not (cutTest D j isCat q b) train, length_filter_not (cutTest D j isCat q b) valid,
      H.nValid]
    constructor
    · rintro ⟨h1, h2, h3⟩
      exact ⟨h1, fun ha => by rw [n3 ha]; exact (h3 ha).1, h2, fun ha => by rw [n3 ha]; exact (h3 ha).2⟩
    · rintro ⟨h1, h2, h3, h4⟩
      exact ⟨h1, h3, fun ha => ⟨by rw [← n3 ha]; exact h2 ha, by rw [← n3 ha]; exact h4 ha⟩⟩
  · intro a
    refine ⟨_, L.childs _ _ _ _ o1 o2, ?_⟩
    have hwf : ∀ p : Nat → Bool, ∀ i ∈ train.filter p, 0 ≤ D.w i := fun p i hi => (hw i (List.mem_filter.1 hi).1).le
    simp only [a, r1, r2, r3, r4, hI D _ (hwf _), informationGainProxy, proxyGain]
    simp only [Num.sub, Num.mul, Num.neg]
    ring

theorem real_gainLaws : GainLaws ℝ := by
  refine ⟨fun a b c h1 h2 => ?_, fun _ _ _ => rfl⟩
  simp only [Num.lt, decide_eq_true_eq] at *
  linarith

theorem real_irrefl : LtIrrefl ℝ := by
  intro a
  simp [Num.lt]

/-- The split found at a node. -/
theorem findNodeSplit_real (hT : TaskSafe T lab okY okP) (L : LinTask T lab okY φ e imp)
    (hI : ∀ (D : Data ℝ) (l : List Nat), (∀ i ∈ l, 0 ≤ D.w i) → imp (totalW D l) (vsum e D l) = I D l)
    (hO : OrdersSorted T lab Ks) (hD : Holds c D) {sampled : List Nat}
    (hn : NodeOK T c D okP sampled train valid nc) (hf : ∀ j ∈ sampled, j < D.d)
    (htr : ∀ i ∈ train, i < D.n ∧ lab (D.y i)) (hva : ∀ i ∈ valid, i < D.n ∧ lab (D.y i))
    (hv : c.aggregation = true → valid ≠ []) (hw : ∀ i ∈ train, 0 < D.w i) {g g' : G} {sp : Split ℝ}
    (hsp : findNodeSplit T c nc sampled g = .ok (sp, g')) :
    (sp.found = true ∧ SplitOK c D sampled train valid sp ∧
      sp.gain = some (proxyGain I D train fun i => goesLeft sp (D.X i sp.feature)) ∧
      sp.wTrainL = totalW D (train.filter fun i => goesLeft sp (D.X i sp.feature)) ∧
      sp.impL = I D (train.filter fun i => goesLeft sp (D.X i sp.feature)) ∧
      sp.wTrainR = totalW D (train.filter fun i => !goesLeft sp (D.X i sp.feature)) ∧
      sp.impR = I D (train.filter fun i => !goesLeft sp (D.X i sp.feature)) ∧
      IsCandidate c D Ks sampled train sp.feature (fun i => goesLeft sp (D.X i sp.feature)) ∧
      AllCandidates c D Ks sampled train valid fun goes =>
        proxyGain I D train goes ≤ proxyGain I D train fun i => goesLeft sp (D.X i sp.feature)) ∨
    (sp = Split.reset ∧ AllCandidates c D Ks sampled train valid fun _ => False) := by
  obtain ⟨sp', g1, e1, e2, best, e3, e4, e5⟩ := findNodeSplit_spec hT hD hn hf htr hva hv g
  rw [hsp] at e1
  injection e1 with e1
  injection e1 with e1 _
  subst e1
  have hopt := e5 real_gainLaws real_irrefl
  have hgain : best.gain = sp.gain := by rw [e3]
  have hyp : ∀ f j h, Looked nc sampled f j h → NodeHyp T c D lab j train valid nc h := by
    intro f j h hl
    obtain ⟨h', hh', hok⟩ := hn.hists f j hl.1
    have : h' = h := by have := hl.2.1; rw [hh'] at this; injection this
    subst this
    exact ⟨hD, hf j (List.mem_of_getElem? hl.1), htr, hva, hn.nTrain, hn.nValid, hok⟩
  -- all candidates are beaten
  have hall : AllCandidates c D Ks sampled train valid fun goes => gainGt (proxyGain I D train goes) sp.gain = false := by
    intro j hj
    obtain ⟨f, hf', hfj⟩ := List.getElem_of_mem hj
    have hfj : sampled[f]? = some j := by rw [List.getElem?_eq_getElem hf', hfj]
    obtain ⟨h, hh, hok⟩ := hn.hists f j hfj
    -- features with two bins are looked at
    have hlook : ∀ a b, a ≠ b → a ∈ h.neTrain → b ∈ h.neTrain → Looked nc sampled f j h := by
      intro a b hab ha hb
      refine ⟨hfj, hh, ?_⟩
      by_contra hlen
      match hne : h.neTrain, hlen with
      | [], _ => rw [hne] at ha; simp at ha
      | [x], _ => rw [hne] at ha hb; simp at ha hb; exact hab (by rw [ha, hb])
      | x :: y :: l, hlen => exact hlen (by simp)
    have hbeat : ∀ (isCat : Bool) (cumsum : List Nat) (os : List (List Nat)) (_ : Looked nc sampled f j h)
        (_ : Tried T c D j valid h isCat cumsum os)
        (_ : ∀ o ∈ os, ∀ q b, IsCut o q b → Beats T c nc h isCat cumsum q b best) (o : List Nat) (_ : o ∈ os)
        (q : List Nat) (b : Nat) (_ : IsCut o q b), Admissible c (cutTest D j isCat q b) train valid →
        gainGt (proxyGain I D train (cutTest D j isCat q b)) sp.gain = false := by
      intro isCat cumsum os hl htd hb o ho q b hcut hadm
      obtain ⟨k1, i, k2, k3⟩ := cut_real hT L hI (hyp f j h hl) hn.wTrain hw (htd.perm o ho) (htd.cum o ho) hcut
      have := hb o ho q b hcut (k1.1 hadm) i k2
      rw [hgain] at this
      rw [← k3]
      exact this
    constructor
    · rintro hcat b ⟨i1, hi1, rfl⟩ ⟨i2, hi2, hlt⟩ hadm
      have hl := hlook (D.X i1 j) (D.X i2 j) (by omega) ((hok.neMem _).2 ⟨i1, hi1, rfl⟩) ((hok.neMem _).2 ⟨i2, hi2, rfl⟩)
      obtain ⟨isCat, cumsum, os, k1, k2, k3⟩ := hopt f j h hl
      rw [hcat] at k1
      injection k1 with k1
      subst k1
      have hos := k2.num rfl
      have hmem1 : D.X i1 j ∈ sortNat h.neTrain := mem_sortNat.2 ((hok.neMem _).2 ⟨i1, hi1, rfl⟩)
      have hmem2 : D.X i2 j ∈ sortNat h.neTrain := mem_sortNat.2 ((hok.neMem _).2 ⟨i2, hi2, rfl⟩)
      obtain ⟨q, post, hq⟩ := List.append_of_mem hmem1
      have hsorted := sortNat_lt hok.neNodup
      have hpost : post ≠ [] := by
        rintro rfl
        rw [hq] at hmem2 hsorted
        rw [List.pairwise_append] at hsorted
        rcases List.mem_append.1 hmem2 with hm | hm
        · have := hsorted.2.2 _ hm _ (by simp : D.X i1 j ∈ [D.X i1 j]); omega
        · simp at hm; omega
      have hcut := isCut_of_split hq hpost
      have := hbeat false cumsum os hl k2 k3 _ (by rw [hos]; simp) q _ hcut
      have hct : cutTest D j false q (D.X i1 j) = fun i => decide (D.X i j ≤ D.X i1 j) := by
        funext i; simp [cutTest]
      rw [hct] at this
      exact this hadm
    · intro hcat
      by_cases hlen : 1 < h.neTrain.length
      · have hl : Looked nc sampled f j h := ⟨hfj, hh, hlen⟩
        obtain ⟨isCat, cumsum, os, k1, k2, k3⟩ := hopt f j h hl
        rw [hcat] at k1
        injection k1 with k1
        subst k1
        obtain ⟨g0, g0', ho⟩ := k2.cat rfl
        obtain ⟨keys, hkeys, hk, _⟩ := hO c D j train valid nc h g0 g0' os (hyp f j h hl) ho
        refine ⟨keys, hkeys, fun key hkey => ?_⟩
        obtain ⟨o, ho1, ho2⟩ := hk key hkey
        have hp := k2.perm o ho1
        refine ⟨o, ⟨hp.nodup_iff.2 hok.neNodup, fun b => by rw [hp.mem_iff]; exact hok.neMem b, ho2⟩, ?_⟩
        intro S S' hS hS1 hS2 hadm
        have hSl : S = S.dropLast ++ [S.getLast hS1] := (List.dropLast_concat_getLast hS1).symm
        have hcut : IsCut o S.dropLast (S.getLast hS1) := by
          apply isCut_of_split (post := S') _ hS2
          rw [hS]
          conv_lhs => rw [hSl]
          simp
        have := hbeat true cumsum os hl k2 k3 o ho1 _ _ hcut
        have hct : cutTest D j true S.dropLast (S.getLast hS1) = fun i => decide (D.X i j ∈ S) := by
          funext i
          simp only [cutTest, if_true]
          rw [← hSl]
        rw [hct] at this
        exact this hadm
      · -- a single bin: no candidate
        have hsafe : ∀ b ∈ h.neTrain, ∃ y, h.ySum[b]? = some y ∧ okY y := by
          intro b hb
          obtain ⟨i, hi, rfl⟩ := (hok.neMem b).1 hb
          obtain ⟨y, y1, y2⟩ := hok.ySum _ (hD.bound i j (htr i hi).1 (hf j hj))
          exact ⟨y, y1, (sumY_lin hT L _ (fun i hi => (htr i (List.mem_filter.1 hi).1).2) y2).2⟩
        obtain ⟨os, g0', ho, hperm⟩ := hT.orders h.neTrain h.ySum g hsafe
        have hyp' : NodeHyp T c D lab j train valid nc h := ⟨hD, hf j hj, htr, hva, hn.nTrain, hn.nValid, hok⟩
        obtain ⟨keys, hkeys, hk, _⟩ := hO c D j train valid nc h g g0' os hyp' ho
        refine ⟨keys, hkeys, fun key hkey => ?_⟩
        obtain ⟨o, ho1, ho2⟩ := hk key hkey
        have hp := hperm o ho1
        refine ⟨o, ⟨hp.nodup_iff.2 hok.neNodup, fun b => by rw [hp.mem_iff]; exact hok.neMem b, ho2⟩, ?_⟩
        intro S S' hS hS1 hS2 _
        exfalso
        have := hp.length_eq
        rw [hS, List.length_append] at this
        have := List.length_pos_iff.2 hS1
        have := List.length_pos_iff.2 hS2
        omega
  rcases e4 with rfl | ⟨hor, hpart⟩
  · right
    have hspr : sp = Split.reset := by
      rcases e2 with e2 | ⟨e2, _⟩
      · exact e2
      · rw [e3] at e2; exact absurd e2 (by simp [Split.reset])
    refine ⟨hspr, ?_⟩
    have : ∀ x : ℝ, gainGt x sp.gain = true := by intro x; rw [hspr]; rfl
    intro j hj
    obtain ⟨h1, h2⟩ := hall j hj
    refine ⟨fun hc b hb1 hb2 ha => by have := h1 hc b hb1 hb2 ha; simp [‹∀ x : ℝ, gainGt x sp.gain = true›] at this, fun hc => ?_⟩
    obtain ⟨keys, hk1, hk2⟩ := h2 hc
    refine ⟨keys, hk1, fun key hkey => ?_⟩
    obtain ⟨o, ho1, ho2⟩ := hk2 key hkey
    exact ⟨o, ho1, fun S S' hS h3 h4 ha => by
      have := ho2 S S' hS h3 h4 ha; simp [‹∀ x : ℝ, gainGt x sp.gain = true›] at this⟩
  · left
    have hor' := hor
    obtain ⟨f, j, h, isCat, cumsum, os, o, hl, hc, htd, ho, q, b, i, hcut, hadm, hi, hb⟩ := hor
    have f1 : sp.feature = j := by rw [e3, hb]; rfl
    have f2 : sp.isCat = isCat := by rw [e3, hb]; rfl
    have f3 : sp.binThreshold = b := by rw [e3, hb]; rfl
    have f4 : sp.bins = o := by rw [e3, hb]; rfl
    have f5 : sp.found = true := by rw [e3, hb]; rfl
    have hok : SplitOK c D sampled train valid sp := by
      rcases e2 with e2 | ⟨_, e2⟩
      · rw [e2] at f5; exact absurd f5 (by simp [Split.reset])
      · exact e2
    have H := hyp f j h hl
    have hnd : o.Nodup := (htd.perm o ho).nodup_iff.2 H.hist.neNodup
    have hgo : ∀ i, goesLeft sp (D.X i sp.feature) = cutTest D j isCat q b i := by
      intro i
      unfold goesLeft cutTest
      rw [f1, f2, f3]
      cases hcat : isCat with
      | false => rfl
      | true =>
        simp only [if_true]
        obtain ⟨_, _, _, q', _, hcut', hpq⟩ := hpart (by rw [f2, hcat])
        rw [f4, f3] at hcut'
        rw [f3] at hpq
        have : q' = q := by
          obtain ⟨p1, s1, _⟩ := hcut.split
          obtain ⟨p2, s2, _⟩ := hcut'.split
          have hb1 : b ∉ q := by
            intro hbq; rw [s1] at hnd
            exact (List.nodup_append.1 hnd).2.2 b hbq b (by simp) rfl
          have hb2 : b ∉ q' := by
            intro hbq; rw [s2] at hnd
            exact (List.nodup_append.1 hnd).2.2 b hbq b (by simp) rfl
          have i1 : o.idxOf b = q.length := by rw [s1, List.idxOf_append_of_notMem hb1]; simp
          have i2 : o.idxOf b = q'.length := by rw [s2, List.idxOf_append_of_notMem hb2]; simp
          have t1 : o.take q.length = q := by rw [s1]; simp
          have t2 : o.take q'.length = q' := by rw [s2]; simp
          rw [← t1, ← t2, ← i1, ← i2]
        subst this
        rw [hpq]
        simp only [mem_sortNat]
    have hgo' : (fun i => goesLeft sp (D.X i sp.feature)) = cutTest D j isCat q b := funext hgo
    obtain ⟨k1, i', k2, k3⟩ := cut_real hT L hI H hn.wTrain hw (htd.perm o ho) (htd.cum o ho) hcut
    have hii : i' = i := by
      have h1 := hi
      simp only at k2 h1
      rw [k2] at h1; injection h1
    subst hii
    obtain ⟨post, hs, _⟩ := hcut.split
    have hnd2 : (q ++ [b]).Nodup := by
      rw [hs, show q ++ b :: post = (q ++ [b]) ++ post by simp] at hnd
      exact (List.nodup_append.1 hnd).1
    have hin2 : ∀ x ∈ q ++ [b], x ∈ h.neTrain := fun x hx => (htd.perm o ho).mem_iff.1 (by rw [hs]; simp at hx ⊢; tauto)
    obtain ⟨_, _, _, o1, o2⟩ := accOf_counts hT H isCat (cumsum := cumsum) _ hnd2 hin2
    obtain ⟨r1, r2, r3, r4⟩ := accOf_real hT L H hn.wTrain isCat (cumsum := cumsum) _ hnd2 hin2
    have ht := cut_test H (htd.perm o ho) (htd.cum o ho) hcut
    have hf1 : (train.filter fun i => decide (D.X i j ∈ q ++ [b])) = train.filter (cutTest D j isCat q b) :=
      List.filter_congr ht
    have hf2 : (train.filter fun i => !decide (D.X i j ∈ q ++ [b])) = train.filter fun i => !cutTest D j isCat q b i :=
      List.filter_congr fun i hi => by rw [ht i hi]
    rw [hf1] at r1 r3
    rw [hf2] at r2 r4
    have hwf : ∀ p : Nat → Bool, ∀ i ∈ train.filter p, 0 ≤ D.w i := fun p i hi => (hw i (List.mem_filter.1 hi).1).le
    have hch := L.childs (accOf T nc h isCat cumsum (q ++ [b])).wL (accOf T nc h isCat cumsum (q ++ [b])).wR _ _ o1 o2
    rw [k2, r1, r2, r3, r4, hI D _ (hwf _), hI D _ (hwf _)] at hch
    injection hch with hch
    have hg : sp.gain = some (proxyGain I D train (cutTest D j isCat q b)) := by
      rw [e3, hb]; simp only [saveSplit, k3]
    have hR : (fun i => !goesLeft sp (D.X i sp.feature)) = fun i => !cutTest D j isCat q b i := by
      funext i; rw [hgo]
    have hcand : IsCandidate c D Ks sampled train sp.feature (fun i => goesLeft sp (D.X i sp.feature)) := by
      rw [hgo', f1]
      have hpost := ‹_ ≠ []›
      refine ⟨List.mem_of_getElem? hl.1, ?_⟩
      have hmemo : ∀ x, x ∈ o ↔ ∃ i ∈ train, D.X i j = x := fun x => by rw [(htd.perm o ho).mem_iff]; exact H.hist.neMem x
      cases isCat with
      | false =>
        left
        refine ⟨hc, b, (hmemo b).1 (by rw [hs]; simp), ?_, ?_⟩
        · obtain ⟨x, post', rfl⟩ := List.exists_cons_of_ne_nil hpost
          have hsorted := (htd.cum o ho).sorted rfl
          rw [hs, List.pairwise_append, List.pairwise_cons] at hsorted
          obtain ⟨i, hi, hx⟩ := (hmemo x).1 (by rw [hs]; simp)
          exact ⟨i, hi, by rw [hx]; exact hsorted.2.1.1 x (by simp)⟩
        · funext i; simp [cutTest]
      | true =>
        right
        obtain ⟨g0, g0', hor⟩ := htd.cat rfl
        obtain ⟨keys, hkeys, _, hk⟩ := hO c D j train valid nc h g0 g0' os H hor
        obtain ⟨key, hkey, hsorted⟩ := hk o ho
        refine ⟨hc, keys, hkeys, key, hkey, o, ⟨hnd, hmemo, hsorted⟩, q ++ [b], _, by rw [hs, List.append_assoc]; rfl,
          by simp, hpost, ?_⟩
        funext i; simp [cutTest]
    refine ⟨f5, hok, by rw [hgo']; exact hg, ?_, ?_, ?_, ?_, hcand, ?_⟩
    · rw [hgo', ← r1, e3, hb]; rfl
    · rw [hgo', e3, hb]; simp only [saveSplit]; rw [hch]
    · rw [hR, ← r2, e3, hb]; rfl
    · rw [hR, e3, hb]; simp only [saveSplit]; rw [hch]
    · have hle : ∀ x : ℝ, gainGt x sp.gain = false → x ≤ proxyGain I D train fun i => goesLeft sp (D.X i sp.feature) := by
        intro x hx
        rw [hg] at hx
        simp only [gainGt, Num.lt, decide_eq_false_iff_not, not_lt] at hx
        rw [hgo']; exact hx
      intro j hj
      obtain ⟨h1, h2⟩ := hall j hj
      refine ⟨fun hc b hb1 hb2 ha => hle _ (h1 hc b hb1 hb2 ha), fun hc => ?_⟩
      obtain ⟨keys, hk1, hk2⟩ := h2 hc
      refine ⟨keys, hk1, fun key hkey => ?_⟩
      obtain ⟨o, ho1, ho2⟩ := hk2 key hkey
      exact ⟨o, ho1, fun S S' hS h3 h4 ha => hle _ (ho2 S S' hS h3 h4 ha)⟩

end

/-- What the proofs need of the two tasks. -/
theorem RealTask.elim {T : Task ℝ Y P G} {lab : ℝ → Prop} {I : Data ℝ → List Nat → ℝ} {Ks : List (List Key)}
    (h : RealTask T lab I Ks) : ValidTask T lab ∧ OrdersSorted T lab Ks ∧
      ∃ (V : Type) (_ : AddCommGroup V) (okY : Y → Prop) (okP : P → Prop) (φ : Y → V) (e : ℝ → ℝ → V) (imp : ℝ → V → ℝ),
        TaskSafe T lab okY okP ∧ LinTask T lab okY φ e imp ∧
        ∀ (D : Data ℝ) (l : List Nat), (∀ i ∈ l, 0 ≤ D.w i) → imp (totalW D l) (vsum e D l) = I D l := by
  cases h with
  | classifier R n d cr ha hs =>
    exact ⟨.classifier R n d cr ha.1 hs, classifier_orders R ha n d cr hs, _, _, _, _, _, _, _,
      classifier_safe R ha.1 n d cr hs, classifier_lin R n d cr _, fun D l hw => classImp_eq n cr hw⟩
  | regressor ha =>
    exact ⟨.regressor ha.1, regressor_orders ha, _, _, _, _, _, _, _, regressor_safe ha.1, regressor_lin,
      fun D l _ => variance_eq D l⟩

end Verif
