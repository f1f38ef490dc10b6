import Verif.Proofs.RealToy

/-! Properties C26 and C27: the split of a node maximises the information gain. Floats are real numbers here. -/
namespace Verif

open Spec

variable {Y P G : Type} {R : Rng G} {T : Task ℝ Y P G} {lab : ℝ → Prop} {I : Data ℝ → List Nat → ℝ} {Ks : List (List Key)}
  {c : Ctx ℝ} {D : Data ℝ} {gb : Garbage ℝ} {seed : Nat} {train valid : List Nat} {arr : TreeArr ℝ P} {w : Work G}

/-- C26. At every node of a fitted tree, with the rows that are routed there: the test of a split node is one of the
candidates on the features sampled for the node and admissible, and no admissible candidate on these features has a larger information gain; a leaf either
meets a stopping rule or has no admissible candidate at all on the features sampled for it. The impurity recorded at a node
other than the root is the impurity of the rows that are routed there. -/
theorem C26_max_gain (hT : RealTask T lab I Ks) (h : FitInput c D lab train valid) (hw : ∀ i ∈ train, 0 < D.w i)
    (hf : fitTree R T c gb seed train valid = .ok (arr, w)) {k : Nat} {n : Node ℝ} (hn : NodeAt arr k n) :
    let tr := routed arr D train k
    let va := routed arr D valid k
    (n.isLeaf = false → ∃ feats f, IsSample D.d c.maxFeatures feats ∧ n.feature = some f ∧
      IsCandidate c D Ks feats tr f (nodeTest arr D n f) ∧ Admissible c (nodeTest arr D n f) tr va ∧
      AllCandidates c D Ks feats tr va fun goes => infoGain I D tr goes ≤ infoGain I D tr (nodeTest arr D n f)) ∧
    (n.isLeaf = true → (n.nTrain < c.minSplit ∨ (c.aggregation = true ∧ n.nValid < c.minSplit) ∨ c.maxDepth ≤ n.depth ∨
        (k ≠ 0 ∧ I D tr ≤ 0)) ∨
      ∃ feats, IsSample D.d c.maxFeatures feats ∧ AllCandidates c D Ks feats tr va fun _ => False) ∧
    (k ≠ 0 → n.impurity = some (I D tr)) := by
  intro tr va
  obtain ⟨_, hO, V, _, okY, okP, φ, e, imp, hs, L, hI⟩ := RealTask.elim hT
  obtain ⟨t, hFi⟩ := fitted_of hs h hf
  have hF := hFi.facts
  obtain ⟨u, hu⟩ := hF.ofNode hn
  obtain ⟨_, _, f3, f4, f5, f6, _⟩ := hu.holds.fields
  obtain ⟨er1, er2⟩ := hF.routed k u hu.sub
  have hsub : ∀ i ∈ tr, i ∈ train := fun i hi => (List.mem_filter.1 hi).1
  have hwp : ∀ i ∈ u.root.train, 0 < D.w i := fun i hi => hw i (hsub i (by rw [er1] at hi; exact hi))
  have hreal := NodeFacts.real hs L hI hO h.holds h.params hu.ok.facts hwp
  -- the recorded impurity
  have himp : k ≠ 0 → n.impurity = some (I D tr) := by
    intro hk0
    obtain ⟨p, isL, a, l, r, hp, hc⟩ := hF.childOf hu.sub hk0
    have hg := hF.ok.sub hc.sub
    have hwa : ∀ i ∈ a.train, 0 < D.w i := by
      have := (hF.routed p _ hc.sub).1
      simp only [GTree.root] at this
      intro i hi
      rw [this] at hi
      exact hw i (List.mem_filter.1 hi).1
    rw [f4, hc.rcd]
    have htr : tr = if isL then a.leftT D else a.rightT D := by rw [← hc.train, er1]
    rcases NodeFacts.real hs L hI hO h.holds h.params hg.1 hwa with ⟨_, h0⟩ | ⟨_, _, ⟨_, _, hl, hr, _⟩ | ⟨h0, _⟩⟩
    · rw [hg.2.1] at h0; exact absurd h0 (by simp)
    · cases isL
      · simp only [Bool.false_eq_true, if_false, rightRecord] at htr ⊢
        rw [hr, htr]
      · simp only [if_true, leftRecord] at htr ⊢
        rw [hl, htr]
    · rw [hg.2.1] at h0; exact absurd h0 (by simp)
  refine ⟨fun hl => ?_, fun hl => ?_, himp⟩
  · rcases hu.shape with ⟨_, _, h0, _⟩ | ⟨a, l, r, rfl, _⟩
    · rw [hl] at h0; exact absurd h0 (by simp)
    · have htest := fun bin => testLeft_iff hu.holds hu.ok.1 hu.ok.2.1 bin
      simp only [GTree.root] at htest hreal er1 er2
      have hgo : nodeTest arr D n a.sp.feature = fun i => goesLeft a.sp (D.X i a.sp.feature) := by
        funext i
        rw [Bool.eq_iff_iff]
        simp only [nodeTest, decide_eq_true_eq]
        exact (htest _).2.2.2.2
      rcases hreal with ⟨_, h0⟩ | ⟨feats, hfeats, ⟨_, hsp, _, _, hcand, hall⟩ | ⟨h0, _⟩⟩
      · rw [hu.ok.2.1] at h0; exact absurd h0 (by simp)
      · refine ⟨feats, a.sp.feature, hfeats, (htest 0).1, ?_, ?_, ?_⟩
        · rw [hgo]; rw [er1] at hcand; exact hcand
        · rw [hgo]
          obtain ⟨l1, l2, l3⟩ := hsp.leaf
          refine ⟨?_, ?_, fun ha => ⟨?_, ?_⟩⟩
          · rw [hsp.nTrainL, er1] at l1; exact l1
          · rw [hsp.nTrainR, er1] at l2; exact l2
          · have := (l3 ha).1; rw [hsp.nValidL ha, er2] at this; exact this
          · have := (l3 ha).2; rw [hsp.nValidR ha, er2] at this; exact this
        · rw [hgo]
          rw [er1, er2] at hall
          exact hall
      · rw [hu.ok.2.1] at h0; exact absurd h0 (by simp)
  · rcases hu.shape with ⟨a, rfl, _⟩ | ⟨_, _, _, _, h0, _⟩
    · simp only [GTree.root] at hreal er1 er2 f3 f4 f5 f6
      rcases hreal with ⟨hst, _⟩ | ⟨feats, hfeats, ⟨h0, _⟩ | ⟨_, hall⟩⟩
      · left
        rcases stopHere_true hst with h1 | h1 | h1 | ⟨x, h1, h2⟩
        · left; rw [f5]; exact h1
        · right; left; rw [f6]; exact h1
        · right; right; left; rw [f3]; exact h1
        · right; right; right
          have hk0 : k ≠ 0 := by
            rintro rfl
            have := hu.sub.unique (.refl _ _)
            rw [← f4] at h1
            have h3 := hF.rcd
            rw [← this] at h3
            simp only [GTree.root] at h3
            rw [f4, h3] at h1
            exact absurd h1 (by simp [rootRecord])
          refine ⟨hk0, ?_⟩
          rw [← f4, himp hk0] at h1
          injection h1 with h1
          rw [h1]
          simpa [Num.le, Num.zero] using h2
      · rw [hu.ok.2.1] at h0; exact absurd h0 (by simp)
      · right
        rw [er1, er2] at hall
        exact ⟨feats, hfeats, hall⟩
    · rw [hl] at h0; exact absurd h0 (by simp)

/-- Trees for the examples: a classification and a regression tree, whose roots are split. -/
theorem real_tree {T : Task ℝ Y P Nat} {lab : ℝ → Prop} {I : Data ℝ → List Nat → ℝ} {Ks : List (List Key)}
    (hT : RealTask T lab I Ks) (hl : ∀ y, ClassLabel 2 y → lab y) : ∃ c arr w n,
    FitInput c realData lab realTrain realValid ∧ (∀ i ∈ realTrain, 0 < realData.w i) ∧
    (∀ i ∈ realValid, 0 < realData.w i) ∧ c.aggregation = true ∧ c.step = 1 ∧
    fitTree toyRng T c realGarbage 3 realTrain realValid = .ok (arr, w) ∧ NodeAt arr 0 n ∧ n.isLeaf = false := by
  obtain ⟨fba, h⟩ := real_input lab hl
  obtain ⟨_, _, _, _, _, _, _, _, _, hs, _⟩ := RealTask.elim hT
  obtain ⟨arr, w, t, e1, e2⟩ := fitTree_spec toyRng hs realGarbage 3 h
  obtain ⟨n, hn, hb⟩ := e2.facts.below (.refl _ _)
  have hw : ∀ i ∈ realTrain, 0 < realData.w i := fun i hi => real_weight i (real_label i (List.mem_append_left _ hi)).1
  refine ⟨_, arr, w, n, h, hw, fun i hi => real_weight i (real_label i (List.mem_append_right _ hi)).1, rfl, rfl, e1, hn, ?_⟩
  by_contra hleaf
  have hleaf : n.isLeaf = true := by simpa using hleaf
  obtain ⟨r1, r2⟩ := e2.facts.routed 0 t (.refl _ _)
  rw [e2.okTrain] at r1
  rw [e2.okValid] at r2
  obtain ⟨_, h2, _⟩ := C26_max_gain hT h hw e1 hn
  obtain ⟨_, _, f3, f4, f5, f6, _⟩ := hb.holds.fields
  have hcnt := hb.ok.facts.counts
  rw [e2.okTrain, e2.okValid] at hcnt
  rcases h2 hleaf with (h3 | ⟨_, h3⟩ | h3 | h3) | ⟨feats, hfe, hall⟩
  · rw [f5, hcnt.1] at h3; exact absurd h3 (by simp [realCtx, realTrain])
  · rw [f6, hcnt.2] at h3; exact absurd h3 (by simp [realCtx, realValid])
  · rw [f3, e2.rcd] at h3; exact absurd h3 (by simp [realCtx, rootRecord])
  · exact h3.1 rfl
  · rw [← r1, ← r2] at hall
    have h0 : 0 ∈ feats := by
      obtain ⟨k1, k2, k3⟩ := hfe
      have := (k2.subperm (l₂ := List.range 2) (fun x hx => by simpa [realData, dataOf, realCols] using k3 x hx)).perm_of_length_le
        (by rw [k1]; simp [realCtx])
      rw [this.mem_iff]; simp
    refine (hall 0 h0).1 rfl 0 ⟨0, by decide, by decide⟩ ⟨2, by decide, by decide⟩ 
      ⟨by change 1 ≤ List.length (List.filter _ realTrain); decide, by change 1 ≤ List.length (List.filter _ realTrain); decide,
        fun _ => ⟨by change 1 ≤ List.length (List.filter _ realValid); decide,
          by change 1 ≤ List.length (List.filter _ realValid); decide⟩⟩

example : ∃ (T : Task ℝ (List ℝ) (List ℝ) Nat) (lab : ℝ → Prop) (I : Data ℝ → List Nat → ℝ) (Ks : List (List Key))
    (c : Ctx ℝ) (arr : TreeArr ℝ (List ℝ)) (w : Work Nat) (n : Node ℝ),
    RealTask T lab I Ks ∧ FitInput c realData lab realTrain realValid ∧ (∀ i ∈ realTrain, 0 < realData.w i) ∧
    fitTree toyRng T c realGarbage 3 realTrain realValid = .ok (arr, w) ∧ NodeAt arr 0 n ∧ n.isLeaf = false := by
  have hT := RealTask.classifier (G := Nat) toyRng 2 (1 / 2) .gini (s := .binary) realArgsort_sorts
    (by unfold StrategyOK; decide)
  obtain ⟨c, arr, w, n, h1, h2, _, _, _, h3, h4⟩ := real_tree hT fun _ h => h
  exact ⟨_, _, _, _, c, arr, w, n, hT, h1, h2, h3, h4⟩

/-- C27, first part: at a node (of weight `wP` in a dataset of weight `w`, with impurity `impP`), the quantity that the code
maximises ranks any two splits as the information gain does. -/
theorem C27_proxy_ranks {w impP wP : ℝ} (hw : 0 < w) (hwP : 0 < wP) (iL iR wL wR iL' iR' wL' wR' : ℝ) :
    (informationGainProxy iL iR wL wR ≤ informationGainProxy iL' iR' wL' wR' ↔
      informationGain w impP iL iR wP wL wR ≤ informationGain w impP iL' iR' wP wL' wR') ∧
    (informationGainProxy iL iR wL wR < informationGainProxy iL' iR' wL' wR' ↔
      informationGain w impP iL iR wP wL wR < informationGain w impP iL' iR' wP wL' wR') := by
  have key : ∀ a b x y : ℝ, informationGain w impP a b wP x y = wP / w * impP + informationGainProxy a b x y / w := by
    intro a b x y
    simp only [informationGain, informationGainProxy, Num.sub, Num.mul, Num.div, Num.neg]
    field_simp
    ring
  rw [key, key]
  constructor
  · rw [add_le_add_iff_left, div_le_div_iff_of_pos_right hw]
  · rw [add_lt_add_iff_left, div_lt_div_iff_of_pos_right hw]

example : ∃ w wP : ℝ, 0 < w ∧ 0 < wP := ⟨3, 2, by norm_num, by norm_num⟩

/-- C27, second part: gini impurity and entropy of non-negative class weights are at least 0, and 0 when a single class has
all the weight. The functions that compute the impurities of the two children compute the same. -/
theorem C27_class_impurity {n : Nat} {y : List ℝ} {wt : ℝ} (hy : y.length = n) (h0 : ∀ v ∈ y, 0 ≤ v) (hs : y.sum = wt)
    (hw : 0 < wt) :
    (∃ g, giniNode n wt y = .ok g ∧ 0 ≤ g ∧ ((∃ k, k < n ∧ y[k]? = some wt) → g = 0) ∧
      ∀ wt' y', y'.length = n → ∃ g', giniChilds n wt wt' y y' = .ok (g, g') ∧ giniNode n wt' y' = .ok g') ∧
    (∃ e, entropyNode n wt y = .ok e ∧ 0 ≤ e ∧ ((∃ k, k < n ∧ y[k]? = some wt) → e = 0) ∧
      ∀ wt' y', y'.length = n → ∃ e', entropyChilds n wt wt' y y' = .ok (e, e') ∧ entropyNode n wt' y' = .ok e') := by
  have hv : ∀ k, 0 ≤ y.getD k 0 := by
    intro k
    rw [List.getD_eq_getElem?_getD]
    cases hk : y[k]? with
    | none => simp
    | some v => exact h0 v (List.mem_of_getElem? hk)
  have hsum : ∑ k ∈ Finset.range n, y.getD k 0 = wt := by
    rw [← hs, ← hy, ← sum_getD, List.sum_eq_foldl]; rfl
  have hpure : (∃ k, k < n ∧ y[k]? = some wt) → ∀ cr, classImp n cr wt (fun k => y.getD k 0) = 0 := by
    rintro ⟨k, hk, hyk⟩ cr
    refine pure_zero cr hk (by rw [List.getD_eq_getElem?_getD, hyk]; rfl) hw ?_
    intro l hl hlk
    have h1 := Finset.sum_erase_add (Finset.range n) (fun k => y.getD k 0) (a := k) (by simpa using hk)
    rw [hsum, List.getD_eq_getElem?_getD (l := y) (i := k), hyk] at h1
    have h2 : ∑ x ∈ (Finset.range n).erase k, y.getD x 0 = 0 := by simpa using h1
    exact (Finset.sum_eq_zero_iff_of_nonneg fun x _ => hv x).1 h2 l (by simp [hl, hlk])
  constructor
  · have e1 : ∀ (wt : ℝ) (y : List ℝ), y.length = n → giniNode n wt y = .ok (classImp n .gini wt fun k => y.getD k 0) := by
      intro wt y hy
      unfold giniNode
      rw [sumSq_real hy, bind_ok]; rfl
    refine ⟨_, e1 wt y hy, gini_nonneg hv hsum hw, fun h => hpure h _, fun wt' y' hy' => ⟨_, ?_, e1 wt' y' hy'⟩⟩
    exact childs_real .gini wt wt' hy hy'
  · have e1 : ∀ (wt : ℝ) (y : List ℝ), y.length = n →
        entropyNode n wt y = .ok (classImp n .entropy wt fun k => y.getD k 0) := fun wt y hy => entropyNode_real wt hy
    refine ⟨_, e1 wt y hy, entropy_nonneg hv hsum hw, fun h => hpure h _, fun wt' y' hy' => ⟨_, ?_, e1 wt' y' hy'⟩⟩
    exact childs_real .entropy wt wt' hy hy'

example : ∃ (y : List ℝ) (wt : ℝ), y.length = 3 ∧ (∀ v ∈ y, 0 ≤ v) ∧ y.sum = wt ∧ 0 < wt :=
  ⟨[1, 0, 2], 3, rfl, by simp, by norm_num, by norm_num⟩

/-- C27, third part: the variance computed from the sums of `w`, `w y` and `w y²` of samples with non-negative weights is the
weighted variance of the labels; it is at least 0, and 0 when all labels are equal. -/
theorem C27_mse {D : Data ℝ} {l : List Nat} (hw : ∀ i ∈ l, 0 ≤ D.w i) :
    let v := mseNode (totalW D l) (l.map fun i => D.w i * D.y i).sum (l.map fun i => D.w i * D.y i * D.y i).sum
    v = variance D l ∧ 0 ≤ v ∧ ((∃ a, ∀ i ∈ l, D.y i = a) → v = 0) := by
  intro v
  have hv : v = variance D l := by rw [← variance_eq, vsum_reg]; rfl
  refine ⟨hv, by rw [hv]; exact variance_nonneg hw, ?_⟩
  rintro ⟨a, ha⟩
  have e1 : (l.map fun i => D.w i * D.y i) = l.map fun i => a * D.w i :=
    List.map_congr_left fun i hi => by rw [ha i hi]; ring
  have e2 : (l.map fun i => D.w i * D.y i * D.y i) = l.map fun i => a * a * D.w i :=
    List.map_congr_left fun i hi => by rw [ha i hi]; ring
  simp only [v, e1, e2, List.sum_map_mul_left]
  simp only [mseNode, Num.sub, Num.div, Num.mul, totalW]
  by_cases h0 : (l.map D.w).sum = 0
  · simp [h0]
  · field_simp; ring

example : ∃ (D : Data ℝ) (l : List Nat), (∀ i ∈ l, 0 ≤ D.w i) ∧ l ≠ [] ∧ ∃ a, ∀ i ∈ l, D.y i = a :=
  ⟨realData, [0, 1], fun i hi => (real_weight i (by simp at hi; omega)).le, by simp, 0, by
    intro i hi; simp at hi; rcases hi with rfl | rfl <;> simp [realData, dataOf, realY]⟩

/-- C27, fourth part: the information gain of every split (with samples on both sides and
positive weights) is at least 0, for the gini impurity, the entropy and the variance. -/
theorem C27_gain_nonneg (hT : RealTask T lab I Ks) {l : List Nat} (hw : ∀ i ∈ l, 0 < D.w i) {goes : Nat → Bool}
    (hl : l.filter goes ≠ []) (hr : (l.filter fun i => !goes i) ≠ []) :
    0 ≤ infoGain I D l goes ∧
    ∀ wt, 0 < wt → 0 ≤ informationGain wt (I D l) (I D (l.filter goes)) (I D (l.filter fun i => !goes i)) (totalW D l)
      (totalW D (l.filter goes)) (totalW D (l.filter fun i => !goes i)) := by
  have hwl : ∀ i ∈ l.filter goes, 0 < D.w i := fun i hi => hw i (List.mem_filter.1 hi).1
  have hwr : ∀ i ∈ l.filter fun i => !goes i, 0 < D.w i := fun i hi => hw i (List.mem_filter.1 hi).1
  have hA := totalW_pos hwl hl
  have hB := totalW_pos hwr hr
  have hsplit := totalW_split D l goes
  have hWl : 0 < totalW D l := by linarith
  have key : totalW D (l.filter goes) * I D (l.filter goes) +
      totalW D (l.filter fun i => !goes i) * I D (l.filter fun i => !goes i) ≤
      (totalW D (l.filter goes) + totalW D (l.filter fun i => !goes i)) * I D l := by
    cases hT with
    | classifier R n d cr ha hs =>
      rw [← classImp_eq n cr (fun i hi => (hw i hi).le), ← classImp_eq n cr (fun i hi => (hwl i hi).le),
        ← classImp_eq n cr (fun i hi => (hwr i hi).le)]
      have hadd : vsum (fun w l => Pi.single ⌊l⌋₊ w : ℝ → ℝ → Nat → ℝ) D l = fun k =>
          vsum (fun w l => Pi.single ⌊l⌋₊ w : ℝ → ℝ → Nat → ℝ) D (l.filter goes) k +
          vsum (fun w l => Pi.single ⌊l⌋₊ w : ℝ → ℝ → Nat → ℝ) D (l.filter fun i => !goes i) k := by
        funext k
        have := congrFun (sum_filter_not (fun i => (Pi.single ⌊D.y i⌋₊ (D.w i) : Nat → ℝ)) goes l) k
        simp only [Pi.sub_apply] at this
        unfold vsum
        rw [this]; ring
      have e := hsplit.symm
      cases cr with
      | gini => rw [e, hadd]; exact gini_gain hA hB
      | entropy =>
        rw [e, hadd]
        exact entropy_gain hA hB (fun k => by rw [vsum_class]; exact classW_nonneg (fun i hi => (hwl i hi).le) k)
          (fun k => by rw [vsum_class]; exact classW_nonneg (fun i hi => (hwr i hi).le) k)
    | regressor ha =>
      have h1 := (C27_mse (D := D) (l := l) fun i hi => (hw i hi).le).1
      have h2 := (C27_mse (D := D) (l := l.filter goes) fun i hi => (hwl i hi).le).1
      have h3 := (C27_mse (D := D) (l := l.filter fun i => !goes i) fun i hi => (hwr i hi).le).1
      rw [← h1, ← h2, ← h3, ← hsplit]
      have s1 := sum_filter_not (fun i => D.w i * D.y i) goes l
      have s2 := sum_filter_not (fun i => D.w i * D.y i * D.y i) goes l
      have := mse_gain (s := ((l.filter goes).map fun i => D.w i * D.y i).sum)
        (t := ((l.filter fun i => !goes i).map fun i => D.w i * D.y i).sum)
        (p := ((l.filter goes).map fun i => D.w i * D.y i * D.y i).sum)
        (q := ((l.filter fun i => !goes i).map fun i => D.w i * D.y i * D.y i).sum) hA hB
      rw [s1, s2, add_sub_cancel, add_sub_cancel] at this
      rw [s1, s2]
      exact this
  constructor
  · rw [infoGain_eq]
    unfold proxyGain
    rw [hsplit] at key
    have : 0 ≤ (totalW D l * I D l + (-(totalW D (l.filter goes) * I D (l.filter goes)) -
        totalW D (l.filter fun i => !goes i) * I D (l.filter fun i => !goes i))) / totalW D l :=
      div_nonneg (by linarith) hWl.le
    rw [add_div, mul_div_cancel_left₀ _ hWl.ne'] at this
    exact this
  · intro wt hwt
    rw [← hsplit]
    exact informationGain_nonneg hwt hA hB key

example : ∃ (T : Task ℝ (List ℝ) (List ℝ) Nat) (lab : ℝ → Prop) (I : Data ℝ → List Nat → ℝ) (Ks : List (List Key))
    (goes : Nat → Bool), RealTask T lab I Ks ∧ (∀ i ∈ realTrain, 0 < realData.w i) ∧ realTrain.filter goes ≠ [] ∧
    (realTrain.filter fun i => !goes i) ≠ [] :=
  ⟨_, _, _, _, fun i => decide (i ≤ 1), RealTask.classifier (G := Nat) toyRng 2 (1 / 2) .entropy (s := .all) realArgsort_sorts
    (by unfold StrategyOK; decide), fun i hi => real_weight i (real_label i (List.mem_append_left _ hi)).1, by decide, by decide⟩

end Verif
