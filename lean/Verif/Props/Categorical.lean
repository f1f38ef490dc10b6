import Verif.Proofs.Categorical
import Verif.Props.Gain

/-! Property C50: optimality of categorical splits over all groups of categories. Floats are real numbers here. -/
namespace Verif

open Spec

variable {G : Type} {R : Rng G} {c : Ctx ℝ} {D : Data ℝ} {gb : Garbage ℝ} {seed : Nat} {train valid : List Nat} {w : Work G}

/-- C50 for binary classification with the gini criterion, any strategy for categorical features: at a split node, no split
of the categories of a sampled categorical feature in two groups has a larger information gain than the split of the node, if
`min_samples_leaf` does not exclude splits of this feature. -/
theorem C50_binary_gini (R' : Rng G) {argsort : List ℝ → List Nat} (ha : ArgsortSorts argsort) (dirichlet : ℝ)
    {s : CatStrategy} (hs : StrategyOK 2 s) (h : FitInput c D (ClassLabel 2) train valid) (hw : ∀ i ∈ train, 0 < D.w i)
    {arr : TreeArr ℝ (List ℝ)}
    (hf : fitTree R (classifierTask R' argsort 2 dirichlet .gini s) c gb seed train valid = .ok (arr, w)) {k : Nat} {n : Node ℝ}
    (hn : NodeAt arr k n) (hleaf : n.isLeaf = false) :
    let tr := routed arr D train k
    let va := routed arr D valid k
    ∃ feats f, IsSample D.d c.maxFeatures feats ∧ n.feature = some f ∧ f ∈ feats ∧
      ∀ j ∈ feats, c.isCategorical[j]? = some true → LeafFree c D j tr va →
        ∀ S : Nat → Bool, (∃ i ∈ tr, S (D.X i j) = true) → (∃ i ∈ tr, S (D.X i j) = false) →
          infoGain (classImpurity 2 .gini) D tr (fun i => S (D.X i j)) ≤
            infoGain (classImpurity 2 .gini) D tr (nodeTest arr D n f) := by
  intro tr va
  obtain ⟨feats, f, h1, h2, h3, _, h4⟩ := (C26_max_gain (.classifier R' 2 dirichlet .gini ha hs) h hw hf hn).1 hleaf
  refine ⟨feats, f, h1, h2, h3.1, fun j hj hcat hfree S hS1 hS2 => ?_⟩
  have hwt : ∀ i ∈ tr, 0 < D.w i := fun i hi => hw i (List.mem_filter.1 hi).1
  have hlt : ∀ i ∈ tr, ClassLabel 2 (D.y i) := fun i hi => (h.okTrain i (List.mem_filter.1 hi).1).2
  obtain ⟨keys, hk1, hk2⟩ := (h4 j hj).2 hcat
  -- all strategies use the frequency of one of the two classes
  obtain ⟨q, hq, hkey⟩ : ∃ q, q < 2 ∧ classKey q ∈ keys := by
    cases s with
    | all =>
      simp only [strategyKeys, List.mem_singleton] at hk1
      exact ⟨1, by omega, by rw [hk1]; exact List.mem_map.2 ⟨1, by simp, rfl⟩⟩
    | binary => exact ⟨1, by omega, by simp only [strategyKeys, List.mem_singleton] at hk1; rw [hk1]; simp⟩
    | random =>
      simp only [strategyKeys] at hk1
      obtain ⟨q, hq, rfl⟩ := List.mem_map.1 hk1
      exact ⟨q, List.mem_range.1 hq, by simp⟩
  obtain ⟨o, ho1, ho2⟩ := hk2 _ hkey
  refine all_subsets (z := classInd D q) hwt ?_ hfree ho1.nodup ho1.mem ?_ ho2 S hS1 hS2
  · intro g1 g2 a1 a2 b1 b2 hle
    rw [gini_between hwt hlt hq a1 a2, gini_between hwt hlt hq b1 b2]
    have hW : 0 ≤ totalW D tr := totalW_nonneg fun i hi => (hwt i hi).le
    have := div_le_div_of_nonneg_right (by linarith :
      2 * between D.w (classInd D q) tr g1 - 2 * classW D tr q ≤ 2 * between D.w (classInd D q) tr g2 - 2 * classW D tr q) hW
    linarith
  · refine ho1.sorted.imp fun {a b} hab => ?_
    unfold binMean
    rw [zOf_class, zOf_class]
    exact hab

/-- C50 for regression, under the hypothesis that the order of the categories by sum of labels is an order by mean
of labels (for instance, all categories have the same weight). Without it, see `C50_regression_violated`. -/
theorem C50_regression_partial {argsort : List ℝ → List Nat} (ha : ArgsortSorts argsort)
    (h : FitInput c D (fun _ => True) train valid) (hw : ∀ i ∈ train, 0 < D.w i) {arr : TreeArr ℝ ℝ}
    (hf : fitTree R (regressorTask argsort) c gb seed train valid = .ok (arr, w)) {k : Nat} {n : Node ℝ}
    (hn : NodeAt arr k n) (hleaf : n.isLeaf = false) :
    let tr := routed arr D train k
    let va := routed arr D valid k
    ∃ feats f, IsSample D.d c.maxFeatures feats ∧ n.feature = some f ∧ f ∈ feats ∧
      ∀ j ∈ feats, c.isCategorical[j]? = some true → LeafFree c D j tr va →
        (∀ a b, sumKey D (inBin D j a tr) ≤ sumKey D (inBin D j b tr) → mean D (inBin D j a tr) ≤ mean D (inBin D j b tr)) →
        ∀ S : Nat → Bool, (∃ i ∈ tr, S (D.X i j) = true) → (∃ i ∈ tr, S (D.X i j) = false) →
          infoGain variance D tr (fun i => S (D.X i j)) ≤ infoGain variance D tr (nodeTest arr D n f) := by
  intro tr va
  obtain ⟨feats, f, h1, h2, h3, _, h4⟩ := (C26_max_gain (.regressor ha) h hw hf hn).1 hleaf
  refine ⟨feats, f, h1, h2, h3.1, fun j hj hcat hfree hord S hS1 hS2 => ?_⟩
  have hwt : ∀ i ∈ tr, 0 < D.w i := fun i hi => hw i (List.mem_filter.1 hi).1
  obtain ⟨keys, hk1, hk2⟩ := (h4 j hj).2 hcat
  rw [List.mem_singleton] at hk1
  subst hk1
  obtain ⟨o, ho1, ho2⟩ := hk2 sumKey (by simp)
  refine all_subsets (z := D.y) hwt ?_ hfree ho1.nodup ho1.mem ?_ ho2 S hS1 hS2
  · intro g1 g2 a1 a2 b1 b2 hle
    rw [variance_between hwt a1 a2, variance_between hwt b1 b2]
    have hW : 0 ≤ totalW D tr := totalW_nonneg fun i hi => (hwt i hi).le
    have := div_le_div_of_nonneg_right (by linarith :
      between D.w D.y tr g1 - (tr.map fun i => D.w i * D.y i * D.y i).sum ≤
        between D.w D.y tr g2 - (tr.map fun i => D.w i * D.y i * D.y i).sum) hW
    linarith
  · exact ho1.sorted.imp fun {a b} hab => hord a b hab

/-- The code violates C50 for regression: it sorts categories by the sum of the labels instead of the mean. In the fitted tree
for `sumData` the root is split on the categorical feature, `min_samples_leaf` excludes nothing, and splitting off the
category 1 would have a larger gain. -/
theorem C50_regression_violated : ∃ (c : Ctx ℝ) (arr : TreeArr ℝ ℝ) (w : Work Nat) (n : Node ℝ),
    FitInput c sumData (fun _ => True) sumTrain [] ∧ (∀ i ∈ sumTrain, 0 < sumData.w i) ∧
    fitTree toyRng (regressorTask realArgsort) c realGarbage 3 sumTrain [] = .ok (arr, w) ∧
    NodeAt arr 0 n ∧ n.isLeaf = false ∧ n.feature = some 0 ∧ c.isCategorical[0]? = some true ∧
    LeafFree c sumData 0 sumTrain [] ∧ routed arr sumData sumTrain 0 = sumTrain ∧
    infoGain variance sumData sumTrain (nodeTest arr sumData n 0) <
      infoGain variance sumData sumTrain (fun i => decide (sumData.X i 0 = 1)) := by
  obtain ⟨fba, _, h2⟩ := holds_of_matrix (F := ℝ) (fun _ => 0) 6 [[0, 1, 2, 2, 2, 2]] [0, 10, 4, 4, 4, 4] [1, 1, 1, 1, 1, 1]
    (by norm_num) (by decide) (by decide) rfl rfl [true] rfl
  have h : FitInput (sumCtx fba) sumData (fun _ => True) sumTrain [] :=
    ⟨h2 _ rfl rfl rfl rfl, ⟨⟨by norm_num [sumCtx], by simp [sumCtx, sumData, dataOf]⟩, by norm_num [sumCtx]⟩,
      by intro i hi; exact ⟨by simp [sumTrain] at hi; simp [sumData, dataOf]; omega, trivial⟩, by simp, by decide, by simp, by decide⟩
  have hw : ∀ i ∈ sumTrain, 0 < sumData.w i := by
    intro i hi
    simp only [sumTrain, List.mem_cons, List.not_mem_nil, or_false] at hi
    rcases hi with rfl | rfl | rfl | rfl | rfl | rfl <;> simp [sumData, dataOf]
  have hT := RealTask.regressor (G := Nat) realArgsort_sorts
  obtain ⟨_, _, _, _, _, _, _, _, _, hs, _⟩ := RealTask.elim hT
  obtain ⟨arr, w, t, e1, e2⟩ := fitTree_spec toyRng hs realGarbage 3 h
  obtain ⟨n, hn, hb⟩ := e2.facts.below (.refl _ _)
  obtain ⟨r1, r2⟩ := e2.facts.routed 0 t (.refl _ _)
  rw [e2.okTrain] at r1
  rw [e2.okValid] at r2
  obtain ⟨g1, g2, _⟩ := C26_max_gain hT h hw e1 hn
  rw [← r1, ← r2] at g1 g2
  have hfeat : ∀ feats, IsSample sumData.d (sumCtx fba).maxFeatures feats → feats = [0] := by
    rintro feats ⟨a1, a2, a3⟩
    match feats, a1 with
    | [x], _ =>
      have := a3 x (by simp)
      simp [sumData, dataOf] at this
      rw [this]
  have hfree : LeafFree (sumCtx fba) sumData 0 sumTrain [] := by
    intro b hb
    refine ⟨?_, fun ha => absurd ha (by simp [sumCtx])⟩
    obtain ⟨i, hi, rfl⟩ := hb
    have : i ∈ inBin sumData 0 (sumData.X i 0) sumTrain := List.mem_filter.2 ⟨hi, by simp⟩
    exact List.length_pos_of_mem this
  have hleaf : n.isLeaf = false := by
    by_contra hl
    have hl : n.isLeaf = true := by simpa using hl
    obtain ⟨_, _, f3, f4, f5, f6, _⟩ := hb.holds.fields
    have hcnt := hb.ok.facts.counts
    rw [e2.okTrain, e2.okValid] at hcnt
    rcases g2 hl with (h3 | ⟨h3, _⟩ | h3 | h3) | ⟨feats, hfe, hall⟩
    · rw [f5, hcnt.1] at h3; exact absurd h3 (by simp [sumCtx, sumTrain])
    · exact absurd h3 (by simp [sumCtx])
    · rw [f3, e2.rcd] at h3; exact absurd h3 (by simp [sumCtx, rootRecord])
    · exact h3.1 rfl
    · have := hfeat feats hfe
      subst this
      obtain ⟨keys, hk1, hk2⟩ := (hall 0 (by simp)).2 rfl
      rw [List.mem_singleton] at hk1
      subst hk1
      obtain ⟨o, ho1, ho2⟩ := hk2 sumKey (by simp)
      have := sum_order ho1
      subst this
      exact ho2 [0] [1, 2] rfl (by simp) (by simp) (hfree.admissible (S := fun b => decide (b ∈ [0])) ⟨0, by decide, by decide⟩ ⟨1, by decide, by decide⟩)
  obtain ⟨feats, f, b1, b2, b3, _, _⟩ := g1 hleaf
  have := hfeat feats b1
  subst this
  obtain ⟨b3, b4⟩ := b3
  have hf0 : f = 0 := by simpa using b3
  subst hf0
  refine ⟨_, arr, w, n, h, hw, e1, hn, hleaf, b2, rfl, hfree, r1.symm, ?_⟩
  -- the value of the better split
  have hbest : between sumData.w sumData.y sumTrain (fun i => decide (sumData.X i 0 = 1)) = 756 / 5 := by
    unfold between zOf wOf
    rw [show sumTrain.filter (fun i => decide (sumData.X i 0 = 1)) = [1] by decide,
      show (sumTrain.filter fun i => !decide (sumData.X i 0 = 1)) = [0, 2, 3, 4, 5] by decide]
    simp [sumData, dataOf]; norm_num
  have hlt : ∀ g : Nat → Bool, (∃ i ∈ sumTrain, g i = true) → (∃ i ∈ sumTrain, g i = false) →
      between sumData.w sumData.y sumTrain g < 756 / 5 →
      infoGain variance sumData sumTrain g < infoGain variance sumData sumTrain (fun i => decide (sumData.X i 0 = 1)) := by
    intro g a1 a2 hlt
    rw [variance_between hw a1 a2, variance_between hw ⟨1, by decide, by decide⟩ ⟨0, by decide, by decide⟩, hbest]
    have hW : 0 < totalW sumData sumTrain := totalW_pos hw (by decide)
    have := div_lt_div_of_pos_right (by linarith :
      between sumData.w sumData.y sumTrain g - (sumTrain.map fun i => sumData.w i * sumData.y i * sumData.y i).sum <
        756 / 5 - (sumTrain.map fun i => sumData.w i * sumData.y i * sumData.y i).sum) hW
    linarith
  rcases b4 with ⟨b4, _⟩ | ⟨_, keys, hk1, key, hk2, o, ho, S, S', e, hS, hS', hgo⟩
  · exact absurd b4 (by simp [sumCtx])
  · rw [List.mem_singleton] at hk1
    subst hk1
    rw [List.mem_singleton] at hk2
    subst hk2
    have := sum_order ho
    subst this
    rw [hgo]
    match S, hS, S', hS', e with
    | [a], _, _, _, e =>
      simp only [List.cons_append, List.nil_append, List.cons.injEq] at e
      obtain ⟨rfl, _⟩ := e
      refine hlt _ ⟨0, by decide, by decide⟩ ⟨1, by decide, by decide⟩ ?_
      unfold between zOf wOf
      rw [show sumTrain.filter (fun i => decide (sumData.X i 0 ∈ [0])) = [0] by decide,
        show (sumTrain.filter fun i => !decide (sumData.X i 0 ∈ [0])) = [1, 2, 3, 4, 5] by decide]
      simp [sumData, dataOf]; norm_num
    | [a, b], _, _, _, e =>
      simp only [List.cons_append, List.nil_append, List.cons.injEq] at e
      obtain ⟨rfl, rfl, _⟩ := e
      refine hlt _ ⟨0, by decide, by decide⟩ ⟨2, by decide, by decide⟩ ?_
      unfold between zOf wOf
      rw [show sumTrain.filter (fun i => decide (sumData.X i 0 ∈ [0, 1])) = [0, 1] by decide,
        show (sumTrain.filter fun i => !decide (sumData.X i 0 ∈ [0, 1])) = [2, 3, 4, 5] by decide]
      simp [sumData, dataOf]; norm_num
    | a :: b :: d :: S, _, x :: S', _, e =>
      simp at e

/-- The hypotheses of `C50_binary_gini`. -/
example : ∃ (c : Ctx ℝ) (arr : TreeArr ℝ (List ℝ)) (w : Work Nat) (n : Node ℝ), StrategyOK 2 .binary ∧
    FitInput c realData (ClassLabel 2) realTrain realValid ∧ (∀ i ∈ realTrain, 0 < realData.w i) ∧
    fitTree toyRng (classifierTask toyRng realArgsort 2 (1 / 2) .gini .binary) c realGarbage 3 realTrain realValid =
      .ok (arr, w) ∧ NodeAt arr 0 n ∧ n.isLeaf = false := by
  have hs : StrategyOK 2 .binary := by unfold StrategyOK; decide
  obtain ⟨c, arr, w, n, h1, h2, _, _, _, h3, h4⟩ := real_tree
    (RealTask.classifier (G := Nat) toyRng 2 (1 / 2) .gini (s := .binary) realArgsort_sorts hs) fun _ h => h
  exact ⟨c, arr, w, n, hs, h1, h2, h3, h4⟩

/-- The hypotheses of `C50_regression_partial`. -/
example : ∃ (c : Ctx ℝ) (arr : TreeArr ℝ ℝ) (w : Work Nat) (n : Node ℝ),
    FitInput c realData (fun _ => True) realTrain realValid ∧ (∀ i ∈ realTrain, 0 < realData.w i) ∧
    fitTree toyRng (regressorTask realArgsort) c realGarbage 3 realTrain realValid = .ok (arr, w) ∧ NodeAt arr 0 n ∧
    n.isLeaf = false := by
  obtain ⟨c, arr, w, n, h1, h2, _, _, _, h3, h4⟩ := real_tree (RealTask.regressor (G := Nat) realArgsort_sorts) fun _ _ => trivial
  exact ⟨c, arr, w, n, h1, h2, h3, h4⟩

end Verif
