import Verif.Proofs.Repeat
import Verif.Props.Gain

/-! Properties C28 and C48: node predictions and node statistics. Floats are real numbers here. -/
namespace Verif

open Spec

variable {Y P G : Type} {R : Rng G} {T : Task ℝ Y P G} {lab : ℝ → Prop} {I : Data ℝ → List Nat → ℝ} {Ks : List (List Key)}
  {c : Ctx ℝ} {D : Data ℝ} {gb : Garbage ℝ} {seed : Nat} {train valid : List Nat} {w : Work G}

/-- C28. The prediction of a node of a fitted classification tree is a probability vector: the weighted class frequencies of
the training rows routed to the node, smoothed by `dirichlet`. With `dirichlet > 0` all entries are positive, and the
validation loss of the node is the weighted logarithmic loss of the validation rows routed to it, a sum of logarithms of
positive numbers, and not negative. -/
theorem C28_class_predictions {argsort : List ℝ → List Nat} (ha : ArgsortPerm argsort) {n : Nat} {d : ℝ} (hd : 0 ≤ d)
    {cr : Criterion} {s : CatStrategy} (hs : StrategyOK n s) {arr : TreeArr ℝ (List ℝ)}
    (h : FitInput c D (ClassLabel n) train valid)
    (hf : fitTree R (classifierTask R argsort n d cr s) c gb seed train valid = .ok (arr, w))
    (hw : ∀ i ∈ train, 0 ≤ D.w i) {k : Nat} {nd : Node ℝ} (hn : NodeAt arr k nd)
    (hpos : 0 < d ∨ 0 < totalW D (routed arr D train k)) :
    ∃ p, arr.yPred[k]? = some p ∧ p.length = n ∧ (∀ x ∈ p, 0 ≤ x ∧ x ≤ 1) ∧ p.sum = 1 ∧
      (∀ j, j < n → p[j]? = some ((classW D (routed arr D train k) j + d) / (totalW D (routed arr D train k) + n * d))) ∧
      (0 < d → (∀ x ∈ p, 0 < x) ∧ (c.aggregation = true → (∀ i ∈ valid, 0 ≤ D.w i) →
        nd.loss = ((routed arr D valid k).map fun i => -(D.w i * Real.log (p.getD ⌊D.y i⌋₊ 0))).sum ∧
        (∀ i ∈ routed arr D valid k, 0 < p.getD ⌊D.y i⌋₊ 0) ∧ 0 ≤ nd.loss)) := by
  obtain ⟨t, hFi⟩ := fitted_of (classifier_safe R ha n d cr hs) h hf
  have hF := hFi.facts
  obtain ⟨u, hu⟩ := hF.ofNode hn
  obtain ⟨er1, er2⟩ := hF.routed k u hu.sub
  obtain ⟨_, _, hok, _⟩ := hu.ok.facts.stats
  have hlab : ∀ i ∈ u.root.train, ClassLabel n (D.y i) := fun i hi => (hu.ok.facts.okTrain i hi).2
  have hlabV : ∀ i ∈ u.root.valid, ClassLabel n (D.y i) := fun i hi => (hu.ok.facts.okValid i hi).2
  have hp : u.root.nc.yPred = classPred n d D u.root.train := by
    have := hok.yPred
    rw [nodePred_class R hlab] at this
    injection this with this
    exact this.symm
  have hwr : ∀ i ∈ u.root.train, 0 ≤ D.w i := fun i hi => hw i (by rw [er1] at hi; exact (List.mem_filter.1 hi).1)
  have hn0 : 0 < n := by
    obtain ⟨i, hi⟩ := List.exists_mem_of_ne_nil _ hu.ok.facts.nonempty
    exact Nat.lt_of_le_of_lt (Nat.zero_le _) (hlab i hi)
  have hnr : (0 : ℝ) < n := by exact_mod_cast hn0
  have htot := totalW_nonneg hwr
  have hpos' : 0 < totalW D u.root.train + n * d := by
    rw [← er1] at hpos
    rcases hpos with h0 | h0
    · positivity
    · positivity
  have h0 : ∀ x ∈ classPred n d D u.root.train, 0 ≤ x := classPred_nonneg hwr hd
  have h1 := classPred_sum hlab hpos'
  refine ⟨_, hu.holds.pred, ?_⟩
  rw [hp]
  refine ⟨classPred_length, fun x hx => ⟨h0 x hx, le_one_of_sum h0 h1 x hx⟩, h1, fun j hj => ?_, fun hd0 => ?_⟩
  · rw [← er1]; simp [classPred, hj]
  · have hp0 := classPred_pos (n := n) hwr hd0
    refine ⟨hp0, fun hagg hwv => ?_⟩
    have hloss := hok.loss
    rw [hagg, if_pos rfl, nodeLoss_class R hlabV (by rw [hp, classPred_length]), hp, er2] at hloss
    injection hloss with hloss
    rw [hu.holds.isLeaf.2, ← hloss]
    have hpv : ∀ i ∈ routed arr D valid k, 0 < (classPred n d D u.root.train).getD ⌊D.y i⌋₊ 0 ∧
        (classPred n d D u.root.train).getD ⌊D.y i⌋₊ 0 ≤ 1 := by
      intro i hi
      have hlt : ⌊D.y i⌋₊ < (classPred n d D u.root.train).length := by
        rw [classPred_length]; exact hlabV i (by rw [er2]; exact hi)
      rw [List.getD_eq_getElem?_getD, List.getElem?_eq_getElem hlt, Option.getD_some]
      have hm := List.getElem_mem hlt
      exact ⟨hp0 _ hm, le_one_of_sum h0 h1 _ hm⟩
    refine ⟨rfl, fun i hi => (hpv i hi).1, List.sum_nonneg fun x hx => ?_⟩
    obtain ⟨i, hi, rfl⟩ := List.mem_map.1 hx
    have hwi := hwv i (List.mem_filter.1 hi).1
    have := Real.log_nonpos (hpv i hi).1.le (hpv i hi).2
    nlinarith

example : ∃ (argsort : List ℝ → List Nat) (c : Ctx ℝ) (arr : TreeArr ℝ (List ℝ)) (w : Work Nat) (n : Node ℝ),
    ArgsortPerm argsort ∧ (0 : ℝ) ≤ 1 / 2 ∧ StrategyOK 2 .all ∧ FitInput c realData (ClassLabel 2) realTrain realValid ∧
    fitTree toyRng (classifierTask toyRng argsort 2 (1 / 2) .entropy .all) c realGarbage 3 realTrain realValid = .ok (arr, w) ∧
    (∀ i ∈ realTrain, 0 ≤ realData.w i) ∧ NodeAt arr 0 n ∧ (0 : ℝ) < 1 / 2 ∧ c.aggregation = true ∧
    (∀ i ∈ realValid, 0 ≤ realData.w i) := by
  have hS : StrategyOK 2 .all := by unfold StrategyOK; decide
  obtain ⟨c, arr, w, n, h1, h2, h3, h4, _, h5, h6, _⟩ := real_tree (RealTask.classifier (G := Nat) toyRng 2 (1 / 2) .entropy
    (s := .all) realArgsort_sorts hS) fun _ h => h
  exact ⟨_, c, arr, w, n, realArgsort_sorts.1, by norm_num, hS, h1, h5, fun i hi => (h2 i hi).le, h6, by norm_num, h4,
    fun i hi => (h3 i hi).le⟩

/-- C48. With integer weights, all weighted statistics that `compute_node_context` computes for a node (total weights, weights
and label sums of all bins of all features, prediction, validation loss), the impurity and the information gain of every test
are those for unit weights on a dataset in which each row is repeated as often as its weight says. -/
theorem C48_integer_weights (hT : RealTask T lab I Ks) {c' : Ctx ℝ} {D' : Data ℝ} (hD : Holds c D) (hD' : Holds c' D')
    (hagg : c'.aggregation = c.aggregation) (hbins : c'.maxNBins = c.maxNBins) {m src : Nat → Nat} {train' valid' feats : List Nat}
    (htr : Repeated D D' m src train train') (hva : Repeated D D' m src valid valid')
    (hf : ∀ j ∈ feats, j < D.d ∧ j < D'.d) (hf0 : feats ≠ [])
    (h1 : ∀ i ∈ train, i < D.n ∧ lab (D.y i)) (h2 : ∀ i ∈ valid, i < D.n ∧ lab (D.y i))
    (h3 : ∀ i ∈ train', i < D'.n) (h4 : ∀ i ∈ valid', i < D'.n) :
    ∃ nc nc', nodeStats T c feats train valid train.length valid.length = .ok nc ∧
      nodeStats T c' feats train' valid' train'.length valid'.length = .ok nc' ∧
      nc'.wTrain = nc.wTrain ∧ nc'.wValid = nc.wValid ∧ nc'.yPred = nc.yPred ∧ nc'.loss = nc.loss ∧
      (∀ (f b : Nat), f < feats.length → b < c.maxNBins → ∃ hh hh', nc.hists[f]? = some hh ∧ nc'.hists[f]? = some hh' ∧
        hh'.wTrain[b]? = hh.wTrain[b]? ∧ hh'.ySum[b]? = hh.ySum[b]? ∧
        (c.aggregation = true → hh'.wValid[b]? = hh.wValid[b]?)) ∧
      I D' train' = I D train ∧
      ∀ goes : Nat → Bool, infoGain I D' train' (fun i' => goes (src i')) = infoGain I D train goes := by
  obtain ⟨_, _, _, _, okY, okP, _, _, _, hs, _⟩ := RealTask.elim hT
  have hl1 := fun i hi => (h1 i hi).2
  have hl2 := fun i hi => (h2 i hi).2
  obtain ⟨nc, e1, k1⟩ := nodeStats_spec hs hD feats train valid (fun j hj => (hf j hj).1) hf0 h1 h2
  obtain ⟨nc', e2, k2⟩ := nodeStats_spec hs hD' feats train' valid' (fun j hj => (hf j hj).2) hf0
    (fun i hi => ⟨h3 i hi, htr.labels hl1 i hi⟩) (fun i hi => ⟨h4 i hi, hva.labels hl2 i hi⟩)
  obtain ⟨_, q2⟩ := htr.stats hT hl1
  have hpred : nc'.yPred = nc.yPred := by
    have := k2.yPred
    rw [q2, k1.yPred] at this
    injection this with this
    exact this.symm
  have hbin : ∀ {l l'}, Repeated D D' m src l l' → ∀ j b, Repeated D D' m src (inBin D j b l) (inBin D' j b l') :=
    fun hr j b => hr.filter _ _ fun i hi => by simp only [hr.bins i hi j]
  refine ⟨nc, nc', e1, e2, ?_, ?_, hpred, ?_, ?_, htr.impurity hT, htr.infoGain hT⟩
  · rw [k1.wTrain, k2.wTrain, sumW_real, sumW_real, htr.totalW]
  · rw [k1.wValid, k2.wValid, hagg, sumW_real, sumW_real, hva.totalW]
  · have a1 := k1.loss
    have a2 := k2.loss
    rw [hagg, hpred, hva.loss hT hl2 hl1 k1.yPred] at a2
    cases hc : c.aggregation with
    | true =>
      rw [hc, if_pos rfl] at a1 a2
      rw [a1] at a2
      injection a2 with a2
      exact a2.symm
    | false =>
      rw [hc] at a1 a2
      simp only [Bool.false_eq_true, if_false] at a1 a2
      rw [a1, a2]
  · intro f b hfl hb
    obtain ⟨hh, g1, g2⟩ := k1.hists f _ (List.getElem?_eq_getElem hfl)
    obtain ⟨hh', g3, g4⟩ := k2.hists f _ (List.getElem?_eq_getElem hfl)
    refine ⟨hh, hh', g1, g3, ?_, ?_, fun ha => ?_⟩
    · rw [g2.wTrain b hb, g4.wTrain b (by rw [hbins]; exact hb), sumW_real, sumW_real, (hbin htr _ b).totalW]
    · obtain ⟨y, y1, y2⟩ := g2.ySum b hb
      obtain ⟨y', y3, y4⟩ := g4.ySum b (by rw [hbins]; exact hb)
      rw [((hbin htr _ b).stats hT (fun i hi => hl1 i (List.mem_filter.1 hi).1)).1, y2] at y4
      injection y4 with y4
      rw [y1, y3, y4]
    · rw [g2.wValid ha b hb, g4.wValid (by rw [hagg]; exact ha) b (by rw [hbins]; exact hb), sumW_real, sumW_real,
        (hbin hva _ b).totalW]

/-- One row of weight 2 and one of weight 1, against three rows. -/
example : ∃ (c c' : Ctx ℝ) (D D' : Data ℝ) (m src : Nat → Nat), Holds c D ∧ Holds c' D' ∧ c'.aggregation = c.aggregation ∧
    c'.maxNBins = c.maxNBins ∧ Repeated D D' m src [0, 1] [0, 1, 2] ∧ Repeated D D' m src [] [] ∧
    (∀ j ∈ [0], j < D.d ∧ j < D'.d) ∧ (∀ i ∈ [0, 1], i < D.n ∧ ClassLabel 2 (D.y i)) ∧ ∀ i ∈ [0, 1, 2], i < D'.n := by
  have e1 : (do let b ← arrayToBitarray (fun _ => 0) 2 [[0, 1]]; return b.maxValues : M _) = .ok [1] := by decide +kernel
  have e2 : (do let b ← arrayToBitarray (fun _ => 0) 3 [[0, 1, 0]]; return b.maxValues : M _) = .ok [1] := by decide +kernel
  obtain ⟨b, h1, h2⟩ := holds_of_matrix (F := ℝ) (fun _ => 0) 2 [[0, 1]] [0, 1] [2, 1] (by norm_num) (by decide) (by decide)
    rfl rfl [false] rfl
  obtain ⟨b', h1', h2'⟩ := holds_of_matrix (F := ℝ) (fun _ => 0) 3 [[0, 1, 0]] [0, 1, 0] [1, 1, 1] (by norm_num) (by decide)
    (by decide) rfl rfl [false] rfl
  rw [h1, bind_ok] at e1
  rw [h1', bind_ok] at e2
  injection e1 with e1
  injection e2 with e2
  refine ⟨{ fba := b, y := [0, 1], w := [2, 1], maxFeatures := 1, minSplit := 2, minLeaf := 1, maxDepth := 10, aggregation := true, step := 1, isCategorical := [false] }, { fba := b', y := [0, 1, 0], w := [1, 1, 1], maxFeatures := 1, minSplit := 2, minLeaf := 1, maxDepth := 10, aggregation := true, step := 1, isCategorical := [false] }, _, _, fun i => if i = 0 then 2 else 1, fun i => if i = 2 then 0 else i,
    h2 _ rfl rfl rfl rfl, h2' _ rfl rfl rfl rfl, rfl, by simp only [Ctx.maxNBins, e1, e2], ?_, ?_, by simp [dataOf], ?_, by simp [dataOf]⟩
  · refine ⟨by decide, ?_, ?_, ?_, ?_⟩
    · intro i hi; simp at hi; rcases hi with rfl | rfl <;> simp [dataOf]
    · intro i hi; simp at hi; rcases hi with rfl | rfl | rfl <;> simp [dataOf]
    · intro i hi; simp at hi; rcases hi with rfl | rfl | rfl <;> simp [dataOf]
    · intro i hi j; simp at hi
      rcases hi with rfl | rfl | rfl <;> cases j <;> simp [dataOf]
  · exact ⟨by simp, by simp, by simp, by simp, by simp⟩
  · intro i hi; simp at hi; rcases hi with rfl | rfl <;> simp [dataOf, ClassLabel, Num.toNat]

end Verif
