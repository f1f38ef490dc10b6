import Verif.Proofs.Ctw
import Verif.Proofs.RealPred
import Verif.Proofs.ToyTree
import Verif.Props.Gain

/-! Properties C32, C33 and C34: aggregation with exponential weights. Floats are real numbers here. -/
namespace Verif

open Spec

variable {Y P G : Type} {R : Rng G} {T : Task ℝ Y P G} {lab : ℝ → Prop}
  {c : Ctx ℝ} {D : Data ℝ} {gb : Garbage ℝ} {seed : Nat} {train valid : List Nat} {arr : TreeArr ℝ P} {w : Work G}

/-- C32, regression. The aggregated prediction of a row with bins `x` is the average over all prunings of the tree. -/
theorem C32_regressor {argsort : List ℝ → List Nat} (ha : ArgsortPerm argsort) {arr : TreeArr ℝ ℝ}
    (h : FitInput c D (fun _ => True) train valid) (hagg : c.aggregation = true)
    (hf : fitTree R (regressorTask argsort) c gb seed train valid = .ok (arr, w)) :
    ∃ b, TreeOf arr 0 b ∧ ∀ (fba : FBA) (i : Nat) (x : Nat → Nat), (∀ j, j < D.d → fba.getValue i j = .ok (x j)) →
      predictRow mixF arr fba true c.step i = .ok (pruningAverage arr c.step x b fun k => arr.yPred.getD k 0) := by
  obtain ⟨t, hF⟩ := fitted_of (regressor_safe ha) h hf
  refine ⟨idxTree t 0, hF.facts.treeOf t 0 (.refl _ _), fun fba i x hx => ?_⟩
  rw [predictRow_agg hF.facts (hF.weights hagg) hx,
    hF.facts.average c.step x (g := fun a => a.nc.yPred)]
  intro k u hs
  rw [List.getD_eq_getElem?_getD, rd_ok.1 (hF.facts.pred k u hs)]
  rfl

/-- C32, classification, for every class. -/
theorem C32_classifier {argsort : List ℝ → List Nat} (ha : ArgsortPerm argsort) {n : Nat} {d : ℝ} {cr : Criterion}
    {s : CatStrategy} (hs : StrategyOK n s) {arr : TreeArr ℝ (List ℝ)}
    (h : FitInput c D (ClassLabel n) train valid) (hagg : c.aggregation = true)
    (hf : fitTree R (classifierTask R argsort n d cr s) c gb seed train valid = .ok (arr, w)) :
    ∃ b, TreeOf arr 0 b ∧ ∀ (fba : FBA) (i : Nat) (x : Nat → Nat), (∀ j, j < D.d → fba.getValue i j = .ok (x j)) →
      ∃ p, predictRow mixV arr fba true c.step i = .ok p ∧ p.length = n ∧
        ∀ k, k < n → p.getD k 0 = pruningAverage arr c.step x b fun j => (arr.yPred.getD j []).getD k 0 := by
  obtain ⟨t, hF⟩ := fitted_of (classifier_safe R ha n d cr hs) h hf
  refine ⟨idxTree t 0, hF.facts.treeOf t 0 (.refl _ _), fun fba i x hx => ?_⟩
  have hlen : ∀ u j, SubAt t 0 u j → u.root.nc.yPred.length = n := by
    intro u j hu
    obtain ⟨_, _, h2⟩ := hF.facts.below hu
    obtain ⟨_, _, h3, _⟩ := h2.ok.facts.stats
    exact h3.okP
  obtain ⟨k1, k2⟩ := aggOf_vec (step := c.step) (g := fun a => a.nc.yPred) (x := x) t 0 hlen
  refine ⟨_, predictRow_agg hF.facts (hF.weights hagg) hx _, k1, fun k hk => ?_⟩
  rw [k2 k hk, hF.facts.average c.step x (g := fun a => a.nc.yPred.getD k 0)]
  intro j u hu
  rw [List.getD_eq_getElem?_getD (l := arr.yPred), rd_ok.1 (hF.facts.pred j u hu)]
  rfl

/-- The tree of indices is unique, so the average in C32 is a function of the node table. -/
theorem treeOf_unique {k : Nat} {b b' : BTree} (h : TreeOf arr k b) (h' : TreeOf arr k b') : b = b' := by
  induction h generalizing b' with
  | leaf h1 h2 =>
    cases h' with
    | leaf h3 h4 => rfl
    | node h3 h4 =>
      have := h1.2.symm.trans h3.2
      injection this with this
      subst this
      rw [h2] at h4; exact absurd h4 (by simp)
  | node h1 h2 h3 h4 _ _ ihl ihr =>
    cases h' with
    | leaf h5 h6 =>
      have := h1.2.symm.trans h5.2
      injection this with this
      subst this
      rw [h2] at h6; exact absurd h6 (by simp)
    | node h5 h6 h7 h8 h9 h10 =>
      have := h1.2.symm.trans h5.2
      injection this with this
      subst this
      rw [h3] at h7
      rw [h4] at h8
      injection h7 with h7
      injection h8 with h8
      subst h7 h8
      rw [ihl h9, ihr h10]

example : ∃ (argsort : List ℝ → List Nat) (c : Ctx ℝ) (arr : TreeArr ℝ ℝ) (w : Work Nat) (n : Node ℝ), ArgsortPerm argsort ∧
    FitInput c realData (fun _ => True) realTrain realValid ∧ c.aggregation = true ∧
    fitTree toyRng (regressorTask argsort) c realGarbage 3 realTrain realValid = .ok (arr, w) ∧
    (∀ j, j < realData.d → c.fba.getValue 4 j = .ok (realData.X 4 j)) ∧ NodeAt arr 0 n ∧ n.isLeaf = false := by
  obtain ⟨c, arr, w, n, h1, _, _, h2, _, h3, h4⟩ := real_tree (RealTask.regressor (G := Nat) realArgsort_sorts) fun _ _ => trivial
  exact ⟨_, c, arr, w, n, realArgsort_sorts.1, h1, h2, h3, fun j hj => h1.holds.value 4 j (by decide) hj, h4⟩

example : ∃ (argsort : List ℝ → List Nat) (c : Ctx ℝ) (arr : TreeArr ℝ (List ℝ)) (w : Work Nat) (n : Node ℝ),
    ArgsortPerm argsort ∧ StrategyOK 2 .binary ∧ FitInput c realData (ClassLabel 2) realTrain realValid ∧ c.aggregation = true ∧
    fitTree toyRng (classifierTask toyRng argsort 2 (1 / 2) .gini .binary) c realGarbage 3 realTrain realValid = .ok (arr, w) ∧
    ValidTask (classifierTask toyRng argsort 2 (1 / 2 : ℝ) .gini .binary) (ClassLabel 2) ∧
    (∀ j, j < realData.d → c.fba.getValue 4 j = .ok (realData.X 4 j)) ∧ NodeAt arr 0 n ∧ n.isLeaf = false := by
  have hS : StrategyOK 2 .binary := by unfold StrategyOK; decide
  obtain ⟨c, arr, w, n, h1, _, _, h2, _, h3, h4⟩ := real_tree (RealTask.classifier (G := Nat) toyRng 2 (1 / 2) .gini (s := .binary)
    realArgsort_sorts hS) fun _ h => h
  exact ⟨_, c, arr, w, n, realArgsort_sorts.1, hS, h1, h2, h3, .classifier toyRng 2 _ _ realArgsort_sorts.1 hS,
    fun j hj => h1.holds.value 4 j (by decide) hj, h4⟩

/-- C33: `log_sum_2_exp` is exact. -/
theorem C33_log_sum (a b : ℝ) : logSum2Exp a b = Real.log ((Real.exp a + Real.exp b) / 2) := logSum2Exp_real a b

/-- C33: whatever the value of the exponential at positive arguments (an overflow, say), `log_sum_2_exp` is exact: it never
evaluates the exponential at a positive argument. -/
theorem C33_no_overflow (e : ℝ → ℝ) (he : ∀ x, x ≤ 0 → e x = Real.exp x) (a b : ℝ) :
    letI : Num ℝ := { realNum with exp := e }
    logSum2Exp a b = Real.log ((Real.exp a + Real.exp b) / 2) := by
  rw [← logSum2Exp_real]
  unfold logSum2Exp
  simp only [Num.lt, Num.sub]
  split
  · rename_i h
    have : b - a ≤ 0 := by have := of_decide_eq_true h; linarith
    simp only [Num.exp, he _ this]
    rfl
  · rename_i h
    have : a - b ≤ 0 := by
      have : a ≤ b := by simpa using h
      linarith
    simp only [Num.exp, he _ this]
    rfl

example : (fun x : ℝ => if x ≤ 0 then Real.exp x else -1) 1 ≠ Real.exp 1 ∧
    ∀ x : ℝ, x ≤ 0 → (fun x : ℝ => if x ≤ 0 then Real.exp x else -1) x = Real.exp x := by
  refine ⟨?_, fun x hx => by simp [hx]⟩
  have h1 : ¬((1 : ℝ) ≤ 0) := by norm_num
  simp only [h1, if_false]
  have := Real.exp_pos 1
  intro h0
  linarith

/-- C33. In a fitted tree: the log-weight of a leaf is `-step * loss`, that of an inner node is the logarithm of the mean of
the weight of its own loss and of the product of the weights of its children; equivalently it is the logarithm of the total
weight of the prunings below the node; and the aggregation coefficient of an inner node lies strictly between 0 and 1. -/
theorem C33_weights (hT : ValidTask T lab) (h : FitInput c D lab train valid) (hagg : c.aggregation = true)
    (hf : fitTree R T c gb seed train valid = .ok (arr, w)) {k : Nat} {n : Node ℝ} (hn : NodeAt arr k n) :
    (n.isLeaf = true → n.logW = some (-c.step * n.loss)) ∧
    (n.isLeaf = false → ∃ i j l r a b, n.left = some i ∧ n.right = some j ∧ NodeAt arr i l ∧ NodeAt arr j r ∧
      l.logW = some a ∧ r.logW = some b ∧
      n.logW = some (Real.log ((Real.exp (-c.step * n.loss) + Real.exp (a + b)) / 2)) ∧
      ∃ α, nodeAlpha c.step n = .ok α ∧ 0 < α ∧ α < 1) ∧
    ∃ b, TreeOf arr k b ∧ n.logW = some (Real.log ((prunings b).map (pruningWeight arr c.step)).sum) := by
  obtain ⟨_, _, hs⟩ := validTask_safe hT
  obtain ⟨t, hFi⟩ := fitted_of hs h hf
  have hF := hFi.facts
  have hW := hFi.weights hagg
  obtain ⟨u, hu⟩ := hF.ofNode hn
  have hlog : ∀ {j v m}, SubAt t 0 v j → NodeAt arr j m → m.logW = some (treeLogW c.step v) := by
    intro j v m hv hm
    obtain ⟨m', e1, e2⟩ := (hW.sub hv).root
    rw [hm.2] at e1
    injection e1 with e1
    rw [e1, e2]
  have hloss := hu.holds.isLeaf.2
  refine ⟨fun hl => ?_, fun hl => ?_, idxTree u k, hF.treeOf u k hu.sub, ?_⟩
  · rcases hu.shape with ⟨a, rfl, _⟩ | ⟨_, _, _, _, h0, _⟩
    · rw [hlog hu.sub hn, hloss]; rfl
    · rw [hl] at h0; exact absurd h0 (by simp)
  · rcases hu.shape with ⟨_, _, h0, _⟩ | ⟨a, l, r, rfl, _, hL, hR⟩
    · rw [hl] at h0; exact absurd h0 (by simp)
    · obtain ⟨nl, l1, _⟩ := hF.below (subAt_left hu.sub)
      obtain ⟨nr, r1, _⟩ := hF.below (subAt_right hu.sub)
      refine ⟨_, _, nl, nr, _, _, hL, hR, l1, r1, hlog (subAt_left hu.sub) l1, hlog (subAt_right hu.sub) r1, ?_,
        alphaOf c.step (.node a l r), ?_, alphaOf_mem c.step a l r⟩
      · rw [hlog hu.sub hn, hloss, treeLogW, logSum2Exp_real]; rfl
      · unfold nodeAlpha alphaOf
        rw [hlog hu.sub hn, hloss]
  · have := (hF.sums c.step (fun _ => 0) (g := fun _ => 0) (val := fun _ => 0) (fun _ _ _ => rfl) u k hu.sub).1
    rw [this, hlog hu.sub hn, expW, Real.log_exp]

/-- C34 with aggregation. The weighted depth is the average over all prunings of the depth of the leaf that contains the row,
and lies between 0 and the depth of the leaf of the tree that contains the row. Missing: trees fitted without aggregation,
see `C34_violated`. -/
theorem C34_weighted_depth_partial (hT : ValidTask T lab) (h : FitInput c D lab train valid) (hagg : c.aggregation = true)
    (hf : fitTree R T c gb seed train valid = .ok (arr, w)) (fba : FBA) (i : Nat) (x : Nat → Nat)
    (hx : ∀ j, j < D.d → fba.getValue i j = .ok (x j)) :
    ∃ v k n b, weightedDepthRow arr fba c.step i = .ok v ∧ Visits arr x k ∧ NodeAt arr k n ∧ n.isLeaf = true ∧ TreeOf arr 0 b ∧
      v = pruningAverage arr c.step x b (fun j => match arr.nodes[j]? with | some m => m.depth | none => 0) ∧
      0 ≤ v ∧ v ≤ n.depth := by
  obtain ⟨_, _, hs⟩ := validTask_safe hT
  obtain ⟨t, hFi⟩ := fitted_of hs h hf
  have hF := hFi.facts
  obtain ⟨v1, n, v2, v3⟩ := hF.leafOf_visits x t 0 (.refl _ _) .root
  have hdep : ∀ j v, SubAt t 0 v j → (fun j => match arr.nodes[j]? with | some m => (m.depth : ℝ) | none => 0) j =
      (v.root.rcd.depth : ℝ) := by
    intro j v hv
    obtain ⟨m, e1, e2⟩ := hF.below hv
    simp only [e1.2, e2.holds.fields.2.2.1]
  have hn : n.depth = (leafNode x t).rcd.depth := by
    obtain ⟨m, e1, e2⟩ := hF.below (leafNode_sub x t 0)
    have := e1.2.symm.trans v2.2
    injection this with this
    rw [← this, e2.holds.fields.2.2.1]
    rfl
  -- along the path
  have key : ∀ (u : GTree ℝ _ P) (k : Nat), SubAt t 0 u k →
      u.root.rcd.depth ≤ (leafNode x u).rcd.depth ∧
      0 ≤ aggOf c.step (fun a => (a.rcd.depth : ℝ)) mixF x u ∧
      aggOf c.step (fun a => (a.rcd.depth : ℝ)) mixF x u ≤ (leafNode x u).rcd.depth := by
    intro u
    induction u with
    | leaf a => exact fun k _ => ⟨le_refl _, by simp [aggOf], le_refl _⟩
    | node a l r ihl ihr =>
      intro k hk
      obtain ⟨a0, a1⟩ := alphaOf_mem c.step a l r
      have dl : l.root.rcd.depth = a.rcd.depth + 1 := by rw [(hF.child_left hk).rcd]; rfl
      have dr : r.root.rcd.depth = a.rcd.depth + 1 := by rw [(hF.child_right hk).rcd]; rfl
      have h0 : (0 : ℝ) ≤ a.rcd.depth := Nat.cast_nonneg _
      simp only [aggOf, mixF_real, leafNode, GTree.root]
      generalize alphaOf c.step (.node a l r) = α at a0 a1
      split
      · obtain ⟨i1, i2, i3⟩ := ihl _ (subAt_left hk)
        have i4 : (a.rcd.depth : ℝ) ≤ (leafNode x l).rcd.depth := by
          have : a.rcd.depth ≤ (leafNode x l).rcd.depth := by omega
          exact_mod_cast this
        refine ⟨by omega, by nlinarith, by nlinarith⟩
      · obtain ⟨i1, i2, i3⟩ := ihr _ (subAt_right hk)
        have i4 : (a.rcd.depth : ℝ) ≤ (leafNode x r).rcd.depth := by
          have : a.rcd.depth ≤ (leafNode x r).rcd.depth := by omega
          exact_mod_cast this
        refine ⟨by omega, by nlinarith, by nlinarith⟩
  obtain ⟨_, k2, k3⟩ := key t 0 (.refl _ _)
  refine ⟨_, _, n, idxTree t 0, weightedDepthRow_agg hF (hFi.weights hagg) hx, v1, v2, v3, hF.treeOf t 0 (.refl _ _),
    (hF.average c.step x hdep).symm, k2, ?_⟩
  rw [hn]; exact k3

section
attribute [local instance] toyNum

/-- C34 fails without aggregation: the weights are never computed, and the weighted depth reads them as NaN. A concrete
tree (with integers as floats: no arithmetic is involved before the read). -/
theorem C34_violated : (do
    let fba ← arrayToBitarray (fun _ => 0) 12 toyCols
    let (t, _) ← fitTree toyRng (regressorTask toyArgsort) { toyCtx fba with aggregation := false } toyGarbage 3 toyTrain toyValid
    weightedDepthRow t fba 1 0 : M Int) = .error .nanRead := by decide +kernel

end

end Verif
