import Verif.Spec.EndToEnd
import Verif.Proofs.EstSeeds
import Verif.Proofs.Balanced

/-! Predictions of a fitted forest, computed from the training data. -/
set_option linter.unusedSectionVars false
namespace Verif

open Spec

/-! ## Bootstrap -/

theorem genTV_explicit {draw : Nat → List Nat} {n : Nat} : ∀ {depth seed b}, generateTrainValid draw n depth seed = .ok b →
    ∃ draws, BootstrapOf draw n seed draws ∧ b = ⟨(List.range n).filter (fun i => decide (i ∈ draws)),
      (List.range n).filter (fun i => decide (i ∉ draws)), ((List.range n).filter (fun i => decide (i ∈ draws))).map draws.count⟩ := by
  intro depth
  induction depth with
  | zero => intro seed b h; cases h
  | succ depth ih =>
    intro seed b h
    rw [genTV_step] at h
    split at h
    · rename_i hall
      obtain ⟨draws, ⟨m, h1, h2, h3⟩, h4⟩ := ih h
      refine ⟨draws, ⟨m + 1, h1, h2, fun k hk => ?_⟩, h4⟩
      cases k with
      | zero => exact hall
      | succ k => exact h3 k (by omega)
    · rename_i hne
      injection h with h
      push Not at hne
      exact ⟨draw seed, ⟨0, rfl, hne, fun k hk => absurd hk (by omega)⟩, h.symm⟩

/-- The weights of a tree after the bootstrap. -/
theorem bootData_w (D : Data ℝ) (n : Nat) (draws : List Nat) (i : Nat) :
    (bootData D ⟨(List.range n).filter (fun i => decide (i ∈ draws)), (List.range n).filter (fun i => decide (i ∉ draws)),
      ((List.range n).filter (fun i => decide (i ∈ draws))).map draws.count⟩).w i =
      if i < n ∧ i ∈ draws then D.w i * draws.count i else D.w i := by
  have key : ∀ l : List Nat, (l.zip (l.map draws.count)).lookup i = if i ∈ l then some (draws.count i) else none := by
    intro l
    induction l with
    | nil => simp
    | cons a l ih =>
      rw [List.map_cons, List.zip_cons_cons, List.lookup_cons]
      by_cases h : i = a
      · subst h; simp
      · have hb : (i == a) = false := by simpa using h
        rw [hb, ih]
        simp [h]
  simp only [bootData, key, List.mem_filter, List.mem_range, decide_eq_true_eq]
  split
  · rename_i m hm
    split at hm
    · rename_i h
      injection hm with hm
      rw [if_pos h, ← hm]; rfl
    · cases hm
  · rename_i hm
    split at hm
    · cases hm
    · rename_i h
      rw [if_neg h]

theorem sum_filter_range (n : Nat) (p : Nat → Bool) (g : Nat → ℝ) :
    (((List.range n).filter p).map g).sum = ∑ i ∈ Finset.range n, if p i = true then g i else 0 := by
  induction n with
  | zero => simp
  | succ n ih =>
    rw [List.range_succ, List.filter_append, List.map_append, List.sum_append, ih, Finset.sum_range_succ]
    cases h : p n <;> simp [h]

section
variable {P : Type}

theorem drawn_sum (D : Data ℝ) (draws : List Nat) (wt : Nat → ℝ) (hw : ∀ i, i < D.n → D.w i = wt i) (arr : TreeArr ℝ P) (k : Nat) (f : Nat → ℝ) :
    ((Spec.routed arr D ((List.range D.n).filter fun i => decide (i ∈ draws)) k).map fun i =>
      (if i < D.n ∧ i ∈ draws then D.w i * draws.count i else D.w i) * f i).sum = Sample.drawnSum ⟨D.n, D.X, wt, draws⟩ arr k f := by
  classical
  unfold Spec.routed Sample.drawnSum
  rw [List.filter_filter, sum_filter_range]
  refine Finset.sum_congr rfl fun i hi => ?_
  have hi := Finset.mem_range.1 hi
  by_cases h1 : Visits arr (D.X i) k
  · by_cases h2 : i ∈ draws
    · have hi' : i < D.n := hi
      simp only [h1, h2, hi', hw i hi', decide_true, Bool.and_self, and_self, if_true]
      ring
    · simp [h1, h2, List.count_eq_zero_of_not_mem h2]
  · simp [h1]

theorem leftOut_sum (D : Data ℝ) (draws : List Nat) (wt : Nat → ℝ) (hw : ∀ i, i < D.n → D.w i = wt i) (arr : TreeArr ℝ P) (k : Nat) (f : Nat → ℝ) :
    ((Spec.routed arr D ((List.range D.n).filter fun i => decide (i ∉ draws)) k).map fun i =>
      (if i < D.n ∧ i ∈ draws then D.w i * draws.count i else D.w i) * f i).sum = Sample.leftOutSum ⟨D.n, D.X, wt, draws⟩ arr k f := by
  classical
  unfold Spec.routed Sample.leftOutSum
  rw [List.filter_filter, sum_filter_range]
  refine Finset.sum_congr rfl fun i hi => ?_
  have hi := Finset.mem_range.1 hi
  by_cases h1 : Visits arr (D.X i) k
  · by_cases h2 : i ∈ draws
    · simp [h1, h2]
    · simp [h1, h2, hw i hi]
  · simp [h1]

end

/-! ## Trees -/

section
variable {Y P G : Type} {T : Task ℝ Y P G} {c : Ctx ℝ} {D : Data ℝ} {lab : ℝ → Prop} {okP : P → Prop} {train valid : List Nat}
  {arr : TreeArr ℝ P} {w : Work G} {t : GTree ℝ Y P}

theorem pruning_leaves : ∀ (u : GTree ℝ Y P) (k : Nat), ∀ p ∈ prunings (idxTree u k), ∀ j ∈ p.leaves, ∃ v, SubAt u k v j := by
  intro u
  induction u with
  | leaf a =>
    intro k p hp j hj
    simp only [idxTree, prunings, List.mem_singleton] at hp
    subst hp
    simp only [Pruning.leaves, List.mem_singleton] at hj
    subst hj
    exact ⟨_, .refl _ _⟩
  | node a l r ihl ihr =>
    intro k p hp j hj
    simp only [idxTree, prunings, List.mem_cons, List.mem_flatMap, List.mem_map] at hp
    rcases hp with rfl | ⟨p1, h1, p2, h2, rfl⟩
    · simp only [Pruning.leaves, List.mem_singleton] at hj
      subst hj
      exact ⟨_, .refl _ _⟩
    · simp only [Pruning.leaves, List.mem_append] at hj
      rcases hj with hj | hj
      · obtain ⟨v, hv⟩ := ihl _ p1 h1 j hj; exact ⟨v, .left hv⟩
      · obtain ⟨v, hv⟩ := ihr _ p2 h2 j hj; exact ⟨v, .right hv⟩

theorem pruningAverage_eq (step : ℝ) (x : Nat → Nat) (val loss : Nat → ℝ) (hl : ∀ k u, SubAt t 0 u k → lossAt arr k = loss k) :
    pruningAverage arr step x (idxTree t 0) val = expAverage (idxTree t 0) step loss (Spec.rowGoes arr x) val := by
  have key : ∀ p ∈ prunings (idxTree t 0), pruningWeight arr step p = (1 / 2) ^ p.inner * Real.exp (-step * (p.leaves.map loss).sum) := by
    intro p hp
    unfold pruningWeight
    rw [List.map_congr_left fun j hj => by
      obtain ⟨v, hv⟩ := pruning_leaves t 0 p hp j hj
      exact hl j v hv]
  unfold pruningAverage expAverage
  rw [List.map_congr_left key, List.map_congr_left fun p hp => by rw [key p hp]]

theorem land_leafOf (h : Facts T c D lab okP train valid arr w t) (x : Nat → Nat) : ∀ (u : GTree ℝ Y P) (k : Nat), SubAt t 0 u k →
    (idxTree u k).land (Spec.rowGoes arr x) = leafOf x u k := by
  intro u
  induction u with
  | leaf a => intro k _; rfl
  | node a l r ihl ihr =>
    intro k hs
    simp only [idxTree, BTree.land, leafOf]
    rw [h.rowGoes hs, ihl _ (subAt_left hs), ihr _ (subAt_right hs)]

end

section
variable {G : Type} {R : Rng G} {argsort : List ℝ → List Nat} {c : Ctx ℝ} {D : Data ℝ} {gb : Garbage ℝ} {d : ℝ} {seed : Nat}
  {b : Boot} {w : List ℝ}

theorem binsOf_row {fba : FBA} {m : Nat} (hx : RowsOK fba m) {i : Nat} (hi : i < fba.nSamples) : ∀ j, j < m → fba.getValue i j = .ok (binsOf fba i j) := by
  intro j hj
  obtain ⟨v, hv⟩ := hx i hi j hj
  simp [binsOf, hv]

theorem mapM_range_eq {α : Type} {f : Nat → M α} {g : Nat → α} : ∀ {n : Nat}, (∀ i, i < n → f i = .ok (g i)) →
    (List.range n).mapM f = .ok ((List.range n).map g) := by
  intro n h
  refine mapM_eq_ok.2 ?_
  rw [List.forall₂_map_right_iff, List.forall₂_same]
  exact fun i hi => h i (List.mem_range.1 hi)

/-- Values of a classification tree. -/
theorem Built.class_value (ha : ArgsortPerm argsort) {n : Nat} {cr : Criterion} {s : CatStrategy} (hs : StrategyOK n s)
    {o : TreeObj ℝ (List ℝ) G} (hb : Built R (fun d => classifierTask R argsort n d cr s) c D (ClassLabel n) gb d seed o b w)
    {draws : List Nat} (hdr : b = ⟨(List.range D.n).filter (fun i => decide (i ∈ draws)),
      (List.range D.n).filter (fun i => decide (i ∉ draws)), ((List.range D.n).filter (fun i => decide (i ∈ draws))).map draws.count⟩)
    {lab : Nat → Nat} (hlab : ∀ i, i < D.n → D.y i = lab i) {wt : Nat → ℝ} (hw : ∀ i, i < D.n → D.w i = wt i) :
    ∃ sh, TreeOf o.arr 0 sh ∧ ∀ fba, RowsOK fba D.d → o.predict mixV fba = .ok ((List.range fba.nSamples).map fun i => (List.range n).map fun j =>
      treeValue ⟨o.arr, sh, draws⟩ c.aggregation c.step (Sample.logLoss ⟨D.n, D.X, wt, draws⟩ o.arr n d lab)
        (fun k => Sample.share ⟨D.n, D.X, wt, draws⟩ o.arr n d lab k j) (binsOf fba i)) := by
  obtain ⟨t, hF⟩ := fitted_of (classifier_safe R ha n d cr hs) hb.input hb.fit
  have hbw : ∀ i, (bootData D b).w i = if i < D.n ∧ i ∈ draws then D.w i * draws.count i else D.w i := by
    intro i; rw [hdr]; exact bootData_w D D.n draws i
  have hby : (bootData D b).y = D.y := rfl
  have hrt : ∀ l k, Spec.routed o.arr (bootData D b) l k = Spec.routed o.arr D l k := fun _ _ => rfl
  have hnode : ∀ k u, SubAt t 0 u k →
      u.root.nc.yPred = (List.range n).map (fun j => Sample.share ⟨D.n, D.X, wt, draws⟩ o.arr n d lab k j) ∧
      (c.aggregation = true → lossAt o.arr k = Sample.logLoss ⟨D.n, D.X, wt, draws⟩ o.arr n d lab k) := by
    intro k u hu
    obtain ⟨_, _, hu'⟩ := hF.facts.below hu
    obtain ⟨er1, er2⟩ := hF.facts.routed k u hu
    rw [hrt] at er1 er2
    obtain ⟨_, _, hok, _⟩ := hu'.ok.facts.stats
    have hl1 : ∀ i ∈ u.root.train, i < D.n ∧ ClassLabel n ((bootData D b).y i) := fun i hi => hu'.ok.facts.okTrain i hi
    have hl2 : ∀ i ∈ u.root.valid, i < D.n ∧ ClassLabel n ((bootData D b).y i) := fun i hi => hu'.ok.facts.okValid i hi
    have hfl : ∀ i, i < D.n → ⌊(bootData D b).y i⌋₊ = lab i := fun i hi => by rw [hby, hlab i hi, Nat.floor_natCast]
    have hcw : ∀ j, classW (bootData D b) u.root.train j =
        Sample.drawnSum ⟨D.n, D.X, wt, draws⟩ o.arr k (fun i => if lab i = j then 1 else 0) := by
      intro j
      rw [← drawn_sum D draws wt hw o.arr k, ← (by rw [er1, hdr] : u.root.train = Spec.routed o.arr D ((List.range D.n).filter fun i => decide (i ∈ draws)) k)]
      unfold classW
      have : ∀ l : List Nat, (∀ i ∈ l, i < D.n) → ((l.filter fun i => decide (⌊(bootData D b).y i⌋₊ = j)).map (bootData D b).w).sum =
          (l.map fun i => (if i < D.n ∧ i ∈ draws then D.w i * draws.count i else D.w i) * if lab i = j then 1 else 0).sum := by
        intro l hl
        induction l with
        | nil => rfl
        | cons a l ih =>
          have ih := ih fun i hi => hl i (by simp [hi])
          rw [List.filter_cons, List.map_cons, List.sum_cons, ← ih, hfl a (hl a (by simp))]
          by_cases h : lab a = j
          · simp [h, hbw]
          · simp [h]
      exact this _ fun i hi => (hl1 i hi).1
    have htw : totalW (bootData D b) u.root.train = Sample.drawnSum ⟨D.n, D.X, wt, draws⟩ o.arr k (fun _ => 1) := by
      rw [← drawn_sum D draws wt hw o.arr k, ← (by rw [er1, hdr] : u.root.train = Spec.routed o.arr D ((List.range D.n).filter fun i => decide (i ∈ draws)) k)]
      unfold totalW
      exact congrArg List.sum (List.map_congr_left fun i _ => by rw [hbw]; ring)
    have hp : u.root.nc.yPred = (List.range n).map (fun j => Sample.share ⟨D.n, D.X, wt, draws⟩ o.arr n d lab k j) := by
      have := hok.yPred
      rw [nodePred_class R fun i hi => (hl1 i hi).2] at this
      injection this with this
      rw [← this]
      unfold classPred
      exact List.map_congr_left fun j _ => by rw [hcw, htw]; rfl
    refine ⟨hp, fun hagg => ?_⟩
    have hloss := hok.loss
    rw [show ({ c with w := w } : Ctx ℝ).aggregation = true from hagg, if_pos rfl,
      nodeLoss_class R (fun i hi => (hl2 i hi).2) (by rw [hp]; simp)] at hloss
    injection hloss with hloss
    rw [hF.facts.lossAt hu, ← hloss]
    unfold Sample.logLoss
    rw [← leftOut_sum D draws wt hw o.arr k, ← (by rw [er2, hdr] : u.root.valid = Spec.routed o.arr D ((List.range D.n).filter fun i => decide (i ∉ draws)) k)]
    refine congrArg List.sum (List.map_congr_left fun i hi => ?_)
    have hlt : lab i < n := by
      have := (hl2 i hi).2
      unfold ClassLabel at this
      rw [← hfl i (hl2 i hi).1]; exact this
    rw [hfl i (hl2 i hi).1, hp, hbw]
    simp only [List.getD_eq_getElem?_getD, List.getElem?_map, List.getElem?_range hlt, Option.map_some, Option.getD_some]
    ring
  refine ⟨idxTree t 0, hF.facts.treeOf t 0 (.refl _ _), fun fba hx => ?_⟩
  unfold TreeObj.predict treePredict
  rw [hb.agg, hb.step]
  refine mapM_range_eq fun i hi => ?_
  have hrow := binsOf_row hx hi
  cases hagg : c.aggregation with
  | false =>
    have hleaf := (hnode _ _ (leafNode_sub (binsOf fba i) t 0)).1
    rw [GTree.root] at hleaf
    rw [predictRow_leaf hF.facts hrow, hleaf]
    simp only [treeValue, Bool.false_eq_true, if_false, land_leafOf hF.facts _ t 0 (.refl _ _)]
  | true =>
    have hlen : ∀ u j, SubAt t 0 u j → u.root.nc.yPred.length = n := fun u j hu => by rw [(hnode j u hu).1]; simp
    obtain ⟨k1, k2⟩ := aggOf_vec (step := c.step) (g := fun a => a.nc.yPred) (x := binsOf fba i) t 0 hlen
    rw [predictRow_agg hF.facts (hF.weights hagg) hrow]
    congr 1
    refine List.ext_getElem (by simp [k1]) fun j h1 h2 => ?_
    have hj : j < n := by simpa using h2
    have := k2 j hj
    rw [List.getD_eq_getElem?_getD, List.getElem?_eq_getElem h1, Option.getD_some] at this
    rw [this, List.getElem_map, List.getElem_range]
    simp only [treeValue, if_true]
    rw [← pruningAverage_eq (arr := o.arr) c.step (binsOf fba i) _ _ (fun k u hu => (hnode k u hu).2 hagg)]
    refine (hF.facts.average c.step _ fun k u hu => ?_).symm
    rw [(hnode k u hu).1]
    simp [hj]

/-- Values of a regression tree. -/
theorem Built.reg_value (ha : ArgsortPerm argsort)
    {o : TreeObj ℝ ℝ G} (hb : Built R (fun _ => regressorTask argsort) c D (fun _ => True) gb d seed o b w)
    {draws : List Nat} (hdr : b = ⟨(List.range D.n).filter (fun i => decide (i ∈ draws)),
      (List.range D.n).filter (fun i => decide (i ∉ draws)), ((List.range D.n).filter (fun i => decide (i ∈ draws))).map draws.count⟩)
    {y : Nat → ℝ} (hy : ∀ i, i < D.n → D.y i = y i) {wt : Nat → ℝ} (hw : ∀ i, i < D.n → D.w i = wt i) :
    ∃ sh, TreeOf o.arr 0 sh ∧ ∀ fba, RowsOK fba D.d → o.predict mixF fba = .ok ((List.range fba.nSamples).map fun i =>
      treeValue ⟨o.arr, sh, draws⟩ c.aggregation c.step (Sample.squareLoss ⟨D.n, D.X, wt, draws⟩ o.arr y)
        (Sample.average ⟨D.n, D.X, wt, draws⟩ o.arr y) (binsOf fba i)) := by
  obtain ⟨t, hF⟩ := fitted_of (regressor_safe ha) hb.input hb.fit
  have hbw : ∀ i, (bootData D b).w i = if i < D.n ∧ i ∈ draws then D.w i * draws.count i else D.w i := by
    intro i; rw [hdr]; exact bootData_w D D.n draws i
  have hby : (bootData D b).y = D.y := rfl
  have hrt : ∀ l k, Spec.routed o.arr (bootData D b) l k = Spec.routed o.arr D l k := fun _ _ => rfl
  have hnode : ∀ k u, SubAt t 0 u k → u.root.nc.yPred = Sample.average ⟨D.n, D.X, wt, draws⟩ o.arr y k ∧
      (c.aggregation = true → lossAt o.arr k = Sample.squareLoss ⟨D.n, D.X, wt, draws⟩ o.arr y k) := by
    intro k u hu
    obtain ⟨_, _, hu'⟩ := hF.facts.below hu
    obtain ⟨er1, er2⟩ := hF.facts.routed k u hu
    rw [hrt] at er1 er2
    obtain ⟨_, _, hok, _⟩ := hu'.ok.facts.stats
    have hl1 : ∀ i ∈ u.root.train, i < D.n := fun i hi => (hu'.ok.facts.okTrain i hi).1
    have hl2 : ∀ i ∈ u.root.valid, i < D.n := fun i hi => (hu'.ok.facts.okValid i hi).1
    have hp : u.root.nc.yPred = Sample.average ⟨D.n, D.X, wt, draws⟩ o.arr y k := by
      have := hok.yPred
      rw [nodePred_reg] at this
      injection this with this
      rw [← this]
      unfold mean Sample.average
      rw [← drawn_sum D draws wt hw o.arr k, ← drawn_sum D draws wt hw o.arr k,
        ← (by rw [er1, hdr] : u.root.train = Spec.routed o.arr D ((List.range D.n).filter fun i => decide (i ∈ draws)) k)]
      unfold totalW
      congr 1
      · exact congrArg List.sum (List.map_congr_left fun i hi => by rw [hbw, hby, hy i (hl1 i hi)])
      · exact congrArg List.sum (List.map_congr_left fun i _ => by rw [hbw]; ring)
    refine ⟨hp, fun hagg => ?_⟩
    have hloss := hok.loss
    rw [show ({ c with w := w } : Ctx ℝ).aggregation = true from hagg, if_pos rfl, nodeLoss_reg] at hloss
    injection hloss with hloss
    rw [hF.facts.lossAt hu, ← hloss]
    unfold Sample.squareLoss
    rw [← leftOut_sum D draws wt hw o.arr k, ← (by rw [er2, hdr] : u.root.valid = Spec.routed o.arr D ((List.range D.n).filter fun i => decide (i ∉ draws)) k)]
    exact congrArg List.sum (List.map_congr_left fun i hi => by rw [hbw, hby, hy i (hl2 i hi), hp])
  refine ⟨idxTree t 0, hF.facts.treeOf t 0 (.refl _ _), fun fba hx => ?_⟩
  unfold TreeObj.predict treePredict
  rw [hb.agg, hb.step]
  refine mapM_range_eq fun i hi => ?_
  have hrow := binsOf_row hx hi
  cases hagg : c.aggregation with
  | false =>
    have hleaf := (hnode _ _ (leafNode_sub (binsOf fba i) t 0)).1
    rw [GTree.root] at hleaf
    rw [predictRow_leaf hF.facts hrow, hleaf]
    simp only [treeValue, Bool.false_eq_true, if_false, land_leafOf hF.facts _ t 0 (.refl _ _)]
  | true =>
    rw [predictRow_agg hF.facts (hF.weights hagg) hrow]
    simp only [treeValue, if_true]
    rw [← pruningAverage_eq (arr := o.arr) c.step (binsOf fba i) _ _ (fun k u hu => (hnode k u hu).2 hagg),
      hF.facts.average (g := fun a => a.nc.yPred) c.step _ fun k u hu => ((hnode k u hu).1).symm]

end

end Verif
