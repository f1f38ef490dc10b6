import Verif.Spec.BestFit
import Verif.Proofs.OracleForest

/-! The values at the leaves of a tree are the best ones for the rows that were drawn for it. -/
set_option linter.unusedSectionVars false
namespace Verif

open Spec

section
variable {P : Type} {t : TreeArr ℝ P}

theorem land_mem_ends (goes : Nat → Bool) : ∀ b : BTree, b.land goes ∈ b.ends
  | .leaf k => by simp [BTree.land, BTree.ends]
  | .node k l r => by
    simp only [BTree.land, BTree.ends, Finset.mem_union]
    split
    · exact .inl (land_mem_ends goes l)
    · exact .inr (land_mem_ends goes r)

/-- A row visits a leaf exactly if it visits the root of the subtree and lands there. -/
theorem visits_leaf_iff (hw : WellFormed t) (hf : HasFeatures t) (x : Nat → Nat) {k : Nat} {b : BTree} (hb : TreeOf t k b) :
    ∀ j ∈ b.ends, Visits t x j ↔ Visits t x k ∧ b.land (rowGoes t x) = j := by
  induction hb with
  | leaf h1 h2 =>
    intro j hj
    simp only [BTree.ends, Finset.mem_singleton] at hj
    subst hj
    simp [BTree.land]
  | @node k n i i' l r h1 h2 h3 h4 _ _ ihl ihr =>
    intro j hj
    have g1 := visits_left_iff (x := x) hw hf h1 h2 h3
    have g2 := visits_right_iff (x := x) hw hf h1 h2 h4
    simp only [BTree.ends, Finset.mem_union] at hj
    simp only [BTree.land]
    constructor
    · intro hv
      rcases hj with hj | hj
      · obtain ⟨a, b⟩ := (ihl j hj).1 hv
        obtain ⟨c, d⟩ := g1.1 a
        exact ⟨c, by rw [if_pos d]; exact b⟩
      · obtain ⟨a, b⟩ := (ihr j hj).1 hv
        obtain ⟨c, d⟩ := g2.1 a
        exact ⟨c, by rw [if_neg (by rw [d]; simp)]; exact b⟩
    · rintro ⟨hv, hl⟩
      cases hg : rowGoes t x k with
      | true =>
        rw [hg, if_pos rfl] at hl
        exact (ihl j (hl ▸ land_mem_ends _ _)).2 ⟨g1.2 ⟨hv, hg⟩, hl⟩
      | false =>
        rw [hg, if_neg (by simp)] at hl
        exact (ihr j (hl ▸ land_mem_ends _ _)).2 ⟨g2.2 ⟨hv, hg⟩, hl⟩

variable {g : GrownTree P}

theorem drawnSum_leaf (hw : WellFormed g.arr) (hf : HasFeatures g.arr) (hb : TreeOf g.arr 0 g.shape) (S : Sample) {k : Nat} (hk : k ∈ g.shape.ends) (f : Nat → ℝ) :
    S.drawnSum g.arr k f = S.atLeaf g k f := by
  unfold Sample.drawnSum Sample.atLeaf
  rw [Finset.sum_filter]
  refine Finset.sum_congr rfl fun i _ => ?_
  have := visits_leaf_iff hw hf (S.X i) hb k hk
  have h2 : Visits g.arr (S.X i) k ↔ g.leafOf (S.X i) = k := this.trans ⟨fun h => h.2, fun h => ⟨.root, h⟩⟩
  by_cases h : g.leafOf (S.X i) = k
  · rw [if_pos (h2.2 h), if_pos h]
  · rw [if_neg (fun c => h (h2.1 c)), if_neg h]

/-- A sum over the drawn rows is the sum over the leaves. -/
theorem total_leaves (S : Sample) (g : GrownTree P) (f : Nat → ℝ) : S.total f = ∑ k ∈ g.shape.ends, S.atLeaf g k f :=
  (Finset.sum_fiberwise_of_maps_to (fun _ _ => land_mem_ends _ _) _).symm

theorem atLeaf_congr {S : Sample} {k : Nat} {f f' : Nat → ℝ} (h : ∀ i < S.n, g.leafOf (S.X i) = k → f i = f' i) : S.atLeaf g k f = S.atLeaf g k f' :=
  Finset.sum_congr rfl fun i hi => by
    rw [Finset.mem_filter, Finset.mem_range] at hi
    rw [h i hi.1 hi.2]

theorem atLeaf_nonneg {S : Sample} (hw : ∀ i < S.n, 0 ≤ S.w i) {k : Nat} {f : Nat → ℝ} (hf : ∀ i < S.n, 0 ≤ f i) : 0 ≤ S.atLeaf g k f :=
  Finset.sum_nonneg fun i hi => by
    rw [Finset.mem_filter, Finset.mem_range] at hi
    exact mul_nonneg (mul_nonneg (Nat.cast_nonneg _) (hw i hi.1)) (hf i hi.1)

/-- A leaf without weight contributes nothing. -/
theorem atLeaf_zero {S : Sample} (hw : ∀ i < S.n, 0 ≤ S.w i) {k : Nat} {u : Nat → ℝ} (hu : ∀ i < S.n, 0 ≤ u i) (h0 : S.atLeaf g k u = 0) {f : Nat → ℝ}
    (hf : ∀ i < S.n, u i = 0 → f i = 0) : S.atLeaf g k f = 0 := by
  refine Finset.sum_eq_zero fun i hi => ?_
  have := (Finset.sum_eq_zero_iff_of_nonneg (fun r hr => by
    rw [Finset.mem_filter, Finset.mem_range] at hr
    exact mul_nonneg (mul_nonneg (Nat.cast_nonneg _) (hw r hr.1)) (hu r hr.1))).1 h0 i hi
  rw [Finset.mem_filter, Finset.mem_range] at hi
  rcases mul_eq_zero.1 this with h | h
  · rw [h, zero_mul]
  · rw [hf i hi.1 h, mul_zero]

theorem leastSquares_of (hw : WellFormed g.arr) (hf : HasFeatures g.arr) (hb : TreeOf g.arr 0 g.shape) {S : Sample} (hS : ∀ i < S.n, 0 ≤ S.w i) (y p : Nat → ℝ)
    (hp : ∀ i < S.n, p i = S.average g.arr y (g.leafOf (S.X i))) : LeastSquares S g y p := by
  have hB : ∀ k ∈ g.shape.ends, S.atLeaf g k y = S.average g.arr y k * S.atLeaf g k fun _ => 1 := by
    intro k hk
    unfold Sample.average
    rw [drawnSum_leaf hw hf hb S hk, drawnSum_leaf hw hf hb S hk]
    by_cases h : S.atLeaf g k (fun _ => 1) = 0
    · rw [h, mul_zero]
      exact atLeaf_zero hS (fun _ _ => zero_le_one) h fun _ _ h => absurd h one_ne_zero
    · rw [div_mul_cancel₀ _ h]
  refine ⟨fun i hi j hj h => by rw [hp i hi, hp j hj, h], fun h => ?_, fun k => ?_⟩
  · rw [total_leaves S g, total_leaves S g]
    refine Finset.sum_le_sum fun k hk => ?_
    have h1 : S.atLeaf g k (fun i => (y i - h (g.leafOf (S.X i))) ^ 2) - S.atLeaf g k (fun i => (y i - p i) ^ 2) =
        (S.average g.arr y k - h k) * (2 * S.atLeaf g k y - (h k + S.average g.arr y k) * S.atLeaf g k fun _ => 1) := by
      unfold Sample.atLeaf
      rw [← Finset.sum_sub_distrib, Finset.mul_sum, Finset.mul_sum, ← Finset.sum_sub_distrib, Finset.mul_sum]
      refine Finset.sum_congr rfl fun i hi => ?_
      rw [Finset.mem_filter, Finset.mem_range] at hi
      beta_reduce
      rw [hp i hi.1, hi.2]
      ring
    rw [hB k hk] at h1
    have h2 := atLeaf_nonneg (g := g) (k := k) hS (f := fun _ => 1) fun _ _ => zero_le_one
    have h3 : 0 ≤ S.atLeaf g k (fun i => (y i - h (g.leafOf (S.X i))) ^ 2) - S.atLeaf g k (fun i => (y i - p i) ^ 2) := by
      rw [h1]
      have : (S.average g.arr y k - h k) * (2 * (S.average g.arr y k * S.atLeaf g k fun _ => 1) - (h k + S.average g.arr y k) * S.atLeaf g k fun _ => 1) =
          (S.average g.arr y k - h k) ^ 2 * S.atLeaf g k fun _ => 1 := by ring
      rw [this]
      exact mul_nonneg (sq_nonneg _) h2
    linarith
  · by_cases hk : k ∈ g.shape.ends
    · rw [hB k hk, atLeaf_congr (f' := fun _ => S.average g.arr y k) fun i hi h => by rw [hp i hi, h]]
      unfold Sample.atLeaf
      rw [Finset.mul_sum]
      exact Finset.sum_congr rfl fun i _ => by ring
    · have : (Finset.range S.n).filter (fun i => g.leafOf (S.X i) = k) = ∅ := Finset.filter_eq_empty_iff.2 fun i _ h => hk (h ▸ land_mem_ends _ _)
      unfold Sample.atLeaf
      rw [this, Finset.sum_empty, Finset.sum_empty]

/-- Gibbs' inequality: the normalised numbers have the largest weighted logarithm. -/
theorem gibbs_leaf {nC : Nat} {a h : Nat → ℝ} (ha : ∀ j < nC, 0 ≤ a j) (hh : ∀ j < nC, 0 < h j) (h1 : ∑ j ∈ Finset.range nC, h j ≤ 1) :
    ∑ j ∈ Finset.range nC, a j * -Real.log (a j / ∑ j ∈ Finset.range nC, a j) ≤ ∑ j ∈ Finset.range nC, a j * -Real.log (h j) := by
  obtain ⟨A, hA⟩ : ∃ A, A = ∑ j ∈ Finset.range nC, a j := ⟨_, rfl⟩
  rw [← hA]
  have hA0 : 0 ≤ A := hA ▸ Finset.sum_nonneg fun j hj => ha j (Finset.mem_range.1 hj)
  have key : ∀ j ∈ Finset.range nC, a j * -Real.log (a j / A) ≤ a j * -Real.log (h j) + (A * h j - a j) := by
    intro j hj
    have hj := Finset.mem_range.1 hj
    rcases (ha j hj).eq_or_lt with h0 | h0
    · rw [← h0]
      have := mul_nonneg hA0 (hh j hj).le
      simpa using this
    · have hAp : 0 < A := lt_of_lt_of_le h0 (hA ▸ Finset.single_le_sum (f := a) (fun i hi => ha i (Finset.mem_range.1 hi)) (Finset.mem_range.2 hj))
      have h2 := Real.log_le_sub_one_of_pos (x := A * h j / a j) (div_pos (mul_pos hAp (hh j hj)) h0)
      have h3 : Real.log (A * h j / a j) = Real.log (h j) - Real.log (a j / A) := by
        rw [Real.log_div (mul_pos hAp (hh j hj)).ne' h0.ne', Real.log_mul hAp.ne' (hh j hj).ne', Real.log_div h0.ne' hAp.ne']
        ring
      rw [h3] at h2
      have h4 := mul_le_mul_of_nonneg_left h2 h0.le
      rw [mul_sub, mul_sub, mul_div_cancel₀ _ h0.ne'] at h4
      linarith
  refine (Finset.sum_le_sum key).trans ?_
  rw [Finset.sum_add_distrib, Finset.sum_sub_distrib, ← Finset.mul_sum, ← hA]
  have := mul_le_mul_of_nonneg_left h1 hA0
  linarith

theorem penalised_leaves {S : Sample} {nC : Nat} {dir : ℝ} {lab : Nat → Nat} (hl : ∀ i < S.n, lab i < nC) (m : Nat → Nat → ℝ) :
    penalised S g nC dir lab m = ∑ k ∈ g.shape.ends, ∑ j ∈ Finset.range nC, (S.atLeaf g k (fun r => if lab r = j then 1 else 0) + dir) * -Real.log (m k j) := by
  unfold penalised
  rw [total_leaves S g, Finset.mul_sum, ← Finset.sum_add_distrib]
  refine Finset.sum_congr rfl fun k _ => ?_
  simp only [add_mul]
  rw [Finset.sum_add_distrib, ← Finset.mul_sum]
  congr 1
  unfold Sample.atLeaf
  simp only [Finset.sum_mul]
  rw [Finset.sum_comm]
  refine Finset.sum_congr rfl fun i hi => ?_
  rw [Finset.mem_filter, Finset.mem_range] at hi
  rw [Finset.sum_eq_single_of_mem (lab i) (Finset.mem_range.2 (hl i hi.1)) fun j _ h => by rw [if_neg (Ne.symm h), mul_zero, zero_mul], if_pos rfl, mul_one, hi.2]

theorem sum_atLeaf {S : Sample} {nC : Nat} {lab : Nat → Nat} (hl : ∀ i < S.n, lab i < nC) (k : Nat) :
    ∑ j ∈ Finset.range nC, S.atLeaf g k (fun r => if lab r = j then 1 else 0) = S.atLeaf g k fun _ => 1 := by
  unfold Sample.atLeaf
  rw [Finset.sum_comm]
  refine Finset.sum_congr rfl fun i hi => ?_
  rw [Finset.mem_filter, Finset.mem_range] at hi
  beta_reduce
  rw [Finset.sum_eq_single_of_mem (lab i) (Finset.mem_range.2 (hl i hi.1)) fun j _ h => by rw [if_neg (Ne.symm h), mul_zero], if_pos rfl]

theorem bestProba_of (hw : WellFormed g.arr) (hf : HasFeatures g.arr) (hb : TreeOf g.arr 0 g.shape) {S : Sample} (hS : ∀ i < S.n, 0 ≤ S.w i) {nC : Nat} {dir : ℝ}
    (hdir : 0 ≤ dir) {lab : Nat → Nat} (hl : ∀ i < S.n, lab i < nC) (p : Nat → Nat → ℝ)
    (hp : ∀ i < S.n, ∀ j < nC, p i j = S.share g.arr nC dir lab (g.leafOf (S.X i)) j) : BestProba S g nC dir lab p := by
  have hnn : ∀ k j, 0 ≤ S.atLeaf g k (fun r => if lab r = j then 1 else 0) := fun k j => atLeaf_nonneg hS fun _ _ => by split <;> norm_num
  have hshare : ∀ k ∈ g.shape.ends, ∀ j, S.share g.arr nC dir lab k j = (S.atLeaf g k (fun r => if lab r = j then 1 else 0) + dir) /
      ∑ j ∈ Finset.range nC, (S.atLeaf g k (fun r => if lab r = j then 1 else 0) + dir) := by
    intro k hk j
    unfold Sample.share
    rw [drawnSum_leaf hw hf hb S hk, drawnSum_leaf hw hf hb S hk, Finset.sum_add_distrib, sum_atLeaf hl, Finset.sum_const, Finset.card_range, nsmul_eq_mul]
  refine ⟨⟨S.share g.arr nC dir lab, hp, fun h h0 h1 => ?_⟩, fun i hi j hj => ?_⟩
  · rw [penalised_leaves hl, penalised_leaves hl]
    refine Finset.sum_le_sum fun k hk => ?_
    simp only [hshare k hk]
    exact gibbs_leaf (fun j _ => add_nonneg (hnn k j) hdir) (h0 k) (h1 k)
  · have hk : g.leafOf (S.X i) ∈ g.shape.ends := land_mem_ends _ _
    have hsum : S.atLeaf g (g.leafOf (S.X i)) (fun _ => 1) + nC * dir =
        ∑ j ∈ Finset.range nC, (S.atLeaf g (g.leafOf (S.X i)) (fun r => if lab r = j then 1 else 0) + dir) := by
      rw [Finset.sum_add_distrib, sum_atLeaf hl, Finset.sum_const, Finset.card_range, nsmul_eq_mul]
    rw [hp i hi j hj, hshare _ hk, hsum]
    by_cases h : ∑ j ∈ Finset.range nC, (S.atLeaf g (g.leafOf (S.X i)) (fun r => if lab r = j then 1 else 0) + dir) = 0
    · rw [h, zero_mul]
      exact ((Finset.sum_eq_zero_iff_of_nonneg fun j _ => add_nonneg (hnn _ j) hdir).1 h j (Finset.mem_range.2 hj)).symm
    · rw [mul_div_cancel₀ _ h]

end

section
variable {L V K G W N : Type} [LinearOrder L] [DecidableEq V] [DecidableEq N] [LinearOrder K] [Field K] [IsStrictOrderedRing K] [FloorSemiring K]

/-- The trees of a classifier without aggregation, and their values on the training rows. -/
theorem class_bestFit {lib : Lib V K ℝ G W} {a : FitArgs N V} {y : List L} {s s' : World L V K ℝ (List ℝ) G W}
    (hlib : LibOK lib a.nRows) (hp : ParamsValid s.self (nCols a.X)) (hd : DataValid lib.conv a s y.length)
    (ht : a.targetsOK = true) (hrefit : s.self.ovr = true → s.self.fitted = true → 2 < y.dedup.length) (hst : StrategyOK y.dedup.length s.self.strategy)
    (hdir : 0 ≤ s.self.dirichlet) (hw : ∀ w ∈ s.weights, 0 ≤ w) (hagg : s.self.aggregation = false) (hml : 1 ≤ s.self.minLeaf)
    (hfit : fitClassifier lib a y s = (.ok (), s')) :
    ∃ train, ∃ g : Nat → GrownTree (List ℝ), s'.self.encode lib a.nRows a.X = .ok train ∧ AcceptedBy lib s'.self a.X ∧
      ∀ t o, s'.self.trees[t]? = some o → GrownIn (lib.boot a.nRows) a.nRows s'.self.trees s'.self.seeds t (g t) ∧
        ∃ u : Nat → Nat → ℝ, o.predict mixV train = .ok ((List.range a.nRows).map fun i =>
            (List.range (if staysOvr s.self y then 2 else (sortedUnique y).length)).map (u i)) ∧
          ∀ lab, lab = treeLabel (staysOvr s.self y) (classOf (sortedUnique y) y) (if staysOvr s.self y then t / s.self.nEstimators else 0) →
            (∀ i < a.nRows, lab i < if staysOvr s.self y then 2 else (sortedUnique y).length) ∧
            ∀ S : Sample, S = ⟨a.nRows, binsOf train, rowWeight (givenWeights a s) s.self.balanced a.nRows lab, (g t).draws⟩ →
              BestProba S (g t) (if staysOvr s.self y then 2 else (sortedUnique y).length) s.self.dirichlet lab u := by
  rw [← sortedUnique_length] at hrefit hst
  obtain ⟨e0, o, he0, hfit', hfacts⟩ := fitClassifier_ok (okW := fun _ => True) hlib hp hd ht hrefit
    (fun h => by rw [hagg] at h; cases h) hst (fun k _ => by simp [Num.toNat, Num.ofNat])
    (fun _ _ => trivial)
  subst he0
  rw [hfit] at hfit'
  obtain ⟨-, rfl⟩ := Prod.mk.inj hfit'
  have hlen := weightsOf_length hd
  have hW := (weightsOf_sign (a := a) hw).1
  obtain ⟨train, htr, hval⟩ := FitFacts.class_values (e0 := preparedEst (withCategorical a.categorical s.self) y) rfl rfl hlib
    (strategy_tree hst _) hd.labels hlen hfacts
  obtain ⟨train', htr', hlim⟩ := hfacts.limits hlib hd.rows.2 (.classifier lib.rng _ _ _ hlib.argsort (strategy_tree hst _)) o
  obtain rfl : train' = train := Except.ok.inj (htr'.symm.trans htr)
  obtain ⟨cfg, enc, henc, -, -, -, -, -, hacc⟩ := hfacts.encoder
  obtain ⟨fba, hb, hrows, hx⟩ := hfacts.encode hd.rows.1 hd.good (fun c e h => by
    have := h.symm.trans henc
    injection this with this
    obtain ⟨rfl, rfl⟩ := Prod.mk.inj this
    exact hacc)
  obtain rfl : fba = train' := Except.ok.inj (hb.symm.trans htr)
  have hne : 0 < o.est.trees.length := by
    rw [hfacts.nTrees]
    refine lt_of_lt_of_le hp.estimators ?_
    change s.self.nEstimators ≤ if staysOvr s.self y then s.self.nEstimators * (sortedUnique y).length else s.self.nEstimators
    split
    · rename_i h
      simp only [staysOvr, Bool.and_eq_true, decide_eq_true_eq] at h
      exact Nat.le_mul_of_pos_right _ (by omega)
    · exact le_rfl
  obtain ⟨g, hg⟩ : ∃ g : Nat → GrownTree (List ℝ), ∀ t (h : t < o.est.trees.length), g t = (hval t h).choose :=
    ⟨fun t => if h : t < o.est.trees.length then (hval t h).choose else (hval 0 hne).choose, fun t h => dif_pos h⟩
  have hval' := fun t (h : t < o.est.trees.length) => by have := (hval t h).choose_spec; rw [← hg t h] at this; exact this
  refine ⟨fba, g, htr, ⟨cfg, enc, henc, hacc⟩, fun t ob hob => ?_⟩
  obtain ⟨hlt, rfl⟩ := List.getElem?_eq_some_iff.1 hob
  obtain ⟨g1, g2, ⟨seed, g3, g4⟩, g5⟩ := hval' t hlt
  refine ⟨⟨_, seed, hob, g3, g1, g2, g4⟩, _, by rw [g5 fba hx, hrows], fun lab hlab => ⟨fun i hi => ?_, fun S hS => ?_⟩⟩
  · rw [hlab]
    exact treeLabel_lt (by rw [hd.labels]; exact hi)
  obtain ⟨seed', draws, lim, -, -, -, hl⟩ := hlim t _ hob
  rw [← g1] at hl
  refine bestProba_of hl.1 (hl.hasFeatures hml) g2 (fun i _ => by rw [hS]; exact rowWeight_nonneg hW) hdir (fun i hi => ?_) _ fun i hi j hj => ?_
  · rw [hlab]
    exact treeLabel_lt (by rw [hd.labels]; rw [hS] at hi; exact hi)
  simp only [treeValue, show (preparedEst (withCategorical a.categorical s.self) y).aggregation = false from hagg, Bool.false_eq_true, if_false]
  subst hS hlab
  rfl

/-- The trees of a regressor without aggregation, and their values on the training rows. -/
theorem reg_bestFit {lib : Lib V K ℝ G W} {a : FitArgs N V} {y : List ℝ} {s s' : World L V K ℝ ℝ G W}
    (hlib : LibOK lib a.nRows) (hp : ParamsValid s.self (nCols a.X)) (hd : DataValid lib.conv a s y.length)
    (hw : ∀ w ∈ s.weights, 0 ≤ w) (ho : s.self.ovr = false) (hagg : s.self.aggregation = false) (hml : 1 ≤ s.self.minLeaf)
    (hfit : fitRegressor lib a y s = (.ok (), s')) :
    ∃ train, ∃ g : Nat → GrownTree ℝ, ∃ u : Nat → Nat → ℝ, s'.self.encode lib a.nRows a.X = .ok train ∧ s'.self.trees.length = s.self.nEstimators ∧
      s'.self.predictReg lib a.nRows a.X = .ok ((List.range a.nRows).map fun i => (∑ t ∈ Finset.range s.self.nEstimators, u t i) / s.self.nEstimators) ∧
      ∀ t o, s'.self.trees[t]? = some o → GrownIn (lib.boot a.nRows) a.nRows s'.self.trees s'.self.seeds t (g t) ∧
        o.predict mixF train = .ok ((List.range a.nRows).map (u t)) ∧
        ∀ S : Sample, S = ⟨a.nRows, binsOf train, fun i => (givenWeights a s).getD i 0, (g t).draws⟩ → LeastSquares S (g t) (fun i => y.getD i 0) (u t) := by
  obtain ⟨e0, o, he0, hfit', hfacts⟩ := fitRegressor_ok hlib hp hd
  subst he0
  rw [hfit] at hfit'
  obtain ⟨-, rfl⟩ := Prod.mk.inj hfit'
  have hW := (weightsOf_sign (a := a) hw).1
  have hlen := weightsOf_length hd
  have hnt : o.est.trees.length = s.self.nEstimators := by
    have := hfacts.nTrees
    rwa [show (withCategorical a.categorical s.self).ovr = s.self.ovr from rfl, ho, if_neg (by simp)] at this
  obtain ⟨train, htr, hval⟩ := FitFacts.reg_values hlib hfacts
  obtain ⟨train', htr', hlim⟩ := hfacts.limits hlib hd.rows.2 (.regressor hlib.argsort) o
  obtain rfl : train' = train := Except.ok.inj (htr'.symm.trans htr)
  obtain ⟨cfg, enc, henc, -, -, -, -, -, hacc⟩ := hfacts.encoder
  obtain ⟨fba, hb, hrows, hx⟩ := hfacts.encode hd.rows.1 hd.good (fun c e h => by
    have := h.symm.trans henc
    injection this with this
    obtain ⟨rfl, rfl⟩ := Prod.mk.inj this
    exact hacc)
  obtain rfl : fba = train' := Except.ok.inj (hb.symm.trans htr)
  have hne : 0 < o.est.trees.length := by rw [hnt]; exact hp.estimators
  obtain ⟨g, hg⟩ : ∃ g : Nat → GrownTree ℝ, ∀ t (h : t < o.est.trees.length), g t = (hval t h).choose :=
    ⟨fun t => if h : t < o.est.trees.length then (hval t h).choose else (hval 0 hne).choose, fun t h => dif_pos h⟩
  have hval' := fun t (h : t < o.est.trees.length) => by have := (hval t h).choose_spec; rw [← hg t h] at this; exact this
  refine ⟨fba, g, fun t i => treeValue (g t) s.self.aggregation s.self.step
      (Sample.squareLoss ⟨a.nRows, binsOf fba, fun i => (weightsOf a s).getD i 0, (g t).draws⟩ (g t).arr fun i => y.getD i 0)
      (Sample.average ⟨a.nRows, binsOf fba, fun i => (weightsOf a s).getD i 0, (g t).draws⟩ (g t).arr fun i => y.getD i 0) (binsOf fba i),
    htr, hnt, ?_, fun t ob hob => ?_⟩
  · unfold Est.predictReg
    simp only
    rw [hb, bind_ok, reg_exact _ _ _ fun t h => (hval' t h).2.2.2 fba hx, hrows, hnt]
    rfl
  obtain ⟨hlt, rfl⟩ := List.getElem?_eq_some_iff.1 hob
  obtain ⟨g1, g2, ⟨seed, g3, g4⟩, g5⟩ := hval' t hlt
  refine ⟨⟨_, seed, hob, g3, g1, g2, g4⟩, by rw [g5 fba hx, hrows]; rfl, fun S hS => ?_⟩
  obtain ⟨seed', draws, lim, -, -, -, hl⟩ := hlim t _ hob
  rw [← g1] at hl
  refine leastSquares_of hl.1 (hl.hasFeatures hml) g2 (fun i hi => ?_) _ _ fun i hi => ?_
  · rw [hS] at hi ⊢
    exact getD_prop (Q := fun v => 0 ≤ v) hW (by rw [hlen]; exact hi)
  simp only [treeValue, hagg, Bool.false_eq_true, if_false]
  subst hS
  rfl

end

end Verif
