import Verif.Proofs.Oracle
import Verif.Proofs.FullForest

/-! Losses of the trees of a fitted forest on their out-of-bag rows. -/
set_option linter.unusedSectionVars false
namespace Verif

open Spec

theorem rowWeight_nonneg {given : List ℝ} {balanced : Bool} {n : Nat} {lab : Nat → Nat} {i : Nat} (hg : ∀ w ∈ given, 0 ≤ w) :
    0 ≤ rowWeight given balanced n lab i := by
  unfold rowWeight
  refine mul_nonneg ?_ (by split <;> [(unfold balanceFactor; positivity); norm_num])
  rw [List.getD_eq_getElem?_getD]
  cases h : given[i]? with
  | none => simp
  | some w => exact hg w (List.mem_of_getElem? h)

theorem outOfBagLog_congr {S : Sample} {lab : Nat → Nat} {p q : Nat → Nat → ℝ} (h : ∀ i < S.n, p i (lab i) = q i (lab i)) :
    outOfBagLog S lab p = outOfBagLog S lab q :=
  Finset.sum_congr rfl fun i hi => by rw [h i (Finset.mem_range.1 (Finset.mem_filter.1 hi).1)]

theorem outOfBagSquare_congr {S : Sample} {y p q : Nat → ℝ} (h : ∀ i < S.n, p i = q i) : outOfBagSquare S y p = outOfBagSquare S y q :=
  Finset.sum_congr rfl fun i hi => by rw [h i (Finset.mem_range.1 (Finset.mem_filter.1 hi).1)]

theorem _root_.Verif.Spec.GrownIn.shape {P G : Type} {draw : Nat → List Nat} {n : Nat} {trees : List (TreeObj ℝ P G)} {seeds : List Nat} {t : Nat}
    {g : GrownTree P} (h : GrownIn draw n trees seeds t g) : TreeOf g.arr 0 g.shape := by
  obtain ⟨-, -, -, -, -, h, -⟩ := h
  exact h

theorem _root_.Verif.Spec.NearBestLog.of {P : Type} {S : Sample} {g : GrownTree P} {step dir : ℝ} {nC : Nat} {lab : Nat → Nat} {p : Nat → Nat → ℝ} (hstep : 0 < step)
    (hg : TreeOf g.arr 0 g.shape) (h : ∀ q ∈ prunings g.shape, outOfBagLog S lab p ≤
      outOfBagLog S lab (fun i => S.share g.arr nC dir lab (q.land (rowGoes g.arr (S.X i)))) + Real.log 2 / step * q.inner) :
    NearBestLog S g step dir nC lab p := by
  have h2 : 0 < Real.log 2 / step := div_pos (Real.log_pos (by norm_num)) hstep
  refine ⟨h, ?_, ?_⟩
  · obtain ⟨q, hq, h1, h0⟩ := prune_root hg
    refine (h q hq).trans (add_le_add (le_of_eq ?_) ?_)
    · exact outOfBagLog_congr fun i _ => by rw [h0, share_root]
    · have : (q.inner : ℝ) ≤ 1 := by exact_mod_cast h1
      exact mul_le_of_le_one_right h2.le this
  · obtain ⟨q, hq, h1, h0⟩ := prune_full g.shape
    refine (h q hq).trans (add_le_add (le_of_eq ?_) (by rw [h1]))
    exact outOfBagLog_congr fun i _ => by rw [h0, probValue, treeValue, if_neg (by simp)]

theorem _root_.Verif.Spec.NearBestSquare.of {P : Type} {S : Sample} {g : GrownTree P} {step : ℝ} {y p : Nat → ℝ} (hstep : 0 < step)
    (hg : TreeOf g.arr 0 g.shape) (h : ∀ q ∈ prunings g.shape, outOfBagSquare S y p ≤
      outOfBagSquare S y (fun i => S.average g.arr y (q.land (rowGoes g.arr (S.X i)))) + Real.log 2 / step * q.inner) :
    NearBestSquare S g step y p := by
  have h2 : 0 < Real.log 2 / step := div_pos (Real.log_pos (by norm_num)) hstep
  refine ⟨h, ?_, ?_⟩
  · obtain ⟨q, hq, h1, h0⟩ := prune_root hg
    refine (h q hq).trans (add_le_add (le_of_eq ?_) ?_)
    · exact outOfBagSquare_congr fun i _ => by rw [h0, average_root]
    · have : (q.inner : ℝ) ≤ 1 := by exact_mod_cast h1
      exact mul_le_of_le_one_right h2.le this
  · obtain ⟨q, hq, h1, h0⟩ := prune_full g.shape
    refine (h q hq).trans (add_le_add (le_of_eq ?_) (by rw [h1]))
    exact outOfBagSquare_congr fun i _ => by rw [h0, meanValue, treeValue, if_neg (by simp)]

section
variable {L V K G W N : Type} [LinearOrder L] [DecidableEq V] [DecidableEq N] [LinearOrder K] [Field K] [IsStrictOrderedRing K] [FloorSemiring K]

/-- The trees of a classifier with aggregation, their values on the training rows, and a bound of their loss. -/
theorem class_oracle {lib : Lib V K ℝ G W} {a : FitArgs N V} {y : List L} {s s' : World L V K ℝ (List ℝ) G W}
    (hlib : LibOK lib a.nRows) (hp : ParamsValid s.self (nCols a.X)) (hd : DataValid lib.conv a s y.length)
    (ht : a.targetsOK = true) (hrefit : s.self.ovr = true → s.self.fitted = true → 2 < y.dedup.length) (hst : StrategyOK y.dedup.length s.self.strategy)
    (hdir : 0 < s.self.dirichlet) (hw : ∀ w ∈ s.weights, 0 ≤ w) (hagg : s.self.aggregation = true) (hstep : 0 < s.self.step) (hml : 1 ≤ s.self.minLeaf)
    (hfit : fitClassifier lib a y s = (.ok (), s')) :
    ∃ train, ∃ g : Nat → GrownTree (List ℝ), s'.self.encode lib a.nRows a.X = .ok train ∧ AcceptedBy lib s'.self a.X ∧
      ∀ t o, s'.self.trees[t]? = some o → GrownIn (lib.boot a.nRows) a.nRows s'.self.trees s'.self.seeds t (g t) ∧
        ∃ u : Nat → Nat → ℝ, o.predict mixV train = .ok ((List.range a.nRows).map fun i =>
            (List.range (if staysOvr s.self y then 2 else (sortedUnique y).length)).map (u i)) ∧
          ∀ lab, lab = treeLabel (staysOvr s.self y) (classOf (sortedUnique y) y) (if staysOvr s.self y then t / s.self.nEstimators else 0) →
            (∀ i < a.nRows, lab i < if staysOvr s.self y then 2 else (sortedUnique y).length) ∧
            ∀ S : Sample, S = ⟨a.nRows, binsOf train, rowWeight (givenWeights a s) s.self.balanced a.nRows lab, (g t).draws⟩ → ∀ q ∈ prunings (g t).shape,
              outOfBagLog S lab u ≤ outOfBagLog S lab (fun i => S.share (g t).arr (if staysOvr s.self y then 2 else (sortedUnique y).length)
                s.self.dirichlet lab (q.land (rowGoes (g t).arr (S.X i)))) + Real.log 2 / s.self.step * q.inner := by
  rw [← sortedUnique_length] at hrefit hst
  obtain ⟨e0, o, he0, hfit', hfacts⟩ := fitClassifier_ok (okW := fun _ => True) hlib hp hd ht hrefit
    (fun _ h2 => by simp only [Num.le, Num.zero, decide_eq_true_eq] at h2; exact absurd h2.1 (not_le.2 hdir)) hst (fun k _ => by simp [Num.toNat, Num.ofNat])
    (fun _ _ => trivial)
  subst he0
  rw [hfit] at hfit'
  obtain ⟨-, rfl⟩ := Prod.mk.inj hfit'
  have hlen := weightsOf_length hd
  have hW := (weightsOf_sign (a := a) hw).1
  obtain ⟨train, htr, hval⟩ := FitFacts.class_values (e0 := preparedEst (withCategorical a.categorical s.self) y) rfl rfl hlib
    (strategy_tree hst _) hd.labels hlen hfacts
  obtain ⟨train', htr', hlim⟩ := hfacts.limits hlib hd.rows.2 (.classifier lib.rng _ _ _ hlib.argsort (strategy_tree hst _)) o
  obtain rfl : train' = train := Except.ok.inj (htr'.symm.trans htr)
  obtain ⟨cfg, enc, henc, -, -, -, -, -, hacc⟩ := hfacts.encoder
  obtain ⟨fba, hb, hrows, hx⟩ := hfacts.encode hd.rows.1 hd.good (fun c e h => by
    have := h.symm.trans henc
    injection this with this
    obtain ⟨rfl, rfl⟩ := Prod.mk.inj this
    exact hacc)
  obtain rfl : fba = train' := Except.ok.inj (hb.symm.trans htr)
  have hne : 0 < o.est.trees.length := by
    rw [hfacts.nTrees]
    refine lt_of_lt_of_le hp.estimators ?_
    change s.self.nEstimators ≤ if staysOvr s.self y then s.self.nEstimators * (sortedUnique y).length else s.self.nEstimators
    split
    · rename_i h
      simp only [staysOvr, Bool.and_eq_true, decide_eq_true_eq] at h
      exact Nat.le_mul_of_pos_right _ (by omega)
    · exact le_rfl
  obtain ⟨g, hg⟩ : ∃ g : Nat → GrownTree (List ℝ), ∀ t (h : t < o.est.trees.length), g t = (hval t h).choose :=
    ⟨fun t => if h : t < o.est.trees.length then (hval t h).choose else (hval 0 hne).choose, fun t h => dif_pos h⟩
  have hval' := fun t (h : t < o.est.trees.length) => by have := (hval t h).choose_spec; rw [← hg t h] at this; exact this
  refine ⟨fba, g, htr, ⟨cfg, enc, henc, hacc⟩, fun t ob hob => ?_⟩
  obtain ⟨hlt, rfl⟩ := List.getElem?_eq_some_iff.1 hob
  obtain ⟨g1, g2, ⟨seed, g3, g4⟩, g5⟩ := hval' t hlt
  refine ⟨⟨_, seed, hob, g3, g1, g2, g4⟩, _, by rw [g5 fba hx, hrows], fun lab hlab => ⟨fun i hi => ?_, fun S hS q hq => ?_⟩⟩
  · rw [hlab]
    exact treeLabel_lt (by rw [hd.labels]; exact hi)
  obtain ⟨seed', draws, lim, -, -, -, hl⟩ := hlim t _ hob
  rw [← g1] at hl
  have hpos : 0 < if staysOvr s.self y then 2 else (sortedUnique y).length := by
    have := treeLabel_lt (b := staysOvr s.self y) (k := 0) (y := y) (i := 0) (by rw [hd.labels]; exact hd.rows.1)
    omega
  have := oracle_log hl.1 (hl.hasFeatures hml) (S := S) hstep g2 (fun i _ => by rw [hS]; exact rowWeight_nonneg hW) hq hpos hdir lab
  simp only [treeValue, show (preparedEst (withCategorical a.categorical s.self) y).aggregation = true from hagg, if_true]
  subst hS hlab
  exact this

/-- The trees of a regressor with aggregation, their values on the training rows, and a bound of their loss. -/
theorem reg_oracle {lib : Lib V K ℝ G W} {a : FitArgs N V} {y : List ℝ} {s s' : World L V K ℝ ℝ G W}
    (hlib : LibOK lib a.nRows) (hp : ParamsValid s.self (nCols a.X)) (hd : DataValid lib.conv a s y.length)
    (hw : ∀ w ∈ s.weights, 0 ≤ w) (ho : s.self.ovr = false) (hagg : s.self.aggregation = true) (hstep : 0 < s.self.step) (hml : 1 ≤ s.self.minLeaf)
    (hfit : fitRegressor lib a y s = (.ok (), s')) :
    ∃ train, ∃ g : Nat → GrownTree ℝ, ∃ u : Nat → Nat → ℝ, s'.self.encode lib a.nRows a.X = .ok train ∧ s'.self.trees.length = s.self.nEstimators ∧
      s'.self.predictReg lib a.nRows a.X = .ok ((List.range a.nRows).map fun i => (∑ t ∈ Finset.range s.self.nEstimators, u t i) / s.self.nEstimators) ∧
      ∀ t o, s'.self.trees[t]? = some o → GrownIn (lib.boot a.nRows) a.nRows s'.self.trees s'.self.seeds t (g t) ∧
        o.predict mixF train = .ok ((List.range a.nRows).map (u t)) ∧
        ∀ S : Sample, S = ⟨a.nRows, binsOf train, fun i => (givenWeights a s).getD i 0, (g t).draws⟩ → ∀ q ∈ prunings (g t).shape,
          outOfBagSquare S (fun i => y.getD i 0) (u t) ≤ outOfBagSquare S (fun i => y.getD i 0) (fun i => S.average (g t).arr (fun i => y.getD i 0)
            (q.land (rowGoes (g t).arr (S.X i)))) + Real.log 2 / s.self.step * q.inner := by
  obtain ⟨e0, o, he0, hfit', hfacts⟩ := fitRegressor_ok hlib hp hd
  subst he0
  rw [hfit] at hfit'
  obtain ⟨-, rfl⟩ := Prod.mk.inj hfit'
  have hW := (weightsOf_sign (a := a) hw).1
  have hlen := weightsOf_length hd
  have hnt : o.est.trees.length = s.self.nEstimators := by
    have := hfacts.nTrees
    rwa [show (withCategorical a.categorical s.self).ovr = s.self.ovr from rfl, ho, if_neg (by simp)] at this
  obtain ⟨train, htr, hval⟩ := FitFacts.reg_values hlib hfacts
  obtain ⟨train', htr', hlim⟩ := hfacts.limits hlib hd.rows.2 (.regressor hlib.argsort) o
  obtain rfl : train' = train := Except.ok.inj (htr'.symm.trans htr)
  obtain ⟨cfg, enc, henc, -, -, -, -, -, hacc⟩ := hfacts.encoder
  obtain ⟨fba, hb, hrows, hx⟩ := hfacts.encode hd.rows.1 hd.good (fun c e h => by
    have := h.symm.trans henc
    injection this with this
    obtain ⟨rfl, rfl⟩ := Prod.mk.inj this
    exact hacc)
  obtain rfl : fba = train' := Except.ok.inj (hb.symm.trans htr)
  have hne : 0 < o.est.trees.length := by rw [hnt]; exact hp.estimators
  obtain ⟨g, hg⟩ : ∃ g : Nat → GrownTree ℝ, ∀ t (h : t < o.est.trees.length), g t = (hval t h).choose :=
    ⟨fun t => if h : t < o.est.trees.length then (hval t h).choose else (hval 0 hne).choose, fun t h => dif_pos h⟩
  have hval' := fun t (h : t < o.est.trees.length) => by have := (hval t h).choose_spec; rw [← hg t h] at this; exact this
  refine ⟨fba, g, fun t i => treeValue (g t) s.self.aggregation s.self.step
      (Sample.squareLoss ⟨a.nRows, binsOf fba, fun i => (weightsOf a s).getD i 0, (g t).draws⟩ (g t).arr fun i => y.getD i 0)
      (Sample.average ⟨a.nRows, binsOf fba, fun i => (weightsOf a s).getD i 0, (g t).draws⟩ (g t).arr fun i => y.getD i 0) (binsOf fba i),
    htr, hnt, ?_, fun t ob hob => ?_⟩
  · unfold Est.predictReg
    simp only
    rw [hb, bind_ok, reg_exact _ _ _ fun t h => (hval' t h).2.2.2 fba hx, hrows, hnt]
    rfl
  obtain ⟨hlt, rfl⟩ := List.getElem?_eq_some_iff.1 hob
  obtain ⟨g1, g2, ⟨seed, g3, g4⟩, g5⟩ := hval' t hlt
  refine ⟨⟨_, seed, hob, g3, g1, g2, g4⟩, by rw [g5 fba hx, hrows]; rfl, fun S hS q hq => ?_⟩
  obtain ⟨seed', draws, lim, -, -, -, hl⟩ := hlim t _ hob
  rw [← g1] at hl
  have := oracle_square hl.1 (hl.hasFeatures hml) (S := S) hstep g2 (fun i hi => by
    rw [hS] at hi ⊢
    exact getD_prop (Q := fun v => 0 ≤ v) hW (by rw [hlen]; exact hi)) hq (fun i => y.getD i 0)
  simp only [treeValue, hagg, if_true]
  subst hS
  exact this

end

end Verif
