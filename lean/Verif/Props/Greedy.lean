import Verif.Proofs.GreedyFit
import Verif.Props.Estimator

/-! # C70: the hyperparameters of a forest have their documented effect -/
set_option linter.unusedSectionVars false
namespace Verif

open Spec

section
variable {L V K F P G W N : Type} [LinearOrder L] [DecidableEq V] [DecidableEq N] [LinearOrder K] [Field K] [IsStrictOrderedRing K]
  [FloorSemiring K] [Num F]

/-- **C70** The forest of a classifier has `n_estimators` trees, or `n_estimators` for each class in one-versus-rest mode with more than two classes. All trees respect
`max_depth`, `min_samples_split`, `min_samples_leaf`, and the encoder follows `max_bins`, `subsample`, `cat_min_categories`, `categorical_features` and
`handle_unknown`. The arithmetic of the floats is arbitrary. -/
theorem C70_limits_classifier {lib : Lib V K F G W} {a : FitArgs N V} {y : List L} {s : World L V K F (List F) G W}
    (hlib : LibOK lib a.nRows) (hp : ParamsValid s.self (nCols a.X)) (hd : DataValid lib.conv a s y.length) (ht : a.targetsOK = true)
    (hrefit : s.self.ovr = true → s.self.fitted = true → 2 < y.dedup.length) (hst : StrategyOK y.dedup.length s.self.strategy)
    (hdir : s.self.aggregation = true → ¬(Num.le s.self.dirichlet Num.zero = true ∧ Num.le Num.zero s.self.dirichlet = true))
    (hF : ∀ k, k < max 2 y.dedup.length → Num.toNat (Num.ofNat k : F) = k) :
    ∃ s', fitClassifier lib a y s = (.ok (), s') ∧
      ForestLimits lib s.self s'.self a (if s.self.ovr = true ∧ 2 < y.dedup.length then s.self.nEstimators * y.dedup.length else s.self.nEstimators) ∧
      EncoderByRules lib s.self s'.self a := by
  rw [← sortedUnique_length] at hrefit hst hF ⊢
  obtain ⟨e0, o, he0, hfit, hfacts⟩ := fitClassifier_ok (okW := fun _ => True) hlib hp hd ht hrefit hdir hst hF (fun _ _ => trivial)
  subst he0
  refine ⟨_, hfit, ⟨?_, rfl, rfl, featuresTried_ok hd.columns hp.accepted o.hmf, ?_⟩, ?_⟩
  · have := hfacts.nTrees
    rw [show (preparedEst (withCategorical a.categorical s.self) y).ovr = staysOvr s.self y from rfl] at this
    rw [this]
    unfold staysOvr
    by_cases h : s.self.ovr = true ∧ 2 < (sortedUnique y).length
    · rw [if_pos h, if_pos (by rw [h.1, decide_eq_true h.2]; rfl)]; rfl
    · rw [if_neg h, if_neg (by simpa using h)]; rfl
  · exact hfacts.limits hlib hd.rows.2 (.classifier lib.rng _ _ _ hlib.argsort (strategy_tree hst _)) o
  · exact o.rules hlib hd.good (by have := hp.bins.1; exact (by omega : 1 ≤ s.self.maxBins)) hfacts

/-- **C70** The same for a regressor. -/
theorem C70_limits_regressor {lib : Lib V K F G W} {a : FitArgs N V} {y : List F} {s : World L V K F F G W}
    (hlib : LibOK lib a.nRows) (hp : ParamsValid s.self (nCols a.X)) (hd : DataValid lib.conv a s y.length) (ho : s.self.ovr = false) :
    ∃ s', fitRegressor lib a y s = (.ok (), s') ∧ ForestLimits lib s.self s'.self a s.self.nEstimators ∧ EncoderByRules lib s.self s'.self a := by
  obtain ⟨e0, o, he0, hfit, hfacts⟩ := fitRegressor_ok hlib hp hd
  subst he0
  refine ⟨_, hfit, ⟨?_, rfl, rfl, featuresTried_ok hd.columns hp.accepted o.hmf, ?_⟩, ?_⟩
  · have := hfacts.nTrees
    rwa [show (withCategorical a.categorical s.self).ovr = s.self.ovr from rfl, ho, if_neg (by simp)] at this
  · exact hfacts.limits hlib hd.rows.2 (.regressor hlib.argsort) o
  · exact o.rules hlib hd.good (by have := hp.bins.1; exact (by omega : 1 ≤ s.self.maxBins)) hfacts

end

section
variable {L V K P G W N : Type} [LinearOrder L] [DecidableEq V] [DecidableEq N] [LinearOrder K] [Field K] [IsStrictOrderedRing K] [FloorSemiring K]

/-- **C70** With exact arithmetic and positive weights, every tree of a classifier in multinomial mode (or with at most two classes) is grown greedily: the test of a
node is the one with the largest decrease of the impurity `criterion`, among the tests on `max_features` random features that leave `min_samples_leaf` rows on
both sides; for categorical features the bins are ordered by `cat_split_strategy`; a node is a leaf only when a limit applies, when it is pure, or when there is
no admissible test. -/
theorem C70_multinomial {lib : Lib V K ℝ G W} {a : FitArgs N V} {y : List L} {s : World L V K ℝ (List ℝ) G W}
    (hlib : LibOK lib a.nRows) (hs : ArgsortSorts lib.argsort) (hp : ParamsValid s.self (nCols a.X)) (hd : DataValid lib.conv a s y.length)
    (ht : a.targetsOK = true) (hrefit : s.self.ovr = true → s.self.fitted = true → 2 < y.dedup.length) (hst : StrategyOK y.dedup.length s.self.strategy)
    (hagg : s.self.aggregation = true → s.self.dirichlet ≠ 0) (hw : ∀ w ∈ s.weights, 0 < w) (hmode : s.self.ovr = false ∨ y.dedup.length ≤ 2) :
    ∃ s', fitClassifier lib a y s = (.ok (), s') ∧
      ForestGreedy lib s.self s'.self a (classImpurity y.dedup.length s.self.criterion) (strategyKeys y.dedup.length s.self.strategy)
        (fun _ i => classOf s'.self.classes y i) (fun _ => rowWeight (givenWeights a s) s.self.balanced a.nRows (classOf s'.self.classes y)) := by
  rw [← sortedUnique_length] at hrefit hst hmode ⊢
  have hov : staysOvr s.self y = false := by
    unfold staysOvr
    rcases hmode with h | h
    · rw [h]; rfl
    · rw [decide_eq_false (by omega), Bool.and_false]
  obtain ⟨e0, o, he0, hfit, hfacts⟩ := fitClassifier_ok (okW := fun _ => True) hlib hp hd ht hrefit
    (fun h h2 => by simp only [Num.le, Num.zero, decide_eq_true_eq] at h2; exact hagg h (le_antisymm h2.1 h2.2))
    hst (fun k _ => by simp [Num.toNat, Num.ofNat]) (fun _ _ => trivial)
  subst he0
  obtain ⟨train, htr, hall⟩ := FitFacts.greedy hlib hd.rows.2 (RealTask.classifier lib.rng _ _ _ hs (strategy_tree hst _)) o hfacts
    (prepared_entries hd.labels (weightsOf_length hd) ((weightsOf_sign fun v hv => (hw v hv).le).2 hw))
  refine ⟨_, hfit, train, htr, fun t ob hob => ?_⟩
  obtain ⟨c, D, seed, draws, lim, h1, h2, h3, h4, h5, h6⟩ := hall t ob hob
  rw [hov] at h5 h6
  exact ⟨c, D, seed, draws, lim, ⟨h1.1, h1.2, h1.3, h1.4, h1.5⟩, h2, h3, h4, h5, h6⟩

/-- **C70** In one-versus-rest mode with more than two classes tree `t` is grown greedily on the labels of class `t / n_estimators` against the rest. -/
theorem C70_ovr {lib : Lib V K ℝ G W} {a : FitArgs N V} {y : List L} {s : World L V K ℝ (List ℝ) G W}
    (hlib : LibOK lib a.nRows) (hs : ArgsortSorts lib.argsort) (hp : ParamsValid s.self (nCols a.X)) (hd : DataValid lib.conv a s y.length)
    (ht : a.targetsOK = true) (hst : StrategyOK y.dedup.length s.self.strategy)
    (hagg : s.self.aggregation = true → s.self.dirichlet ≠ 0) (hw : ∀ w ∈ s.weights, 0 < w) (hmode : s.self.ovr = true ∧ 2 < y.dedup.length) :
    ∃ s', fitClassifier lib a y s = (.ok (), s') ∧
      ForestGreedy lib s.self s'.self a (classImpurity 2 s.self.criterion) (strategyKeys 2 s.self.strategy)
        (fun t i => if classOf s'.self.classes y i = t / s.self.nEstimators then 1 else 0)
        (fun t => rowWeight (givenWeights a s) s.self.balanced a.nRows fun i => if classOf s'.self.classes y i = t / s.self.nEstimators then 1 else 0) := by
  rw [← sortedUnique_length] at hst hmode
  have hov : staysOvr s.self y = true := by
    unfold staysOvr
    rw [hmode.1, decide_eq_true hmode.2]; rfl
  obtain ⟨e0, o, he0, hfit, hfacts⟩ := fitClassifier_ok (okW := fun _ => True) hlib hp hd ht (fun _ _ => hmode.2)
    (fun h h2 => by simp only [Num.le, Num.zero, decide_eq_true_eq] at h2; exact hagg h (le_antisymm h2.1 h2.2))
    hst (fun k _ => by simp [Num.toNat, Num.ofNat]) (fun _ _ => trivial)
  subst he0
  obtain ⟨train, htr, hall⟩ := FitFacts.greedy hlib hd.rows.2 (RealTask.classifier lib.rng _ _ _ hs (strategy_tree hst _)) o hfacts
    (prepared_entries hd.labels (weightsOf_length hd) ((weightsOf_sign fun v hv => (hw v hv).le).2 hw))
  refine ⟨_, hfit, train, htr, fun t ob hob => ?_⟩
  obtain ⟨c, D, seed, draws, lim, h1, h2, h3, h4, h5, h6⟩ := hall t ob hob
  rw [hov] at h6
  have ho : (preparedOf lib s.self y (weightsOf a s)).ovr = true := hov
  rw [ho, hov] at h5
  simp only [if_true, treeLabel] at h5
  refine ⟨c, D, seed, draws, lim, ⟨h1.1, h1.2, h1.3, h1.4, h1.5⟩, h2, h3, h4, ⟨h5.1, h5.2, h5.3, fun i hi => ?_, h5.5⟩, h6⟩
  rw [h5.4 i hi]
  push_cast
  rfl

/-- **C70** The trees of a regressor are grown greedily for the weighted variance of the labels. -/
theorem C70_regressor {lib : Lib V K ℝ G W} {a : FitArgs N V} {y : List ℝ} {s : World L V K ℝ ℝ G W}
    (hlib : LibOK lib a.nRows) (hs : ArgsortSorts lib.argsort) (hp : ParamsValid s.self (nCols a.X)) (hd : DataValid lib.conv a s y.length)
    (hw : ∀ w ∈ s.weights, 0 < w) :
    ∃ s', fitRegressor lib a y s = (.ok (), s') ∧ ForestGreedy lib s.self s'.self a variance [[sumKey]]
      (fun _ i => y.getD i 0) (fun _ i => (givenWeights a s).getD i 0) := by
  obtain ⟨e0, o, he0, hfit, hfacts⟩ := fitRegressor_ok hlib hp hd
  subst he0
  have hpos := (weightsOf_sign (a := a) fun v hv => (hw v hv).le).2 hw
  obtain ⟨train, htr, hall⟩ := FitFacts.greedy (ly := fun _ i => y.getD i 0) (lw := fun _ i => (givenWeights a s).getD i 0) hlib hd.rows.2
    (RealTask.regressor hs) o hfacts (fun k yy w i h2 h3 hi => by
      have e2 := List.mem_singleton.1 (List.mem_of_getElem? h2)
      have e3 := List.mem_singleton.1 (List.mem_of_getElem? h3)
      rw [e2, e3]
      exact ⟨rfl, rfl, getD_prop (Q := fun v => 0 < v) hpos (by rw [weightsOf_length hd]; exact hi)⟩)
  refine ⟨_, hfit, train, htr, fun t ob hob => ?_⟩
  obtain ⟨c, D, seed, draws, lim, h1, h2, h3, h4, h5, h6⟩ := hall t ob hob
  exact ⟨c, D, seed, draws, lim, ⟨h1.1, h1.2, h1.3, h1.4, h1.5⟩, h2, h3, h4, h5, h6⟩

end

/-- The hypotheses of `C70_limits_classifier` hold in one-versus-rest mode with three classes: there are six trees, two features are tried per split, and the
numerical column, with six values and five bins, gets four thresholds. -/
example : ∃ s', fitClassifier estLib (estArgs (some true) true) [3, 3, 5, 5, 8, 8] (estWorld _ true false .none 0) = (.ok (), s') ∧
    s'.self.trees.length = 6 ∧ s'.self.maxFeatures_ = 2 ∧ ∃ cfg thr rest, s'.self.encoder = some (cfg, .num thr :: rest) ∧ thr.length = 4 := by
  obtain ⟨s', h1, ⟨h2, -, -, h3, -⟩, cfg, enc, rows, m, he, hrows, hm, hc, -⟩ := C70_limits_classifier (estLib_ok (n := 6) (by norm_num)) (estToy_valid _)
    (estData_valid (P := List ℝ) (ovr := true) (balanced := false) (cf := .none) (np := 0) (some true) true) (y := [3, 3, 5, 5, 8, 8]) rfl
    (fun _ h => by cases h) est_strategy (by intro _; norm_num [estWorld, estToy, Num.le, Num.zero])
    (fun k _ => by simp [Num.toNat, Num.ofNat])
  refine ⟨s', h1, h2, h3, ?_⟩
  obtain ⟨fc, hj, hty, hbin⟩ := hc 0 _ _ rfl
  have hnum : ¬∃ cs, fc = .cat cs := by
    rw [hty (by simp [declaration, estArgs])]
    simp only [MinCategories, estWorld, estToy] at hm
    subst hm
    simp only [ShouldBeCategorical, declaration, estArgs]
    decide
  cases fc with
  | cat cs => exact absurd ⟨cs, rfl⟩ hnum
  | num thr =>
    obtain ⟨xs, hxs, hthr⟩ := hbin thr rfl
    have hx : xs = [some 0, some 1, some 2, some 3, some 4, some 5] := by
      have : rows = [0, 1, 2, 3, 4, 5] := hrows
      rw [this] at hxs
      simp only [ValuesAt, List.forall₂_cons_left_iff, List.forall₂_nil_left_iff] at hxs
      simpa [estLib, exConv] using hxs
    have hl := hthr.count
    rw [hx, show nDistinct [some (0 : ℚ), some 1, some 2, some 3, some 4, some 5] = 6 from by decide] at hl
    obtain ⟨rest, rfl⟩ : ∃ rest, enc = .num thr :: rest := by
      cases enc with
      | nil => cases hj
      | cons x r => simp at hj; exact ⟨r, by rw [hj]⟩
    exact ⟨cfg, thr, rest, he, by simpa [estWorld, estToy] using hl⟩

/-- The hypotheses of `C70_limits_regressor` hold: without `randomized_depth` and `max_depth` there is no limit for the depth, and every node that is split has two
drawn rows and two other rows. -/
example : ∃ s' train, fitRegressor estLib (estArgs none false) realY (estWorld _ false false .none 4) = (.ok (), s') ∧
    s'.self.encode estLib 6 estX = .ok train ∧ s'.self.trees.length = 2 ∧
    ∀ ob ∈ s'.self.trees, ∃ draws, TreeLimits 2 1 none true 6 (binsOf train) draws ob.arr := by
  obtain ⟨s', h1, ⟨h2, -, -, -, train, h3, h4⟩, -⟩ := C70_limits_regressor (y := realY) (estLib_ok (n := 6) (by norm_num)) (estToy_valid _)
    (estData_valid (P := ℝ) (ovr := false) (balanced := false) (cf := .none) (np := 4) none false) rfl
  refine ⟨s', train, h1, h3, h2, fun ob hob => ?_⟩
  obtain ⟨t, ht⟩ := List.getElem?_of_mem hob
  obtain ⟨seed, draws, lim, -, -, hl, h⟩ := h4 t ob ht
  have : lim = none := hl
  subst this
  exact ⟨draws, h⟩

/-- The hypotheses of `C70_multinomial` hold with balanced weights: the trees are grown for the Gini index of three classes. -/
example : ∃ s', fitClassifier estLib (estArgs (some true) true) [3, 3, 5, 5, 8, 8] (estWorld _ false true .none 0) = (.ok (), s') ∧
    ForestGreedy estLib (estToy _ false true .none none) s'.self (estArgs (some true) true) (classImpurity 3 .gini) [[classKey 0, classKey 1, classKey 2]]
      (fun _ i => classOf s'.self.classes [3, 3, 5, 5, 8, 8] i) (fun _ => rowWeight realW true 6 (classOf s'.self.classes [3, 3, 5, 5, 8, 8])) :=
  C70_multinomial (estLib_ok (n := 6) (by norm_num)) realArgsort_sorts (estToy_valid _)
    (estData_valid (P := List ℝ) (ovr := false) (balanced := true) (cf := .none) (np := 0) (some true) true) (y := [3, 3, 5, 5, 8, 8]) rfl
    (fun _ h => by cases h) est_strategy (fun _ => by norm_num [estWorld, estToy]) realW_pos (.inl rfl)

/-- The hypotheses of `C70_ovr` hold: tree 5 is grown on the labels of the third class against the rest. -/
example : ∃ s' train, fitClassifier estLib (estArgs (some true) true) [3, 3, 5, 5, 8, 8] (estWorld _ true false .none 0) = (.ok (), s') ∧
    s'.self.encode estLib 6 estX = .ok train ∧ ∀ ob, s'.self.trees[5]? = some ob → ∃ c D draws lim,
      TreeData D 6 2 (binsOf train) (fun i => if classOf s'.self.classes [3, 3, 5, 5, 8, 8] i = 2 then 1 else 0)
        (rowWeight realW false 6 fun i => if classOf s'.self.classes [3, 3, 5, 5, 8, 8] i = 2 then 1 else 0) draws ∧
      Greedy (classImpurity 2 .gini) [[classKey 0, classKey 1]] c lim D (drawnRows 6 draws) (leftOutRows 6 draws) ob.arr := by
  obtain ⟨s', h1, train, h2, h3⟩ := C70_ovr (estLib_ok (n := 6) (by norm_num)) realArgsort_sorts (estToy_valid _)
    (estData_valid (P := List ℝ) (ovr := true) (balanced := false) (cf := .none) (np := 0) (some true) true) (y := [3, 3, 5, 5, 8, 8]) rfl
    est_strategy (fun _ => by norm_num [estWorld, estToy]) realW_pos ⟨rfl, by decide⟩
  refine ⟨s', train, h1, h2, fun ob hob => ?_⟩
  obtain ⟨c, D, seed, draws, lim, -, -, -, -, h4, h5⟩ := h3 5 ob hob
  exact ⟨c, D, draws, lim, h4, h5⟩

/-- The hypotheses of `C70_regressor` hold. -/
example : ∃ s', fitRegressor estLib (estArgs (some true) false) realY (estWorld _ false false .none 4) = (.ok (), s') ∧
    ForestGreedy estLib (estToy _ false false .none none) s'.self (estArgs (some true) false) variance [[sumKey]]
      (fun _ i => realY.getD i 0) (fun _ i => realW.getD i 0) :=
  C70_regressor (y := realY) (estLib_ok (n := 6) (by norm_num)) realArgsort_sorts (estToy_valid _)
    (estData_valid (P := ℝ) (ovr := false) (balanced := false) (cf := .none) (np := 4) (some true) false) realW_pos

end Verif
