import Verif.Proofs.Life
import Verif.Proofs.EstToy
import Verif.Props.FullTree

/-! # C99: attributes assigned after `fit` -/
set_option linter.unusedSectionVars false
namespace Verif

open Spec

section
variable {L V K G W N : Type} [LinearOrder L] [DecidableEq V] [DecidableEq N] [LinearOrder K] [Field K] [IsStrictOrderedRing K] [FloorSemiring K]

/-- **C99** A classifier is fitted, then values are assigned to its attributes in any order, and some of the assignments raise exceptions that the caller catches. With
exact arithmetic the estimator then gives the same answers as one that is fitted, on the same data and with the attributes it had at the time of `fit`, with the last
accepted values of `step` and `dirichlet`: no other assignment has an effect on a fitted classifier. (With aggregation, `fit` does not accept `dirichlet=0`.) -/
theorem C99_classifier {lib : Lib V K ℝ G W} {a : FitArgs N V} {y : List L} {s : World L V K ℝ (List ℝ) G W}
    (hlib : LibOK lib a.nRows) (hp : ParamsValid s.self (nCols a.X)) (hd : DataValid lib.conv a s y.length) (ht : a.targetsOK = true)
    (hrefit : s.self.ovr = true → s.self.fitted = true → 2 < y.dedup.length) (hst : StrategyOK y.dedup.length s.self.strategy)
    (hdir : s.self.aggregation = true → s.self.dirichlet ≠ 0) (hist : List (ClsAssign ℝ K))
    (hlast : s.self.aggregation = true → lastAcceptedDirichlet s.self.dirichlet hist ≠ 0) :
    ∃ s1 s2, fitClassifier lib a y s = (.ok (), s1) ∧
      fitClassifier lib a y { s with self := { s.self with
        step := lastPositiveStep s.self.step (hist.filterMap baseOf), dirichlet := lastAcceptedDirichlet s.self.dirichlet hist } } = (.ok (), s2) ∧
      SameClassifier lib (attempts (Est.assignCls lib) hist s1.self) s2.self ∧
      (attempts (Est.assignCls lib) hist s1.self).step = s2.self.step ∧ (attempts (Est.assignCls lib) hist s1.self).dirichlet = s2.self.dirichlet := by
  rw [← sortedUnique_length] at hrefit hst
  have hd0 : ∀ {d : ℝ}, d ≠ 0 → ¬(Num.le d Num.zero = true ∧ Num.le Num.zero d = true) := by
    intro d h0 h
    simp only [Num.le, Num.zero, decide_eq_true_eq] at h
    exact h0 (le_antisymm h.1 h.2)
  obtain ⟨e0, o, he0, hfit, hfacts⟩ := fitClassifier_ok (okW := fun _ => True) hlib hp hd ht hrefit (fun h => hd0 (hdir h)) hst
    (fun k _ => by simp [Num.toNat, Num.ofNat]) (fun _ _ => trivial)
  obtain ⟨e0', o', he0', hfit', hfacts'⟩ := fitClassifier_ok (s := { s with self := { s.self with
      step := lastPositiveStep s.self.step (hist.filterMap baseOf), dirichlet := lastAcceptedDirichlet s.self.dirichlet hist } }) (okW := fun _ => True) hlib
    ⟨hp.1, hp.2, hp.3, hp.4, hp.5, hp.6, hp.7⟩ ⟨hd.1, hd.2, hd.3, hd.4, hd.5, hd.6, hd.7⟩ ht hrefit (fun h => hd0 (hlast h)) hst
    (fun k _ => by simp [Num.toNat, Num.ofNat]) (fun _ _ => trivial)
  subst he0 he0'
  have hper : o.est.nClassesPerTree = if staysOvr s.self y then 2 else (sortedUnique y).length := rfl
  obtain ⟨q1, q2, q3, ts0, q4, q5⟩ := attempts_cls (lib := lib) (e1 := o.est) (fitAll := o.fitAll) (cr := s.self.criterion) (str := s.self.strategy)
    (fun v hts hsame => o.fitAll_change hlib (strategy_tree hst _) rfl hfacts v hts hsame) hist
    (e := o.est) ⟨rfl, rfl, rfl, rfl, rfl, rfl, rfl, rfl, rfl, rfl, rfl⟩ o.htrees (SameTree.all _)
  obtain ⟨r1, r2⟩ := o.refit o' q4
  exact ⟨_, _, hfit, hfit', (q1.trans r2).classifier (by rw [r1]; exact q5), q2, q3⟩

end

section
variable {L V K F G W N : Type} [LinearOrder L] [DecidableEq V] [DecidableEq N] [LinearOrder K] [Field K] [IsStrictOrderedRing K] [FloorSemiring K] [Num F]

/-- **C99** The same for a regressor, which has no `dirichlet`, with any arithmetic in which two equal numbers are the same number (or both zero). -/
theorem C99_regressor {lib : Lib V K F G W} {a : FitArgs N V} {y : List F} {s : World L V K F F G W} (hcmp : CompareOK F)
    (hlib : LibOK lib a.nRows) (hp : ParamsValid s.self (nCols a.X)) (hd : DataValid lib.conv a s y.length) (hs : Num.le s.self.step Num.zero = false)
    (hist : List (Assign F K)) :
    ∃ s1 s2, fitRegressor lib a y s = (.ok (), s1) ∧
      fitRegressor lib a y { s with self := { s.self with step := lastPositiveStep s.self.step hist } } = (.ok (), s2) ∧
      SameRegressor lib (attempts Est.assign hist s1.self) s2.self ∧ (attempts Est.assign hist s1.self).step = s2.self.step ∧
      (attempts Est.assign hist s1.self).trees = s2.self.trees := by
  obtain ⟨e0, o, he0, hfit, hfacts⟩ := fitRegressor_ok (y := y) hlib hp hd
  obtain ⟨e0', o', he0', hfit', hfacts'⟩ := fitRegressor_ok (y := y) (s := { s with self := { s.self with step := lastPositiveStep s.self.step hist } }) hlib
    ⟨hp.1, hp.2, hp.3, hp.4, hp.5, hp.6, hp.7⟩ ⟨hd.1, hd.2, hd.3, hd.4, hd.5, hd.6, hd.7⟩
  subst he0 he0'
  obtain ⟨q1, q2, q4⟩ := attempts_step (e1 := o.est) (fitAll := fun st => o.fitAll st s.self.dirichlet)
    (fun v hst hts => o.fitAll_step hlib (fun _ => .regressor hlib.argsort) hcmp hfacts v hst hts) hist
    (e := o.est) ⟨rfl, rfl, rfl, rfl, rfl, rfl, rfl, rfl, rfl, rfl, rfl⟩ hs o.htrees
  obtain ⟨r1, r2⟩ := o.refit o' q4
  exact ⟨_, _, hfit, hfit', (q1.trans r2).regressor r1.symm, q2, r1.symm⟩

end

section
variable {L V K F G W N : Type} [LinearOrder L] [DecidableEq V] [DecidableEq N] [LinearOrder K] [Field K] [IsStrictOrderedRing K] [FloorSemiring K] [Num F]

/-- **C99** The attribute `n_features_in_` is not a hyperparameter but can be assigned: a classifier, fitted or not, takes any number from one on, after which
`predict_proba_trees` rejects every dataset with another number of columns, while `predict_proba` still answers as before. -/
theorem C99_nFeaturesIn {lib : Lib V K F G W} (e : Est L V K F (List F) G) {n : Int} (hn : 1 ≤ n) :
    ∃ e', Est.setNFeaturesIn n e = (.ok (), e') ∧ (∀ (m : Nat) (X : Dataset N V), (nCols X : Int) ≠ n → e'.predictProbaTrees lib m X = .error .valueError) ∧
      ∀ eps (m : Nat) (X : Dataset N V), e'.predictProba lib eps m X = e.predictProba lib eps m X := by
  refine ⟨{ e with nFeatures := n.toNat }, by simp only [Est.setNFeaturesIn, Est.setIf, hn, decide_true, if_true], fun m X hX => ?_, fun _ _ _ => rfl⟩
  have : X.nFeatures ≠ n.toNat := by
    intro h
    apply hX
    have h' : nCols X = n.toNat := by cases X <;> exact h
    omega
  unfold Est.predictProbaTrees Est.checkNFeatures
  cases e.fitted <;> simp [this, bind, Except.bind]

end

/-- A history: accepted and rejected values of `step` and `dirichlet`, accepted assignments that have no effect, and assignments that a fitted forest rejects. -/
noncomputable def lifeHist : List (ClsAssign ℝ ℚ) :=
  [.dirichlet 2, .base (.step (-1)), .base (.step 3), .dirichlet (-4), .criterion .entropy, .base (.maxDepth (some 2)), .base (.maxDepth (some 1)), .multiclass true,
    .catSplitStrategy .all, .base (.nEstimators 7), .base (.aggregation false), .classWeight false, .base (.randomState (.int 5)), .classes]

theorem lifeHist_step (v : ℝ) : lastPositiveStep v (lifeHist.filterMap baseOf) = 3 := by
  simp only [lifeHist, List.filterMap_cons, baseOf, List.filterMap_nil, lastPositiveStep, Num.le, Num.zero]
  norm_num

theorem lifeHist_dirichlet (v : ℝ) : lastAcceptedDirichlet v lifeHist = 2 := by
  simp [lifeHist, lastAcceptedDirichlet, Num.lt, Num.zero]

/-- The hypotheses of `C99_classifier` hold: three classes, balanced weights, aggregation, a categorical and a numerical column. -/
example : ∃ s1 s2 : World Nat Nat ℚ ℝ (List ℝ) Nat Nat,
    fitClassifier estLib (estArgs none false) [3, 3, 5, 5, 8, 8] (estWorld _ false true .none 0) = (.ok (), s1) ∧
    fitClassifier estLib (estArgs none false) [3, 3, 5, 5, 8, 8]
      { estWorld (List ℝ) false true .none 0 with self := { (estWorld (List ℝ) false true .none 0).self with step := 3, dirichlet := 2 } } = (.ok (), s2) ∧
    SameClassifier estLib (attempts (Est.assignCls estLib) lifeHist s1.self) s2.self := by
  have hd := estData_valid (P := List ℝ) (ovr := false) (balanced := true) (cf := .none) (np := 0) none false
  have hp := estToy_valid (P := List ℝ) (ovr := false) (balanced := true) (cf := .none) (sub := none) 2
  have hlib : LibOK estLib (estArgs none false).nRows := estLib_ok (n := 6) (by norm_num)
  obtain ⟨s1, s2, h1, h2, h3, -⟩ := C99_classifier (s := estWorld (List ℝ) false true .none 0) (y := [3, 3, 5, 5, 8, 8]) hlib hp hd rfl (fun h _ => by cases h)
    est_strategy (fun _ => by norm_num [estWorld, estToy]) lifeHist (fun _ => by rw [lifeHist_dirichlet]; norm_num)
  rw [lifeHist_step, lifeHist_dirichlet] at h2
  exact ⟨s1, s2, h1, h2, h3⟩

/-- The hypotheses of `C99_classifier` hold in one-versus-rest mode. -/
example : ∃ s1 s2 : World Nat Nat ℚ ℝ (List ℝ) Nat Nat,
    fitClassifier estLib (estArgs none false) [3, 3, 5, 5, 8, 8] (estWorld _ true false .none 0) = (.ok (), s1) ∧
    SameClassifier estLib (attempts (Est.assignCls estLib) lifeHist s1.self) s2.self ∧ s2.self.step = 3 ∧ s2.self.dirichlet = 2 := by
  have hd := estData_valid (P := List ℝ) (ovr := true) (balanced := false) (cf := .none) (np := 0) none false
  have hp := estToy_valid (P := List ℝ) (ovr := true) (balanced := false) (cf := .none) (sub := none) 2
  have hlib : LibOK estLib (estArgs none false).nRows := estLib_ok (n := 6) (by norm_num)
  obtain ⟨s1, s2, h1, h2, h3, h4, h5⟩ := C99_classifier (s := estWorld (List ℝ) true false .none 0) (y := [3, 3, 5, 5, 8, 8]) hlib hp hd rfl (fun _ _ => by decide)
    est_strategy (fun _ => by norm_num [estWorld, estToy]) lifeHist (fun _ => by rw [lifeHist_dirichlet]; norm_num)
  obtain ⟨e0, o, he0, hfit, -⟩ := fitClassifier_ok (s := { estWorld (List ℝ) true false .none 0 with self := { (estWorld (List ℝ) true false .none 0).self with step := 3, dirichlet := 2 } })
    (y := [3, 3, 5, 5, 8, 8]) (okW := fun _ => True) hlib ⟨hp.1, hp.2, hp.3, hp.4, hp.5, hp.6, hp.7⟩ ⟨hd.1, hd.2, hd.3, hd.4, hd.5, hd.6, hd.7⟩ rfl (fun _ h => by cases h)
    (fun _ h => by have := h.1; norm_num [Num.le, Num.zero] at this)
    (by rw [sortedUnique_length]; exact est_strategy) (fun k _ => by simp [Num.toNat, Num.ofNat]) (fun _ _ => trivial)
  rw [lifeHist_step, lifeHist_dirichlet, hfit] at h2
  cases h2
  subst he0
  exact ⟨s1, _, h1, h3, rfl, rfl⟩

/-- The hypotheses of `C99_regressor` hold. -/
example : ∃ s1 s2 : World Nat Nat ℚ ℝ ℝ Nat Nat, fitRegressor estLib (estArgs none false) realY (estWorld _ false true .none 4) = (.ok (), s1) ∧
    fitRegressor estLib (estArgs none false) realY { estWorld ℝ false true .none 4 with self := { (estWorld ℝ false true .none 4).self with step := 3 } } = (.ok (), s2) ∧
    SameRegressor estLib (attempts Est.assign (lifeHist.filterMap baseOf) s1.self) s2.self := by
  have hd := estData_valid (P := ℝ) (ovr := false) (balanced := true) (cf := .none) (np := 4) none false
  have hp := estToy_valid (P := ℝ) (ovr := false) (balanced := true) (cf := .none) (sub := none) 2
  have hlib : LibOK estLib (estArgs none false).nRows := estLib_ok (n := 6) (by norm_num)
  obtain ⟨s1, s2, h1, h2, h3, -⟩ := C99_regressor (s := estWorld ℝ false true .none 4) (y := realY) (fun a b _ h => neF_real.1 h) hlib hp hd
    (by norm_num [estWorld, estToy, Num.le, Num.zero]) (lifeHist.filterMap baseOf)
  rw [lifeHist_step] at h2
  exact ⟨s1, s2, h1, h2, h3⟩

end Verif
