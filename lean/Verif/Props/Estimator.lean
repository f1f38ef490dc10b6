import Verif.Proofs.EstToy
import Verif.Proofs.EstCols

/-! # C46, C47, C51, C54: `fit` and predictions of the estimators, with side effects and failures -/
set_option linter.unusedSectionVars false
namespace Verif

open Spec

section
variable {L V K G W N : Type} [LinearOrder L] [DecidableEq V] [DecidableEq N] [LinearOrder K] [Field K] [IsStrictOrderedRing K] [FloorSemiring K]

/-- **C54** Fitting a classifier and predicting, from raw data to labels. On valid parameters and data `fit` returns; `classes_` lists the labels of
the training set without repetition in increasing order; `predict_proba` gives for each row of any acceptable dataset (in particular of the
training set) a probability distribution over the classes, and `predict` the first class of maximal probability. For both
multiclass modes, all class weights, all histories: `s` is any state of the estimator, fitted before or not (see C51 for the restriction `hrefit`). -/
theorem C54_classifier {lib : Lib V K ℝ G W} {a : FitArgs N V} {y : List L} {s : World L V K ℝ (List ℝ) G W} {eps : ℝ} (heps : 0 ≤ eps)
    (hlib : LibOK lib a.nRows) (hp : ParamsValid s.self (nCols a.X)) (hd : DataValid lib.conv a s y.length) (ht : a.targetsOK = true)
    (hrefit : s.self.ovr = true → s.self.fitted = true → 2 < y.dedup.length) (hst : StrategyOK y.dedup.length s.self.strategy)
    (hdir : 0 ≤ s.self.dirichlet) (hagg : s.self.aggregation = true → 0 < s.self.dirichlet)
    (hw : ∀ w ∈ s.weights, 0 ≤ w) (hpos : 0 < s.self.dirichlet ∨ ∀ w ∈ s.weights, 0 < w) :
    ∃ s', fitClassifier lib a y s = (.ok (), s') ∧ s'.self.classes.Pairwise (· < ·) ∧ (∀ l, l ∈ s'.self.classes ↔ l ∈ y) ∧
      AcceptedBy lib s'.self a.X ∧
      ∀ (N' : Type) [DecidableEq N'] (n : Nat) (X : Dataset N' V), 0 < n → GoodInput n X → AcceptedBy lib s'.self X →
        ∃ proba labels, s'.self.predictProba lib eps n X = .ok proba ∧ proba.length = n ∧
          (∀ p ∈ proba, Distribution s'.self.classes.length p) ∧ s'.self.predict lib eps n X = .ok labels ∧ labels.length = n ∧
          ∀ (i : Nat) (p : List ℝ), proba[i]? = some p → ∃ k l, labels[i]? = some l ∧ s'.self.classes[k]? = some l ∧ l ∈ y ∧ ∃ hk : k < p.length,
            (∀ (j : Nat) (hj : j < p.length), p[j] ≤ p[k]) ∧ ∀ (j : Nat) (hj : j < k), p[j] < p[k] := by
  obtain ⟨s', hfit, hf, hc, hn, ho, hE, htr, -, -, -, hacc, hpred⟩ := fit_class_facts hlib hp hd ht hrefit hst hdir hagg hw hpos
  have hy : y ≠ [] := by
    intro h0; have := hd.labels; have := hd.rows.1; rw [h0] at *; simp_all
  have hcpos := sortedUnique_pos hy
  refine ⟨s', hfit, by rw [hc]; exact sortedUnique_sorted y, fun l => by rw [hc]; exact mem_sortedUnique, hacc, fun N' _ n X hn0 hX hA => ?_⟩
  obtain ⟨fba, hb, hrows, htrees⟩ := hpred N' n X hn0 hX hA
  have hproba : ∃ proba, s'.self.predictProba lib eps n X = .ok proba ∧ proba.length = n ∧
      ∀ p ∈ proba, Distribution s'.self.classes.length p := by
    unfold Est.predictProba
    rw [hb, bind_ok, hf, ho, hn, hE, hc]
    cases hov : staysOvr s.self y with
    | true =>
      simp only [hov, if_true, Bool.not_true, Bool.false_eq_true, if_false] at htrees htr ⊢
      rw [← hrows]
      exact probaOvr_of_rows hcpos heps (by rw [htr, Nat.mul_comm]) htrees
    | false =>
      simp only [hov, Bool.not_true, Bool.false_eq_true, if_false] at htrees htr ⊢
      rw [← hrows]
      refine proba_of_rows (fun h0 => ?_) htrees
      rw [h0] at htr
      have := hp.estimators
      simp at htr
      omega
  obtain ⟨proba, h1, h2, h3⟩ := hproba
  obtain ⟨labels, h4, h5, h6⟩ := C31_argmax (classes := s'.self.classes) (proba := proba)
    (by rw [hc]; exact List.length_pos_iff.1 hcpos) (fun p hp => (h3 p hp).1)
  refine ⟨proba, labels, h1, h2, h3, by unfold Est.predict; rw [h1, bind_ok]; exact h4, by omega, fun i p hi => ?_⟩
  obtain ⟨k, hk, hkp, hmax⟩ := h6 i p hi
  have hkc : k < s'.self.classes.length := by
    rw [← (h3 p (List.mem_of_getElem? hi)).1]; exact hkp
  have hall : ∀ l ∈ s'.self.classes, l ∈ y := fun l hl => mem_sortedUnique.1 (by rw [← hc]; exact hl)
  have hm : s'.self.classes[k] ∈ y := hall _ (List.getElem_mem hkc)
  exact ⟨k, s'.self.classes[k], by rw [hk, List.getElem?_eq_getElem hkc], List.getElem?_eq_getElem hkc, hm, hkp, hmax⟩

/-- **C54** Fitting a regressor and predicting: on valid parameters, data and positive weights `fit` returns, and the predictions for any
acceptable dataset are in the range of the labels of the training set. -/
theorem C54_regressor {lib : Lib V K ℝ G W} {a : FitArgs N V} {y : List ℝ} {s : World L V K ℝ ℝ G W} {lo hi : ℝ}
    (hlib : LibOK lib a.nRows) (hp : ParamsValid s.self (nCols a.X)) (hd : DataValid lib.conv a s y.length) (ho : s.self.ovr = false)
    (hw : ∀ w ∈ s.weights, 0 < w) (hy : ∀ v ∈ y, lo ≤ v ∧ v ≤ hi) :
    ∃ s', fitRegressor lib a y s = (.ok (), s') ∧ s'.weights = s.weights ∧ AcceptedBy lib s'.self a.X ∧
      ∀ (N' : Type) [DecidableEq N'] (n : Nat) (X : Dataset N' V), 0 < n → GoodInput n X → AcceptedBy lib s'.self X →
        ∃ out, s'.self.predictReg lib n X = .ok out ∧ out.length = n ∧ ∀ v ∈ out, lo ≤ v ∧ v ≤ hi := by
  obtain ⟨e0, o, he0, hfit, hfacts⟩ := fitRegressor_ok hlib hp hd
  subst he0
  obtain ⟨cfg, enc, henc, -, -, -, -, -, hA⟩ := hfacts.encoder
  refine ⟨_, hfit, rfl, ⟨cfg, enc, henc, hA⟩, fun N' _ n X hn hX hA => ?_⟩
  obtain ⟨cfg', enc', he', hA'⟩ := hA
  obtain ⟨fba, hb, hrows, hx⟩ := hfacts.encode hn hX (fun c e h => by
    have := h.symm.trans he'
    injection this with this
    obtain ⟨rfl, rfl⟩ := Prod.mk.inj this
    exact hA')
  unfold Est.predictReg
  simp only
  rw [hb, bind_ok, ← hrows]
  refine reg_of_rows (fun h0 => ?_) (hfacts.predict_reg hlib ((weightsOf_sign fun w h => (hw w h).le).2 hw) hd.labels hy hx)
  have := hfacts.nTrees
  rw [h0, if_neg (by rw [show (withCategorical a.categorical s.self).ovr = s.self.ovr from rfl, ho]; simp)] at this
  have h1 := hp.estimators
  change 0 = s.self.nEstimators at this
  omega

/-! ## C51 -/

/-- **C51**, partial: a classifier can be fitted in any state, in particular after earlier fits on other data, whatever
the old and new numbers of classes, in multinomial mode, or with at least three new classes. Missing: a fitted estimator in
one-versus-rest mode with one or two new classes, see `C51_violated`. -/
theorem C51_refit_partial {lib : Lib V K ℝ G W} {a : FitArgs N V} {y : List L} {s : World L V K ℝ (List ℝ) G W}
    (hlib : LibOK lib a.nRows) (hp : ParamsValid s.self (nCols a.X)) (hd : DataValid lib.conv a s y.length) (ht : a.targetsOK = true)
    (hst : StrategyOK y.dedup.length s.self.strategy)
    (hdir : 0 ≤ s.self.dirichlet) (hagg : s.self.aggregation = true → 0 < s.self.dirichlet)
    (hw : ∀ w ∈ s.weights, 0 ≤ w) (hpos : 0 < s.self.dirichlet ∨ ∀ w ∈ s.weights, 0 < w)
    (hmode : s.self.ovr = false ∨ 2 < y.dedup.length) :
    ∃ s', fitClassifier lib a y s = (.ok (), s') ∧ s'.self.fitted = true ∧ (∀ l, l ∈ s'.self.classes ↔ l ∈ y) ∧
      s'.self.nClasses = y.dedup.length := by
  obtain ⟨s', h1, h2, h3, h4, -⟩ := fit_class_facts hlib hp hd ht
    (fun h _ => by rcases hmode with h' | h'; rw [h'] at h; cases h; exact h') hst hdir hagg hw hpos
  exact ⟨s', h1, h2, fun l => by rw [h3]; exact mem_sortedUnique, by rw [h4, sortedUnique_length]⟩

/-- **C51** is violated: an estimator in one-versus-rest mode that was fitted on at least three classes cannot be fitted on data with one or two
classes, because `fit` then wants to change `multiclass`, which is refused after a fit. The new classes are stored all the same. -/
theorem C51_violated {lib : Lib V K ℝ G W} {a : FitArgs N V} {y : List L} {s : World L V K ℝ (List ℝ) G W}
    (hlib : LibOK lib a.nRows) (hp : ParamsValid s.self (nCols a.X)) (hd : DataValid lib.conv a s y.length) (ht : a.targetsOK = true)
    (hst : StrategyOK y.dedup.length s.self.strategy)
    (hdir : 0 ≤ s.self.dirichlet) (hagg : s.self.aggregation = true → 0 < s.self.dirichlet)
    (hw : ∀ w ∈ s.weights, 0 ≤ w) (hpos : 0 < s.self.dirichlet ∨ ∀ w ∈ s.weights, 0 < w)
    (hmode : s.self.ovr = true ∧ 2 < y.dedup.length) :
    ∃ s', fitClassifier lib a y s = (.ok (), s') ∧
      ∀ (a2 : FitArgs N V) (y2 : List L), a2.targetsOK = true → a2.weights = none → a2.nRows = y2.length → y2 ≠ [] → y2.dedup.length ≤ 2 →
        ∃ s2, fitClassifier lib a2 y2 s' = (.error .attributeError, s2) ∧ s2.self.trees = s'.self.trees ∧
          (∀ l, l ∈ s2.self.classes ↔ l ∈ y2) ∧ s2.self.nClasses ≤ 2 ∧ 2 < s'.self.nClasses := by
  obtain ⟨s', h1, h2, h3, h4, h5, -⟩ := fit_class_facts hlib hp hd ht (fun _ _ => hmode.2) hst hdir hagg hw hpos
  refine ⟨s', h1, fun a2 y2 ht2 hw2 hr2 hy2 h22 => ?_⟩
  rw [← sortedUnique_length] at h22
  have ho : s'.self.ovr = true := by
    rw [h5]; unfold staysOvr; rw [hmode.1, sortedUnique_length]; simpa using hmode.2
  have hE := encodeY_refit (s := { s' with self := withCategorical a2.categorical s'.self }) hy2 (by exact ho) (by exact h2) h22
  have hF : fitClassifier lib a2 y2 s' = (.error .attributeError,
      { s' with self := { withCategorical a2.categorical s'.self with classes := sortedUnique y2, nClasses := (sortedUnique y2).length } }) := by
    unfold fitClassifier
    rw [Py.bind_of_ok (fitChecks_ok hr2.symm (fun h => absurd hw2 h))]
    refine Py.bind_of_error ?_
    unfold prepClassifier
    rw [ht2]
    exact Py.bind_of_error hE
  refine ⟨_, hF, rfl, fun l => mem_sortedUnique, h22, ?_⟩
  rw [h4, sortedUnique_length]
  exact hmode.2

/-! ## C46 -/

/-- **C46** is violated for classifiers: fit a classifier in multinomial mode on data with at least two classes, then fit it again on data
with another number of classes and with fewer features than the integer `max_features`. The second `fit` raises ValueError, but the estimator now
has the new classes with the old trees, and `predict_proba` raises ValueError on all data on which it worked before. -/
theorem C46_violated {lib : Lib V K ℝ G W} {a : FitArgs N V} {y : List L} {s : World L V K ℝ (List ℝ) G W} {eps : ℝ} (heps : 0 ≤ eps)
    (hlib : LibOK lib a.nRows) (hp : ParamsValid s.self (nCols a.X)) (hd : DataValid lib.conv a s y.length) (ht : a.targetsOK = true)
    (hst : StrategyOK y.dedup.length s.self.strategy)
    (hdir : 0 ≤ s.self.dirichlet) (hagg : s.self.aggregation = true → 0 < s.self.dirichlet)
    (hw : ∀ w ∈ s.weights, 0 ≤ w) (hpos : 0 < s.self.dirichlet ∨ ∀ w ∈ s.weights, 0 < w) (hmode : s.self.ovr = false) (h2 : 2 ≤ y.dedup.length) :
    ∃ s', fitClassifier lib a y s = (.ok (), s') ∧
      ∀ (a2 : FitArgs N V) (y2 : List L) (i : Int), a2.targetsOK = true → a2.weights = none → a2.nRows = y2.length → y2 ≠ [] →
        y2.dedup.length ≠ y.dedup.length → s.self.maxFeatures = .int i → nCols a2.X < i →
        ∃ s2, fitClassifier lib a2 y2 s' = (.error .valueError, s2) ∧ s2.self.trees = s'.self.trees ∧
          (∀ l, l ∈ s'.self.classes ↔ l ∈ y) ∧ (∀ l, l ∈ s2.self.classes ↔ l ∈ y2) ∧
          ∀ (N' : Type) [DecidableEq N'] (n : Nat) (X : Dataset N' V), 0 < n → GoodInput n X → AcceptedBy lib s'.self X →
            (∃ p, s'.self.predictProba lib eps n X = .ok p) ∧ s2.self.predictProba lib eps n X = .error .valueError := by
  have hov : staysOvr s.self y = false := by unfold staysOvr; rw [hmode]; rfl
  obtain ⟨s', h1, hf, hc, hn, ho, hE, htr, hmf, hag, hdi, hacc, hpred⟩ := fit_class_facts hlib hp hd ht
    (fun h => by rw [hmode] at h; cases h) hst hdir hagg hw hpos
  obtain ⟨s'', h1', -, -, -, hpred2⟩ := C54_classifier heps hlib hp hd ht (fun h => by rw [hmode] at h; cases h) hst hdir hagg hw hpos
  rw [h1] at h1'
  obtain ⟨-, rfl⟩ := Prod.mk.inj h1'
  rw [hov] at ho
  refine ⟨s', h1, fun a2 y2 i ht2 hw2 hr2 hy2 hne hi hlt => ?_⟩
  have hs2 : staysOvr (withCategorical a2.categorical s'.self) y2 = false := by
    unfold staysOvr; rw [show (withCategorical a2.categorical s'.self).ovr = s'.self.ovr from rfl, ho]; rfl
  have hF : fitClassifier lib a2 y2 s' = (.error .valueError, { s' with
      self := preparedEst (withCategorical a2.categorical s'.self) y2,
      weights := callerWeights (withCategorical a2.categorical s'.self) a2 y2 s'.weights (weightsOf a2 s') }) := by
    unfold fitClassifier
    rw [Py.bind_of_ok (fitChecks_ok hr2.symm (fun h => absurd hw2 h)), Py.bind_of_ok (prepClassifier_ok ht2 hy2
      (by intro h; change s'.self.ovr = true at h; rw [ho] at h; cases h)
      (by
        intro h3 h4
        change s'.self.aggregation = true at h3
        change Num.le s'.self.dirichlet Num.zero = true ∧ _ at h4
        rw [hag] at h3
        have := hagg h3
        rw [hdi] at h4
        simp only [Num.le, Num.zero, decide_eq_true_eq] at h4
        linarith [h4.1]))]
    unfold fitRest
    rw [Py.bind_of_ok (Py.read_apply _ _)]
    refine Py.bind_of_error ?_
    rw [Py.lift_apply]
    have : getMaxFeatures (preparedEst (withCategorical a2.categorical s'.self) y2).maxFeatures a2.X.nFeatures = .error .valueError := by
      change getMaxFeatures s'.self.maxFeatures _ = _
      rw [hmf, hi, nFeatures_eq]
      simp only [getMaxFeatures]
      rw [if_pos hlt]
    rw [this]
  refine ⟨_, hF, rfl, fun l => by rw [hc]; exact mem_sortedUnique, fun l => mem_sortedUnique, fun N' _ n X hn0 hX hA => ?_⟩
  obtain ⟨p, _, hpp, _⟩ := hpred2 N' n X hn0 hX hA
  refine ⟨⟨p, hpp⟩, ?_⟩
  obtain ⟨fba, hb, hrows, htrees⟩ := hpred N' n X hn0 hX hA
  unfold Est.predictProba
  rw [show Est.encode lib (preparedEst (withCategorical a2.categorical s'.self) y2) n X = Est.encode lib s'.self n X from rfl, hb, bind_ok]
  rw [show (preparedEst (withCategorical a2.categorical s'.self) y2).fitted = s'.self.fitted from rfl, hf,
    show (preparedEst (withCategorical a2.categorical s'.self) y2).ovr = staysOvr (withCategorical a2.categorical s'.self) y2 from rfl, hs2]
  change Verif.predictProba (sortedUnique y2).length s'.self.trees fba = _
  cases htl : s'.self.trees with
  | nil =>
    rw [htl, hov] at htr
    have := hp.estimators
    simp at htr
    omega
  | cons o os =>
    obtain ⟨q, hq, hql, hqd⟩ := htrees o (by rw [htl]; simp)
    unfold Verif.predictProba accumulateProba
    rw [List.foldlM_cons, hq, bind_ok]
    have : addMat (List.replicate fba.nSamples (List.replicate (sortedUnique y2).length Num.zero)) q = .error .valueError := by
      cases q with
      | nil => simp at hql; omega
      | cons v q =>
        have hv := (hqd v (by simp)).1
        rw [hov, sortedUnique_length] at hv
        simp only [Bool.false_eq_true, if_false] at hv
        have hr : fba.nSamples = (fba.nSamples - 1) + 1 := by omega
        unfold addMat
        rw [if_neg, if_neg]
        · intro he
          rw [hr, List.replicate_succ, List.length_cons, List.replicate_succ] at he
          simp only [List.map_cons, List.cons.injEq] at he
          omega
        · intro he
          rw [hr, List.replicate_succ] at he
          simp only [List.map_cons, List.length_replicate, List.cons.injEq] at he
          rw [sortedUnique_length, hv] at he
          exact hne he.1
    rw [this]
    rfl

/-- **C46**, partial, for classifiers: when the second fit fails in the checks of the number of rows, of the weights or of the targets,
the classes, the trees and the predictions are those of the first fit. Missing: failures after the new classes have been
stored, see `C46_violated`. -/
theorem C46_classifier_partial {F : Type} [Num F] {lib : Lib V K F G W} {a : FitArgs N V} {y : List L} {s : World L V K F (List F) G W}
    (h : y.length ≠ a.nRows ∨ (a.weights ≠ none ∧ s.weights.length ≠ a.nRows) ∨ a.targetsOK = false) :
    ∃ s', fitClassifier lib a y s = (.error .valueError, s') ∧ s'.self.classes = s.self.classes ∧ s'.self.trees = s.self.trees ∧ s'.weights = s.weights ∧
      ∀ (N' : Type) [DecidableEq N'] (eps : F) (n : Nat) (X : Dataset N' V), s'.self.predictProba lib eps n X = s.self.predictProba lib eps n X ∧
        s'.self.predict lib eps n X = s.self.predict lib eps n X := by
  refine ⟨{ s with self := withCategorical a.categorical s.self }, ?_, rfl, rfl, rfl, fun N' _ eps n X => ⟨rfl, rfl⟩⟩
  unfold fitClassifier
  by_cases h1 : y.length = a.nRows
  · by_cases h2 : a.weights ≠ none → s.weights.length = a.nRows
    · rw [Py.bind_of_ok (fitChecks_ok h1 h2)]
      have ht : a.targetsOK = false := by
        rcases h with h | ⟨h3, h4⟩ | h
        · exact absurd h1 h
        · exact absurd (h2 h3) h4
        · exact h
      refine Py.bind_of_error ?_
      unfold prepClassifier
      refine Py.bind_of_error ?_
      unfold encodeY
      rw [Py.bind_of_ok (Py.read_apply _ _), ht]
      exact Py.bind_of_error rfl
    · push Not at h2
      exact Py.bind_of_error (fitChecks_weights h1 h2.1 h2.2)
  · exact Py.bind_of_error (fitChecks_rows h1)

/-- **C46**, partial, for regressors: whenever the second fit fails, the trees are those of the first fit, and so are the predictions, unless the
failure is in the construction of a tree. Missing: failures in the construction of a tree, see `C46_violated_regressor`. -/
theorem C46_regressor_partial {F : Type} [Num F] {lib : Lib V K F G W} {a : FitArgs N V} {y : List F} {s s' : World L V K F F G W} {err : Err}
    (h : fitRegressor lib a y s = (.error err, s')) :
    s'.self.trees = s.self.trees ∧ s'.weights = s.weights ∧
      ((∀ (N' : Type) [DecidableEq N'] (n : Nat) (X : Dataset N' V), s'.self.predictReg lib n X = s.self.predictReg lib n X) ∨
        ∃ (c : Ctx F) (gb : Garbage F) (seed : Nat),
          buildTree lib.rng (fun _ => regressorTask lib.argsort) (lib.boot a.nRows) lib.frames c gb s.self.dirichlet seed = .error err) := by
  have hw := fitRegressor_weights lib a y s
  rw [h] at hw
  have hc : ∀ r t, fitChecks a y.length s = (r, t) → t = { s with self := withCategorical a.categorical s.self } := by
    intro r t ht
    by_cases h1 : y.length = a.nRows
    · by_cases h2 : a.weights ≠ none → s.weights.length = a.nRows
      · rw [fitChecks_ok h1 h2] at ht; exact (Prod.mk.inj ht).2.symm
      · push Not at h2
        rw [fitChecks_weights h1 h2.1 h2.2] at ht; exact (Prod.mk.inj ht).2.symm
    · rw [fitChecks_rows h1] at ht; exact (Prod.mk.inj ht).2.symm
  unfold fitRegressor at h
  rcases Py.bind_cases h with ⟨e, h1, _⟩ | ⟨sw, s1, h1, h⟩
  · have := hc _ _ h1
    subst this
    exact ⟨rfl, rfl, .inl fun N' _ n X => rfl⟩
  · have := hc _ _ h1
    subst this
    have h' : fitRest lib a ⟨fun _ => regressorTask lib.argsort, false, [y], [sw]⟩ { s with self := withCategorical a.categorical s.self } = (.error err, s') := h
    obtain ⟨mf, sd, ic, enc, hs, hor⟩ := fitRest_error h'
    refine ⟨by rw [hs]; rfl, hw, ?_⟩
    rcases hor with he | ⟨mf, ic, fba, seeds, depths, hg⟩
    · left
      intro N' _ n X
      unfold Est.predictReg Est.encode
      rw [hs, he]
      rfl
    · right
      unfold growTrees at hg
      obtain ⟨x, _, hx⟩ := mapM_error_inv hg
      simp only [Bool.false_eq_true, if_false] at hx
      rw [show rd [y] 0 = .ok y from rfl, show rd [sw] 0 = .ok sw from rfl, bind_ok, bind_ok] at hx
      exact ⟨_, _, _, hx⟩

/-- **C46** is violated for regressors too: a second fit on data with one row ends in RecursionError (see C15), and leaves the old trees with
the encoder of the new data. -/
theorem C46_violated_regressor {F : Type} [Num F] {lib : Lib V K F G W} {a : FitArgs N V} {y : List F} {s : World L V K F F G W}
    (hone : a.nRows = 1) (hboot : DrawsOK 1 (lib.boot 1)) (hsub : ∀ k, s.self.subsample = some k → 1 ≤ k)
    (hseeded : ∀ n k, (lib.seeded n k).length = k) (hglobal : ∀ w k, (lib.seededGlobal w k).1.length = k) (ho : s.self.ovr = false)
    (hp : ParamsValid s.self (nCols a.X)) (hd : DataValid lib.conv a s y.length) :
    ∃ s' cfg enc, fitRegressor lib a y s = (.error .recursionError, s') ∧ s'.self.trees = s.self.trees ∧ s'.self.encoder = some (cfg, enc) ∧
      encoderFit lib.conv cfg none a.X = .ok enc := by
  have hseeds : (seedsOf lib (withCategorical a.categorical s.self) s.np).1.length = s.self.nEstimators := by
    unfold seedsOf
    simp only
    rw [if_neg (by rw [show (withCategorical a.categorical s.self).ovr = s.self.ovr from rfl, ho]; simp)]
    split
    · exact hseeded _ _
    · exact hglobal _ _
  have hsubset : ∀ np, (subsetOf lib (withCategorical a.categorical s.self) a.nRows np).1 = none := by
    intro np
    unfold subsetOf
    split
    · rfl
    · rename_i k hk
      rw [if_neg (by have := hsub k hk; omega)]
  obtain ⟨mf, hmf, -, -⟩ := maxFeatures_ok hd.columns hp
  obtain ⟨ic, hic, hfit⟩ := hd.fittable
  obtain ⟨enc, henc, hF, h63, hA⟩ := encoderFit_total (cv := lib.conv) (cfg := (withCategorical a.categorical s.self).encCfg lib a.nRows ic)
    (subset := none) (n := a.nRows) hp.binsPos hp.bins.2 hd.rows.2 hd.good hd.small
    (fun m hm => getIsCategorical_length (hic.trans (by rw [← hm]; rfl))) (fun l h => by cases h) hfit
  obtain ⟨fba, hfba, hE⟩ := encoded_ok (cfg := (withCategorical a.categorical s.self).encCfg lib a.nRows ic) hp.binsPos hF h63 hd.rows.1 hd.good lib.words hA
  obtain ⟨s', h1, h2, h3⟩ := fitRest_trees_error (p := ⟨fun _ => regressorTask lib.argsort, false, [y], [weightsOf a s]⟩)
    (s := { s with self := withCategorical a.categorical s.self }) (err := .recursionError) hmf hp.state hic hp.accepts
    (by simp only; rw [hsubset]; exact henc) hfba (by
      unfold growTrees
      have hall : ∀ (seed : Nat) (c : Ctx F), c.fba = fba → ∀ gb, buildTree lib.rng (fun _ => regressorTask lib.argsort) (lib.boot a.nRows) lib.frames c gb
          s.self.dirichlet seed = .error .recursionError := by
        intro seed c hc gb
        unfold buildTree
        rw [hc, hE.rows, hone, C15_violated_one_row _ hboot]
        rfl
      refine mapM_error_all ?_ fun x _ => ?_
      · simp only [List.length_zipIdx, List.length_zip, depthsOf_length, Nat.min_self]
        rw [hseeds]
        have := hp.estimators
        omega
      · simp only [Bool.false_eq_true, if_false]
        rw [show rd [y] 0 = .ok y from rfl, show rd [weightsOf a s] 0 = .ok (weightsOf a s) from rfl, bind_ok, bind_ok]
        exact hall _ _ rfl _)
  refine ⟨s', _, enc, ?_, h2, h3, henc⟩
  unfold fitRegressor
  rw [Py.bind_of_ok (fitChecks_ok hd.labels hd.weights)]
  exact h1

/-! ## C47 -/

/-- **C47**, partial: `fit` does not change the array `sample_weight` of the caller, whether it succeeds or fails, for regressors, and for classifiers
without `class_weight`, or in one-versus-rest mode with at least three classes, or when the weights are not a float32
array that is used without copy. Missing: the other case, see `C47_violated`. -/
theorem C47_weights_partial {F : Type} [Num F] (lib : Lib V K F G W) (a : FitArgs N V) :
    (∀ (y : List F) (s : World L V K F F G W), ((fitRegressor lib a y) s).2.weights = s.weights) ∧
    ∀ (y : List L) (s : World L V K F (List F) G W),
      a.weights ≠ some true ∨ s.self.balanced = false ∨ (s.self.ovr = true ∧ 2 < y.dedup.length) →
      ((fitClassifier lib a y) s).2.weights = s.weights := by
  refine ⟨fun y s => fitRegressor_weights lib a y s, fun y s h => fitClassifier_weights lib a y s ?_⟩
  rw [sortedUnique_length]
  exact h

/-- **C47** is violated with `class_weight="balanced"` in multinomial mode when the weights are used without copy: after `fit` the array of
the caller contains its old values multiplied by the weights of the classes. -/
theorem C47_violated {lib : Lib V K ℝ G W} {a : FitArgs N V} {y : List L} {s : World L V K ℝ (List ℝ) G W}
    (hlib : LibOK lib a.nRows) (hp : ParamsValid s.self (nCols a.X)) (hd : DataValid lib.conv a s y.length) (ht : a.targetsOK = true)
    (hst : StrategyOK y.dedup.length s.self.strategy) (hagg : s.self.aggregation = true → 0 < s.self.dirichlet)
    (hmode : s.self.ovr = false) (hbal : s.self.balanced = true) (hali : a.weights = some true) :
    ∃ s', fitClassifier lib a y s = (.ok (), s') ∧
      s'.weights = List.zipWith (· * ·) s.weights (y.map fun l => (y.length : ℝ) / (y.dedup.length * y.count l)) := by
  have hov : staysOvr s.self y = false := by unfold staysOvr; rw [hmode]; rfl
  obtain ⟨e0, o, -, hfit, -⟩ := fitClassifier_ok (okW := fun _ => True) hlib hp hd ht (fun h => by rw [hmode] at h; cases h)
    (fun h h2 => by
      have := hagg h
      simp only [Num.le, Num.zero, decide_eq_true_eq] at h2
      linarith [h2.1])
    (by rw [sortedUnique_length]; exact hst) (fun k _ => by simp [Num.toNat, Num.ofNat]) (fun _ _ => trivial)
  refine ⟨_, hfit, ?_⟩
  change callerWeights s.self a y s.weights (weightsOf a s) = _
  unfold callerWeights classWeights codesOf weightsOf
  rw [hbal, hov, hali, ← balancedWeights_labels]
  rfl

end

/-! ## Examples -/

/-- Labels of six rows. -/
def estY : List Nat := [3, 3, 3, 3, 8, 8]

/-- Three classes. -/
def estY3 : List Nat := [3, 3, 5, 5, 8, 8]

/-- The hypotheses of `C54_classifier` hold in one-versus-rest mode with balanced classes. -/
example : ∃ s', fitClassifier estLib (estArgs (some true) true) estY3 (estWorld _ true true .none 0) = (.ok (), s') ∧
    s'.self.classes = [3, 5, 8] ∧ s'.self.trees.length = 6 ∧ ∃ labels, s'.self.predict estLib (1 / 1000) 6 estX = .ok labels ∧ labels.length = 6 := by
  have hd := estData_valid (P := List ℝ) (ovr := true) (balanced := true) (cf := .none) (np := 0) (some true) true
  have hlib : LibOK estLib (estArgs (some true) true).nRows := estLib_ok (n := 6) (by norm_num)
  obtain ⟨s', h1, -, h3, -, -, -, h7, -⟩ := fit_class_facts hlib (estToy_valid _) hd (y := estY3) rfl (fun _ h => by cases h)
    est_strategy (by norm_num [estWorld, estToy]) (fun _ => by norm_num [estWorld, estToy]) (fun w h => (realW_pos w h).le)
    (.inl (by norm_num [estWorld, estToy]))
  obtain ⟨s'', h1', -, -, hacc, hpred⟩ := C54_classifier (eps := 1 / 1000) (by norm_num) hlib (estToy_valid _) hd (y := estY3) rfl (fun _ h => by cases h)
    est_strategy (by norm_num [estWorld, estToy]) (fun _ => by norm_num [estWorld, estToy]) (fun w h => (realW_pos w h).le)
    (.inl (by norm_num [estWorld, estToy]))
  rw [h1] at h1'
  obtain ⟨-, rfl⟩ := Prod.mk.inj h1'
  obtain ⟨_, labels, -, -, -, h4, h5, -⟩ := hpred String 6 estX (by norm_num) estX_good hacc
  exact ⟨s', h1, by rw [h3]; decide, by rw [h7]; decide, labels, h4, h5⟩

/-- The hypotheses of `C54_regressor` hold. -/
example : ∃ s', fitRegressor estLib (estArgs none false) realY (estWorld _ false false .none 4) = (.ok (), s') ∧
    ∃ out, s'.self.predictReg estLib 6 estX = .ok out ∧ out.length = 6 ∧ ∀ v ∈ out, 0 ≤ v ∧ v ≤ 1 := by
  obtain ⟨s', h1, -, hacc, hpred⟩ := C54_regressor (L := Nat) (lo := 0) (hi := 1) (a := estArgs none false) (y := realY)
    (s := estWorld _ false false .none 4) (estLib_ok (n := 6) (by norm_num)) (estToy_valid _) (estData_valid _ _) rfl (fun w h => realW_pos w h) (by
      intro v hv
      simp only [realY, List.mem_cons, List.not_mem_nil, or_false] at hv
      rcases hv with rfl | rfl | rfl | rfl | rfl | rfl <;> norm_num)
  exact ⟨s', h1, hpred String 6 estX (by norm_num) estX_good hacc⟩

/-- The hypotheses of `C51_refit_partial` hold for an estimator that is already fitted, on three classes, and now gets two. -/
example : ∃ s' s2, fitClassifier estLib (estArgs none false) estY3 (estWorld _ false false .none 0) = (.ok (), s') ∧
    fitClassifier estLib (estArgs none false) estY s' = (.ok (), s2) ∧ s'.self.nClasses = 3 ∧ s2.self.nClasses = 2 := by
  have hlib : LibOK estLib (estArgs none false).nRows := estLib_ok (n := 6) (by norm_num)
  have hd := estData_valid (P := List ℝ) (ovr := false) (balanced := false) (cf := .none) (np := 0) none false
  obtain ⟨e0, o, he0, h1, -⟩ := fitClassifier_ok (okW := fun _ => True) hlib (estToy_valid (P := List ℝ) (ovr := false) (balanced := false) (cf := .none)
    (sub := none) _) hd (y := estY3) rfl (fun h => by cases h) (fun _ h => by
      have := h.1; simp only [Num.le, Num.zero, estWorld, estToy] at this; norm_num at this)
    est_strategy (fun k _ => by simp [Num.toNat, Num.ofNat]) (fun _ _ => trivial)
  subst he0
  have hv := estToy_valid (P := List ℝ) (ovr := false) (balanced := false) (cf := .none) (sub := none) 2
  have key : ∀ s : World Nat Nat ℚ ℝ (List ℝ) Nat Nat, ParamsValid s.self 2 → s.self.strategy = .all → s.self.dirichlet = 1 / 2 → s.self.ovr = false →
      s.weights = realW → ∃ s2, fitClassifier estLib (estArgs none false) estY s = (.ok (), s2) ∧ s2.self.nClasses = 2 := by
    intro s hp hs hdir ho hw
    obtain ⟨s2, h2, -, -, h5⟩ := C51_refit_partial (y := estY) (s := s) hlib hp (estData_valid_any _ false) rfl
      (by rw [hs]; exact est_strategy) (by rw [hdir]; norm_num) (fun _ => by rw [hdir]; norm_num)
      (fun w h => (realW_pos w (hw ▸ h)).le) (.inl (by rw [hdir]; norm_num)) (.inl ho)
    exact ⟨s2, h2, by rw [h5]; decide⟩
  obtain ⟨s2, h2, h3⟩ := key ⟨o.est, _, _⟩ ⟨hv.1, hv.2, hv.3, hv.4, hv.5, hv.6, hv.7⟩ rfl rfl rfl rfl
  exact ⟨_, s2, h1, h2, (by decide : (sortedUnique estY3).length = 3), h3⟩

/-- `C51_violated` with six rows: three classes, then two. -/
example : ∃ s' s2, fitClassifier estLib (estArgs none false) estY3 (estWorld _ true false .none 0) = (.ok (), s') ∧
    fitClassifier estLib (estArgs none false) estY s' = (.error .attributeError, s2) ∧ s'.self.nClasses = 3 ∧ s2.self.nClasses ≤ 2 ∧
    s2.self.trees = s'.self.trees := by
  have hlib : LibOK estLib (estArgs none false).nRows := estLib_ok (n := 6) (by norm_num)
  obtain ⟨s0, h0, -, -, h4, -⟩ := fit_class_facts hlib (estToy_valid _) (estData_valid_any (estWorld (List ℝ) true false .none 0) false) (y := estY3) rfl
    (fun _ h => by cases h) est_strategy (by norm_num [estWorld, estToy]) (fun _ => by norm_num [estWorld, estToy])
    (fun w h => (realW_pos w h).le) (.inl (by norm_num [estWorld, estToy]))
  obtain ⟨s', h1, hv⟩ := C51_violated hlib (estToy_valid _) (estData_valid_any (estWorld (List ℝ) true false .none 0) false) (y := estY3) rfl
    est_strategy (by norm_num [estWorld, estToy]) (fun _ => by norm_num [estWorld, estToy]) (fun w h => (realW_pos w h).le)
    (.inl (by norm_num [estWorld, estToy])) ⟨rfl, by decide⟩
  obtain ⟨s2, h2, ht, -, hn, -⟩ := hv (estArgs none false) estY rfl rfl rfl (by decide) (by decide)
  rw [h0] at h1
  obtain ⟨-, rfl⟩ := Prod.mk.inj h1
  exact ⟨s0, s2, h0, h2, by rw [h4]; decide, hn, ht⟩

/-- `max_features=2`. -/
noncomputable def estWorldInt : World Nat Nat ℚ ℝ (List ℝ) Nat Nat :=
  ⟨{ estToy _ false false .none none with maxFeatures := .int 2 }, realW, 0⟩

/-- `C46_violated` with six rows, two columns and `max_features=2`, and then three rows and one column. -/
example : ∃ s' s2, fitClassifier estLib (estArgs none false) estY estWorldInt = (.ok (), s') ∧
    fitClassifier estLib estArgsNarrow [1, 5, 7] s' = (.error .valueError, s2) ∧
    (∃ p, s'.self.predictProba estLib (1 / 1000) 6 estX = .ok p) ∧ s2.self.predictProba estLib (1 / 1000) 6 estX = .error .valueError := by
  have hlib : LibOK estLib (estArgs none false).nRows := estLib_ok (n := 6) (by norm_num)
  have hp : ParamsValid estWorldInt.self 2 :=
    ⟨by simp [estWorldInt, estToy], by simp [estWorldInt, estToy], rfl, by simp [estWorldInt], by simp [estWorldInt, estToy], ⟨_, rfl⟩, by simp [estWorldInt, estToy]⟩
  obtain ⟨s'', h1', -, -, hacc, -⟩ := C54_classifier (eps := 1 / 1000) (by norm_num) hlib hp (estData_valid_any estWorldInt false)
    (y := estY) rfl (fun _ h => by cases h) est_strategy (by norm_num [estWorldInt, estToy]) (fun _ => by norm_num [estWorldInt, estToy])
    (fun w h => (realW_pos w h).le) (.inl (by norm_num [estWorldInt, estToy]))
  obtain ⟨s', h1, hv⟩ := C46_violated (eps := 1 / 1000) (by norm_num) hlib hp (estData_valid_any estWorldInt false)
    (y := estY) rfl est_strategy (by norm_num [estWorldInt, estToy]) (fun _ => by norm_num [estWorldInt, estToy])
    (fun w h => (realW_pos w h).le) (.inl (by norm_num [estWorldInt, estToy])) rfl (by decide)
  rw [h1'] at h1
  obtain ⟨-, rfl⟩ := Prod.mk.inj h1
  obtain ⟨s2, h2, -, -, -, hpred⟩ := hv estArgsNarrow [1, 5, 7] 2 rfl rfl rfl (by decide) (by decide) rfl (by decide)
  exact ⟨s'', s2, h1', h2, hpred String 6 estX (by norm_num) estX_good hacc⟩

/-- `C46_classifier_partial` on an estimator that is fitted: five labels for six rows. -/
example : ∃ s' s2, fitClassifier estLib (estArgs none false) estY (estWorld _ false false .none 0) = (.ok (), s') ∧
    fitClassifier estLib (estArgs none false) [1, 2, 3, 4, 5] s' = (.error .valueError, s2) ∧
    s2.self.predict estLib (1 / 1000) 6 estX = s'.self.predict estLib (1 / 1000) 6 estX ∧ ∃ l, s'.self.predict estLib (1 / 1000) 6 estX = .ok l := by
  have hlib : LibOK estLib (estArgs none false).nRows := estLib_ok (n := 6) (by norm_num)
  obtain ⟨s', h1, -, -, hacc, hp⟩ := C54_classifier (eps := 1 / 1000) (by norm_num) hlib (estToy_valid _)
    (estData_valid_any (estWorld (List ℝ) false false .none 0) false) (y := estY) rfl
    (fun _ h => by cases h) est_strategy (by norm_num [estWorld, estToy]) (fun _ => by norm_num [estWorld, estToy])
    (fun w h => (realW_pos w h).le) (.inl (by norm_num [estWorld, estToy]))
  obtain ⟨s2, h2, -, -, -, h3⟩ := C46_classifier_partial (lib := estLib) (a := estArgs none false) (y := [1, 2, 3, 4, 5]) (s := s') (.inl (by decide))
  obtain ⟨_, l, -, -, -, h4, -⟩ := hp String 6 estX (by norm_num) estX_good hacc
  exact ⟨s', s2, h1, h2, (h3 String _ 6 estX).2, l, h4⟩

/-- `C46_regressor_partial` on an estimator that is fitted: five labels for six rows. -/
example : ∃ s' s2, fitRegressor estLib (estArgs none false) realY (estWorld _ false false .none 4) = (.ok (), s') ∧
    fitRegressor estLib (estArgs none false) [1, 2, 3, 4, 5] s' = (.error .valueError, s2) ∧ s2.self.trees = s'.self.trees := by
  obtain ⟨e0, o, -, h1, -⟩ := fitRegressor_ok (L := Nat) (a := estArgs none false) (y := realY)
    (s := estWorld _ false false .none 4) (estLib_ok (n := 6) (by norm_num)) (estToy_valid _) (estData_valid _ _)
  have h2 : ∀ s : World Nat Nat ℚ ℝ ℝ Nat Nat, fitRegressor estLib (estArgs none false) [1, 2, 3, 4, 5] s =
      (.error .valueError, { s with self := withCategorical .none s.self }) := by
    intro s
    unfold fitRegressor
    exact Py.bind_of_error (fitChecks_rows (by decide))
  exact ⟨_, _, h1, h2 _, (C46_regressor_partial (h2 _)).1⟩

/-- `C46_violated_regressor` on an estimator that is fitted: the new encoder does not contain the categories of the data that the trees
were grown on. -/
example : ∃ s' s2 cfg enc cfg' enc', fitRegressor estLib (estArgs none false) realY (estWorld _ false false .none 4) = (.ok (), s') ∧
    fitRegressor estLib estArgsOne [1] s' = (.error .recursionError, s2) ∧ s2.self.trees = s'.self.trees ∧
    s'.self.encoder = some (cfg, enc) ∧ s2.self.encoder = some (cfg', enc') ∧ enc ≠ enc' := by
  obtain ⟨e0, o, he0, h1, hfacts⟩ := fitRegressor_ok (L := Nat) (a := estArgs none false) (y := realY)
    (s := estWorld _ false false .none 4) (estLib_ok (n := 6) (by norm_num)) (estToy_valid _) (estData_valid _ _)
  subst he0
  have hv := estToy_valid (P := ℝ) (ovr := false) (balanced := false) (cf := .none) (sub := none) 2
  have key : ∀ s : World Nat Nat ℚ ℝ ℝ Nat Nat, ParamsValid s.self 2 → s.self.subsample = none → s.self.ovr = false →
      ∃ s2 cfg enc, fitRegressor estLib estArgsOne [1] s = (.error .recursionError, s2) ∧ s2.self.trees = s.self.trees ∧
        s2.self.encoder = some (cfg, enc) ∧ encoderFit estLib.conv cfg none estOne = .ok enc := by
    intro s hp hs ho
    exact C46_violated_regressor (lib := estLib) (a := estArgsOne) (y := [1]) (s := s) rfl estLib_boot_one
      (fun k h => by rw [hs] at h; cases h) (fun n k => by simp [estLib]) (fun n k => by simp [estLib]) ho hp (estDataOne_valid _)
  obtain ⟨s2, cfg', enc', h2, h3, h4, h5⟩ := key ⟨o.est, _, _⟩ ⟨hv.1, hv.2, hv.3, hv.4, hv.5, hv.6, hv.7⟩ rfl rfl
  obtain ⟨cfg, enc, henc, hon, hb, -⟩ := hfacts.encoder
  refine ⟨_, s2, cfg, enc, cfg', enc', h1, h2, h3, henc, h4, ?_⟩
  rintro rfl
  obtain ⟨fc, hfc, hcol⟩ := frame_col h5 (j := 1) rfl
  have h9 : fc = .cat [9] := by
    unfold fitSeries at hcol
    rw [bind_eq_ok] at hcol
    obtain ⟨d, -, hcol⟩ := hcol
    rw [bind_eq_ok] at hcol
    obtain ⟨t, ht, hcol⟩ := hcol
    cases t with
    | isCategory => rcases d with _ | _ | _ <;> cases ht
    | toCategory => injection hcol with hcol; rw [← hcol]; rfl
    | numerical => rcases d with _ | _ | _ <;> cases ht
  subst h9
  have := (encoderFit_ok hb hon).2.2 0 1 [9] 2 hfc rfl
  simp at this

/-- `C47_violated` with six rows. -/
example : ∃ s', fitClassifier estLib (estArgs (some true) false) estY (estWorld _ false true .none 0) = (.ok (), s') ∧ s'.weights ≠ realW := by
  obtain ⟨s', h1, h2⟩ := C47_violated (lib := estLib) (a := estArgs (some true) false) (y := estY) (s := estWorld _ false true .none 0)
    (estLib_ok (n := 6) (by norm_num)) (estToy_valid _) (estData_valid _ _) rfl est_strategy (fun _ => by norm_num [estWorld, estToy]) rfl rfl rfl
  refine ⟨s', h1, ?_⟩
  rw [h2, show (estY.dedup.length) = 2 from by decide]
  simp [estWorld, realW, estY]
  norm_num

/-- `C47_weights_partial` in one-versus-rest mode with balanced classes. -/
example : ((fitClassifier estLib (estArgs (some true) false) estY3) (estWorld _ true true .none 0)).2.weights = realW :=
  (C47_weights_partial estLib (estArgs (some true) false)).2 estY3 (estWorld _ true true .none 0) (.inr (.inr ⟨rfl, by decide⟩))

end Verif
