import Verif.Proofs.EstSeeds
import Verif.Proofs.EstFail
import Verif.Proofs.EstToy

/-! # C40, C43, C44, C45: random seeds, declared categorical columns -/
set_option linter.unusedSectionVars false
namespace Verif

open Spec

section
variable {L V K F P G W N : Type} [LinearOrder L] [DecidableEq V] [DecidableEq N] [LinearOrder K] [Field K] [IsStrictOrderedRing K] [FloorSemiring K]
  [Num F]

/-! ## C40 -/

/-- **C40**, partial: with an integer `random_state`, `fit` of a classifier does the same in every state of the global generator, whether it succeeds
or raises, when `randomized_depth=False` and the encoder does not draw a subset of the rows. Missing: the two other cases, see
`C40_violated_depth` and `C40_violated_subsample`. -/
theorem C40_classifier_partial (lib : Lib V K F G W) (a : FitArgs N V) (y : List L) (s : World L V K F (List F) G W) (np : W) {r : Nat}
    (hr : s.self.randomState = some (some r)) (hd : a.randomizedDepth = false) (hsub : ∀ k, s.self.subsample = some k → a.nRows ≤ k) :
    SameButGenerator (fitClassifier lib a y s) (fitClassifier lib a y { s with np := np }) := by
  obtain ⟨h1, h2, h3, -⟩ := fitClassifier_sim lib a hd y s { s with np := np } ⟨rfl, rfl, ⟨r, hr⟩, hsub⟩
  exact ⟨h1, h2, h3⟩

/-- **C40**, partial, for regressors. Missing: as in `C40_classifier_partial`. -/
theorem C40_regressor_partial (lib : Lib V K F G W) (a : FitArgs N V) (y : List F) (s : World L V K F F G W) (np : W) {r : Nat}
    (hr : s.self.randomState = some (some r)) (hd : a.randomizedDepth = false) (hsub : ∀ k, s.self.subsample = some k → a.nRows ≤ k) :
    SameButGenerator (fitRegressor lib a y s) (fitRegressor lib a y { s with np := np }) := by
  obtain ⟨h1, h2, h3, -⟩ := fitRegressor_sim lib a hd y s { s with np := np } ⟨rfl, rfl, ⟨r, hr⟩, hsub⟩
  exact ⟨h1, h2, h3⟩

/-- **C40** is violated with `randomized_depth=True`: whatever the integer `random_state`, the depth of the first tree is the next number
of the global generator. -/
theorem C40_violated_depth {lib : Lib V K F G W} {a : FitArgs N V} {y : List F} {s : World L V K F F G W}
    (hlib : LibOK lib a.nRows) (hp : ParamsValid s.self (nCols a.X)) (hd : DataValid lib.conv a s y.length) (ho : s.self.ovr = false) {r : Nat}
    (hr : s.self.randomState = some (some r)) (hrd : a.randomizedDepth = true) (hsub : s.self.subsample = none) :
    ∃ s', fitRegressor lib a y s = (.ok (), s') ∧ ∃ o, s'.self.trees[0]? = some o ∧ o.ctx.map (·.maxDepth) = some (lib.depth s.np).1 := by
  obtain ⟨e0, o, he0, hfit, hfacts⟩ := fitRegressor_ok hlib hp hd
  subst he0
  refine ⟨_, hfit, ?_⟩
  have hlen : o.trees.length = s.self.nEstimators := by
    have := hfacts.nTrees
    rw [if_neg (by rw [show (withCategorical a.categorical s.self).ovr = s.self.ovr from rfl, ho]; simp)] at this
    exact this
  have h0 : 0 < o.trees.length := by have := hp.estimators; omega
  refine ⟨o.trees[0], List.getElem?_eq_getElem h0, ?_⟩
  obtain ⟨seed, depth, y', w', hs, hdep, -, -, hb⟩ := growTrees_getElem? o.htrees (List.getElem?_eq_getElem h0)
  rw [buildTree_ctx hb]
  simp only
  have e1 : (seedsOf lib (withCategorical a.categorical s.self) s.np).2 = s.np := by
    unfold seedsOf
    rw [show (withCategorical a.categorical s.self).randomState = s.self.randomState from rfl, hr]
  have e2 : (subsetOf lib (withCategorical a.categorical s.self) a.nRows s.np).2 = s.np := by
    unfold subsetOf
    rw [show (withCategorical a.categorical s.self).subsample = s.self.subsample from rfl, hsub]
  rw [e1, e2, hrd] at hdep
  obtain ⟨hlt, -⟩ := List.getElem?_eq_some_iff.1 hs
  obtain ⟨k, hk⟩ : ∃ k, (seedsOf lib (withCategorical a.categorical s.self) s.np).1.length = k + 1 := ⟨_, (Nat.succ_pred_eq_of_pos hlt).symm⟩
  rw [hk] at hdep
  simp only [depthsOf, if_true, List.getElem?_cons_zero] at hdep
  injection hdep with hdep
  rw [hdep]

/-! ## C43 -/

/-- What the code does in one-versus-rest mode with at least three classes: tree `i` uses the seed of estimator `i // n_classes`. As it is a tree of
class `i // n_estimators`, two trees of the same class with the same seed predict the same on all data. -/
theorem C43_seeds {lib : Lib V K ℝ G W} {a : FitArgs N V} {y : List L} {s : World L V K ℝ (List ℝ) G W}
    (hlib : LibOK lib a.nRows) (hp : ParamsValid s.self (nCols a.X)) (hd : DataValid lib.conv a s y.length) (ht : a.targetsOK = true)
    (hst : StrategyOK y.dedup.length s.self.strategy) (hagg : s.self.aggregation = true → 0 < s.self.dirichlet)
    (hmode : s.self.ovr = true) (h3 : 2 < y.dedup.length) {r : Nat} (hr : s.self.randomState = some (some r)) :
    ∃ s', fitClassifier lib a y s = (.ok (), s') ∧ s'.self.nClasses = y.dedup.length ∧ s'.self.trees.length = s.self.nEstimators * y.dedup.length ∧
      (∀ i : Nat, s'.self.seeds[i]? = (lib.seeded r s.self.nEstimators)[i / y.dedup.length]?) ∧
      (a.randomizedDepth = false → ∀ i j o o', i / y.dedup.length = j / y.dedup.length → i / s.self.nEstimators = j / s.self.nEstimators →
        s'.self.trees[i]? = some o → s'.self.trees[j]? = some o' → ∀ fba, o.predict mixV fba = o'.predict mixV fba) := by
  have hov : staysOvr s.self y = true := by unfold staysOvr; rw [hmode, sortedUnique_length]; simpa using h3
  obtain ⟨e0, o, he0, hfit, hfacts⟩ := fitClassifier_ok (okW := fun _ => True) hlib hp hd ht (fun _ _ => by rw [sortedUnique_length]; exact h3)
    (fun h h2 => by
      have := hagg h
      simp only [Num.le, Num.zero, decide_eq_true_eq] at h2
      linarith [h2.1])
    (by rw [sortedUnique_length]; exact hst) (fun k _ => by simp [Num.toNat, Num.ofNat]) (fun _ _ => trivial)
  subst he0
  have hseeds : (seedsOf lib (preparedEst (withCategorical a.categorical s.self) y) s.np).1 =
      (lib.seeded r s.self.nEstimators).flatMap fun x => List.replicate (sortedUnique y).length x := by
    unfold seedsOf
    rw [show (preparedEst (withCategorical a.categorical s.self) y).randomState = s.self.randomState from rfl, hr]
    simp only
    rw [if_pos (show (preparedEst (withCategorical a.categorical s.self) y).ovr = true from hov)]
    rfl
  have hget : ∀ i : Nat, (seedsOf lib (preparedEst (withCategorical a.categorical s.self) y) s.np).1[i]? =
      (lib.seeded r s.self.nEstimators)[i / y.dedup.length]? := by
    intro i
    rw [hseeds, flatMap_replicate_getElem? _ _ _ (by rw [sortedUnique_length]; omega), sortedUnique_length]
  refine ⟨_, hfit, sortedUnique_length y, ?_, hget, ?_⟩
  · have := hfacts.nTrees
    rw [if_pos (show (preparedEst (withCategorical a.categorical s.self) y).ovr = true from hov)] at this
    rw [← sortedUnique_length]
    exact this
  · intro hrd i j t t' h1 h2 hi hj fba
    obtain ⟨sd, dp, y', w', a1, a2, a3, a4, a5⟩ := growTrees_getElem? o.htrees hi
    obtain ⟨sd2, dp2, y2, w2, b1, b2, b3, b4, b5⟩ := growTrees_getElem? o.htrees hj
    have e1 : sd = sd2 := by
      rw [hget] at a1 b1
      rw [h1, b1] at a1
      injection a1 with a1; exact a1.symm
    have e2 : dp = dp2 := by
      rw [hrd, depthsOf_fixed] at a2 b2
      obtain ⟨ha, rfl⟩ := List.getElem?_eq_some_iff.1 a2
      obtain ⟨hb, rfl⟩ := List.getElem?_eq_some_iff.1 b2
      simp
    have hne : (preparedEst (withCategorical a.categorical s.self) y).nEstimators = s.self.nEstimators := rfl
    rw [hne, h2] at a3 a4
    rw [hne] at b3 b4
    have e3 : y' = y2 := by rw [a3] at b3; injection b3
    have e4 : w' = w2 := by rw [a4] at b4; injection b4
    subst e1 e2 e3 e4
    exact buildTree_predict_same a5 b5 mixV fba

/-- **C43**, partial: trees of the same rank for the different classes use the same seed when there is one estimator. Missing: at least two
estimators, see `C43_violated`. -/
theorem C43_one_estimator_partial {lib : Lib V K ℝ G W} {a : FitArgs N V} {y : List L} {s : World L V K ℝ (List ℝ) G W}
    (hlib : LibOK lib a.nRows) (hp : ParamsValid s.self (nCols a.X)) (hd : DataValid lib.conv a s y.length) (ht : a.targetsOK = true)
    (hst : StrategyOK y.dedup.length s.self.strategy) (hagg : s.self.aggregation = true → 0 < s.self.dirichlet)
    (hmode : s.self.ovr = true) (h3 : 2 < y.dedup.length) {r : Nat} (hr : s.self.randomState = some (some r)) (h1 : s.self.nEstimators = 1) :
    ∃ s', fitClassifier lib a y s = (.ok (), s') ∧
      SeedsShared s.self.nEstimators s'.self.nClasses (lib.seeded r s.self.nEstimators) s'.self.seeds := by
  obtain ⟨s', hfit, hc, -, hseeds, -⟩ := C43_seeds hlib hp hd ht hst hagg hmode h3 hr
  refine ⟨s', hfit, fun c hcl k hk => ?_⟩
  rw [h1] at hk
  have : k = 0 := by omega
  subst this
  rw [hseeds, h1, Nat.mul_one, Nat.add_zero, Nat.div_eq_of_lt (by omega)]

/-- **C43** is violated with at least two estimators whose seeds differ: the first two trees of the first class use the same seed and predict
the same on all data, and the trees of the same rank do not share their seeds. -/
theorem C43_violated {lib : Lib V K ℝ G W} {a : FitArgs N V} {y : List L} {s : World L V K ℝ (List ℝ) G W}
    (hlib : LibOK lib a.nRows) (hp : ParamsValid s.self (nCols a.X)) (hd : DataValid lib.conv a s y.length) (ht : a.targetsOK = true)
    (hst : StrategyOK y.dedup.length s.self.strategy) (hagg : s.self.aggregation = true → 0 < s.self.dirichlet)
    (hmode : s.self.ovr = true) (h3 : 2 < y.dedup.length) {r : Nat} (hr : s.self.randomState = some (some r)) (hrd : a.randomizedDepth = false)
    (h2 : 2 ≤ s.self.nEstimators) (hdiff : (lib.seeded r s.self.nEstimators)[0]? ≠ (lib.seeded r s.self.nEstimators)[1]?) :
    ∃ s', fitClassifier lib a y s = (.ok (), s') ∧
      ¬ SeedsShared s.self.nEstimators s'.self.nClasses (lib.seeded r s.self.nEstimators) s'.self.seeds ∧
      ∃ o o', s'.self.trees[0]? = some o ∧ s'.self.trees[1]? = some o' ∧ ∀ fba, o.predict mixV fba = o'.predict mixV fba := by
  obtain ⟨s', hfit, hc, hlen, hseeds, hsame⟩ := C43_seeds hlib hp hd ht hst hagg hmode h3 hr
  refine ⟨s', hfit, fun h => ?_, ?_⟩
  · have h01 := h 0 (by omega) 1 (by omega)
    rw [hseeds, Nat.zero_mul, Nat.zero_add, Nat.div_eq_of_lt (by omega)] at h01
    exact hdiff h01
  · have hl : 2 ≤ s'.self.trees.length := by
      rw [hlen]
      calc 2 ≤ 2 * 1 := by norm_num
        _ ≤ s.self.nEstimators * y.dedup.length := Nat.mul_le_mul h2 (by omega)
    exact ⟨s'.self.trees[0], s'.self.trees[1], List.getElem?_eq_getElem _, List.getElem?_eq_getElem _,
      hsame hrd 0 1 _ _ (by rw [Nat.div_eq_of_lt (by omega), Nat.div_eq_of_lt (by omega)]) (by rw [Nat.div_eq_of_lt (by omega), Nat.div_eq_of_lt (by omega)])
        (List.getElem?_eq_getElem _) (List.getElem?_eq_getElem _)⟩

/-! ## C44 -/

/-- **C44**, partial: the columns listed in the `categorical_features` argument of `fit` are categorical after every successful fit, on dataframes and
arrays. Missing: the argument of the constructor, see `C44_violated`. -/
theorem C44_fit_argument_partial {lib : Lib V K F G W} {a : FitArgs N V} {j : Nat} (hs : Selects a.categorical j) :
    (∀ (y : List L) (s s' : World L V K F (List F) G W), fitClassifier lib a y s = (.ok (), s') → s'.self.isCategorical_[j]? = some true) ∧
    ∀ (y : List F) (s s' : World L V K F F G W), fitRegressor lib a y s = (.ok (), s') → s'.self.isCategorical_[j]? = some true := by
  refine ⟨fun y s s' h => ?_, fun y s s' h => ?_⟩
  · obtain ⟨p, s1, o, ho⟩ := fitClassifier_inv h
    rw [ho]; exact o.selects hs
  · obtain ⟨p, s1, o, ho⟩ := fitRegressor_inv h
    rw [ho]; exact o.selects hs

/-- **C44** is violated: whatever `categorical_features` was given to the constructor, when `fit` does not get the argument again, every column of
numbers of a dataframe with more than `cat_min_categories` distinct values is numerical after a successful fit. -/
theorem C44_violated {lib : Lib V K F G W} {X : List (N × Series V)} {n : Nat} {w : Option Bool} {rd : Bool} {y : List F}
    {s s' : World L V K F F G W} {k : Nat} (h : fitRegressor lib ⟨.frame X, n, w, .none, rd, true⟩ y s = (.ok (), s')) {j : Nat} {p : N × Series V}
    (hj : X[j]? = some p) (hkind : p.2.kind = .uif) (hk : s.self.catMin = .int k) (hmany : k < (p.2.cells.filterMap id).dedup.length) :
    s'.self.isCategorical_[j]? = some false := by
  have hcat : ∀ s0, (fitChecks (⟨.frame X, n, w, .none, rd, true⟩ : FitArgs N V) y.length s).2 = s0 → s0.self.catMin = .int k := by
    rintro s0 rfl
    by_cases h1 : y.length = n
    · by_cases h2 : w ≠ none → s.weights.length = n
      · rw [fitChecks_ok (a := ⟨.frame X, n, w, .none, rd, true⟩) h1 h2]; exact hk
      · push Not at h2
        rw [fitChecks_weights (a := ⟨.frame X, n, w, .none, rd, true⟩) h1 h2.1 h2.2]; exact hk
    · rw [fitChecks_rows (a := ⟨.frame X, n, w, .none, rd, true⟩) h1]; exact hk
  unfold fitRegressor at h
  obtain ⟨sw, s0, h0, h⟩ := Py.bind_inv h
  have hc := hcat s0 (by rw [h0])
  have h' : fitRest lib ⟨.frame X, n, w, .none, rd, true⟩ ⟨fun _ => regressorTask lib.argsort, false, [y], [sw]⟩ s0 = (.ok (), s') := h
  obtain ⟨o, ho⟩ := fitRest_inv h'
  rw [ho]
  have hic : o.ic = none := by have := o.hic; simp only [getIsCategorical] at this; injection this with this; exact this.symm
  obtain ⟨decl, fc, hfc, -, hdecl, hiff⟩ := C10_fit_frame_partial o.henc j p.1 p.2 hj
  have hd : decl = none := by
    have e : (s0.self.encCfg lib n o.ic).isCategorical = none := hic
    rw [e] at hdecl; exact hdecl
  subst hd
  have hno := (hiff (fun h => by cases h))
  have hnum : fc.isCat = false := by
    cases fc with
    | num _ => rfl
    | cat cs =>
      have := hno.1 ⟨cs, rfl⟩
      rw [show (s0.self.encCfg lib n o.ic).catMin = k from by unfold Est.encCfg; rw [hc]; rfl, hkind] at this
      have h2 : (p.2.cells.filterMap id).dedup.length ≤ k := by simpa [ShouldBeCategorical] using this
      omega
  change (o.enc.map FitCol.isCat)[j]? = some false
  rw [List.getElem?_map, hfc, Option.map_some, hnum]

/-! ## C45 -/

/-- **C45**, partial: after every sequence of settings on an estimator that is not fitted, reading `random_state` gives the last valid value, and the
value before the sequence when there was none; after `fit` every setting raises ValueError. Missing: invalid values should raise ValueError, see
`C45_violated`. -/
theorem C45_read_back_partial (e : Est L V K F P G) :
    (e.fitted = false → ∀ vs : List PyState, ∃ e', vs.foldlM (fun e v => e.setRandomState v) e = .ok e' ∧ e'.fitted = false ∧
      e'.randomState = ((vs.filterMap validState).getLast?.or e.randomState) ∧
      (∀ v, (vs.filterMap validState).getLast? = some v → e'.getRandomState = .ok v)) ∧
    (e.fitted = true → ∀ v, e.setRandomState v = .error .valueError) := by
  refine ⟨fun hf vs => ?_, fun hf v => by unfold Est.setRandomState; rw [hf]; rfl⟩
  suffices h : ∃ e', vs.foldlM (fun e v => e.setRandomState v) e = .ok e' ∧ e'.fitted = false ∧
      e'.randomState = ((vs.filterMap validState).getLast?.or e.randomState) by
    obtain ⟨e', h1, h2, h3⟩ := h
    exact ⟨e', h1, h2, h3, fun v hv => by unfold Est.getRandomState; rw [h3, hv]; rfl⟩
  induction vs generalizing e with
  | nil => exact ⟨e, rfl, hf, by simp⟩
  | cons v vs ih =>
    have hstep : ∃ e1, e.setRandomState v = .ok e1 ∧ e1.fitted = false ∧ e1.randomState = (validState v).or e.randomState := by
      unfold Est.setRandomState
      rw [if_neg (by rw [hf]; simp)]
      cases v with
      | none => exact ⟨_, rfl, hf, rfl⟩
      | other => exact ⟨_, rfl, hf, rfl⟩
      | int n =>
        by_cases hn : 0 ≤ n
        · exact ⟨{ e with randomState := some (some n.toNat) }, if_pos hn, hf, by simp [validState, hn]⟩
        · exact ⟨e, if_neg hn, hf, by simp [validState, hn]⟩
    obtain ⟨e1, h1, h2, h3⟩ := hstep
    obtain ⟨e', h4, h5, h6⟩ := ih e1 h2
    refine ⟨e', by rw [List.foldlM_cons, h1]; exact h4, h5, ?_⟩
    rw [h6, h3, List.filterMap_cons]
    cases hv : validState v with
    | none => rfl
    | some x =>
      simp only [Option.some_or]
      rw [List.getLast?_cons]
      cases (vs.filterMap validState).getLast? <;> rfl

/-- **C45** is violated: no invalid value is rejected before `fit`; the estimator stays as it is, and when no valid value was ever given, as in the
constructor, reading `random_state` and calling `fit` raise AttributeError. -/
theorem C45_violated (v : PyState) (hv : validState v = none) (e : Est L V K F P G) (hf : e.fitted = false) :
    e.setRandomState v = .ok e ∧ (e.randomState = none → e.getRandomState = .error .attributeError) ∧
    ∀ (lib : Lib V K F G W) (w : List F) (np : W), e.randomState = none → (generateSeeds lib ⟨e, w, np⟩).1 = .error .attributeError := by
  refine ⟨?_, fun h => by unfold Est.getRandomState; rw [h], fun lib w np h => ?_⟩
  · unfold Est.setRandomState
    rw [hf]
    cases v with
    | none => cases hv
    | other => rfl
    | int n =>
      by_cases hn : 0 ≤ n
      · simp [validState, hn] at hv
      · simp [hn]
  · unfold generateSeeds
    rw [Py.bind_of_ok (Py.read_apply _ _)]
    have : Est.getRandomState e = .error .attributeError := by unfold Est.getRandomState; rw [h]
    rw [show (Py.lift (Est.getRandomState e) : Py (World L V K F P G W) _) = Py.lift (.error .attributeError) from by rw [this]]
    rfl

end

/-! ## C40: subsampling -/

/-- A column of numbers in which only the first row differs. -/
def rareX (k : Nat) : Dataset String Nat := .frame [("a", { kind := .uif, cells := some 0 :: List.replicate k (some 1) })]

/-- The arguments of `fit`: `k + 1` rows, the column is declared numerical. -/
def rareArgs (k : Nat) : FitArgs String Nat := ⟨rareX k, k + 1, none, .bools [false], false, true⟩

/-- The encoder draws a subset of `k` rows. -/
noncomputable def rareWorld (k np : Nat) : World Nat Nat ℚ ℝ ℝ Nat Nat := ⟨estToy ℝ false false .none (some k), [], np⟩

theorem rareData_valid {k : Nat} (hk2 : k + 1 < 2 ^ 63) (s : World Nat Nat ℚ ℝ ℝ Nat Nat) : DataValid estLib.conv (rareArgs k) s (k + 1) where
  rows := ⟨by simp [rareArgs], hk2⟩
  labels := rfl
  columns := by simp [rareArgs, rareX, nCols]
  weights h := absurd rfl h
  good := by
    refine ⟨by simp, ?_⟩
    intro p hp
    simp at hp
    subst hp
    simp [GoodSeries, rareArgs]
  small := by
    intro p hp
    simp at hp
    subst hp
    simp
  fittable := by
    refine ⟨some [false], rfl, ?_⟩
    intro p hp
    simp at hp
    subst hp
    simp [estLib, exConv]

theorem rare_fit {k np : Nat} (hk : 50000 ≤ k) (hk2 : k + 1 < 2 ^ 63) {idx : List Nat} {col : List (Option Nat)} (hidx : (estLib.choice np (k + 1) k).1 = idx)
    (hcol : idx.mapM (rd (some 0 :: List.replicate k (some 1))) = .ok col) :
    ∃ s' cfg thr, fitRegressor estLib (rareArgs k) (List.replicate (k + 1) 1) (rareWorld k np) = (.ok (), s') ∧
      s'.self.encoder = some (cfg, [.num thr]) ∧ thr.length = min 5 (max 1 (nDistinct (col.map fun c => c.map fun v => ((v : Nat) : ℚ)))) - 1 := by
  obtain ⟨e0, o, he0, h1, hfacts⟩ := fitRegressor_ok (L := Nat) (a := rareArgs k) (y := List.replicate (k + 1) 1) (s := rareWorld k np)
    (estLib_ok (n := k + 1) (by omega)) (estToy_valid _ fun _ h => Option.some.inj h ▸ hk) (by rw [List.length_replicate]; exact rareData_valid hk2 _)
  subst he0
  have hic : o.ic = some [false] := by
    have h := o.hic
    have h2 : getIsCategorical (rareArgs k).categorical (nCols (rareArgs k).X) = .ok (some [false]) := rfl
    rw [h2] at h; injection h with h; exact h.symm
  obtain ⟨fc, hfc, hcolfit⟩ := frame_col o.henc (j := 0) rfl
  have henc : o.enc = [fc] := by
    obtain ⟨cfg, enc, he, -, -, -, hlen, -⟩ := hfacts.encoder
    have hl : o.enc.length = 1 := by
      have : some ((withCategorical (rareArgs k).categorical (rareWorld k np).self).encCfg estLib (rareArgs k).nRows o.ic, o.enc) = some (cfg, enc) := he
      injection this with this
      rw [(Prod.mk.inj this).2, hlen]; rfl
    obtain ⟨x, hx⟩ := List.length_eq_one_iff.1 hl
    rw [hx] at hfc ⊢
    simpa using hfc
  unfold fitSeries at hcolfit
  rw [declared_some (m := [false]) (b := false) (by exact hic) rfl, bind_ok] at hcolfit
  rw [show isSeriesCategorical .uif (some false) _ _ = .ok .numerical from rfl, bind_ok] at hcolfit
  have hsub : (subsetOf estLib (withCategorical (rareArgs k).categorical (rareWorld k np).self) (rareArgs k).nRows
      (seedsOf estLib (withCategorical (rareArgs k).categorical (rareWorld k np).self) (rareWorld k np).np).2).1 = some idx := by
    unfold subsetOf
    rw [show (withCategorical (rareArgs k).categorical (rareWorld k np).self).subsample = some k from rfl]
    simp only
    rw [if_pos (show k < (rareArgs k).nRows from Nat.lt_succ_self k), ← hidx]
    rfl
  simp only at hcolfit
  rw [hsub, show takeSubset (some idx) _ = _ from hcol, bind_ok] at hcolfit
  have hfl : toFloats estLib.conv.toFloat .typeError col = .ok (col.map fun c => c.map fun v => ((v : Nat) : ℚ)) := by
    unfold toFloats
    refine mapM_eq_ok.2 ?_
    rw [List.forall₂_map_right_iff]
    refine List.forall₂_same.2 fun c _ => ?_
    cases c <;> rfl
  rw [hfl, bind_ok] at hcolfit
  obtain ⟨thr, hthr, -, -, hlen, -⟩ := findBinningThresholds_spec
    ((withCategorical (rareArgs k).categorical (rareWorld k np).self).encCfg estLib (rareArgs k).nRows o.ic).cap
    (col.map fun c => c.map fun v => ((v : Nat) : ℚ)) 5 (by norm_num)
  rw [show ((withCategorical (rareArgs k).categorical (rareWorld k np).self).encCfg estLib (rareArgs k).nRows o.ic).maxBins = 5 from rfl, hthr,
    bind_ok] at hcolfit
  injection hcolfit with hcolfit
  refine ⟨_, (withCategorical (rareArgs k).categorical (rareWorld k np).self).encCfg estLib (rareArgs k).nRows o.ic, thr, h1, ?_, hlen⟩
  rw [hcolfit, ← henc]
  rfl

/-- **C40** is violated when the encoder draws a subset of the rows, here of all rows but one: with the same integer `random_state` and the
same data, the forest has an encoder with two bins or with one bin, according to the state of the global generator. `subsample` can be any
number from 50000. -/
theorem C40_violated_subsample (k : Nat) (hk : 50000 ≤ k) (hk2 : k + 1 < 2 ^ 63) :
    ∃ (lib : Lib Nat ℚ ℝ Nat Nat) (a : FitArgs String Nat) (y : List ℝ) (s s1 s2 : World Nat Nat ℚ ℝ ℝ Nat Nat) (np cfg1 cfg2 thr1 thr2 : _),
      LibOK lib a.nRows ∧ a.nRows = k + 1 ∧ a.randomizedDepth = false ∧ s.self.subsample = some k ∧ s.self.randomState = some (some 7) ∧
      fitRegressor lib a y s = (.ok (), s1) ∧ fitRegressor lib a y { s with np := np } = (.ok (), s2) ∧
      s1.self.encoder = some (cfg1, [.num thr1]) ∧ thr1.length = 1 ∧ s2.self.encoder = some (cfg2, [.num thr2]) ∧ thr2.length = 0 := by
  have hd1 : ∀ m, 1 ≤ m → nDistinct ((List.replicate m (some 1)).map fun c => c.map fun v => ((v : Nat) : ℚ)) = 1 := by
    intro m hm
    unfold nDistinct
    rw [List.map_replicate, List.filterMap_replicate_of_some (b := (1 : ℚ)) (by simp), List.toFinset_replicate_of_ne_zero (by omega)]
    rfl
  obtain ⟨j, rfl⟩ : ∃ j, k = j + 1 := ⟨k - 1, by omega⟩
  have hk1 : 1 ≤ j + 1 := by omega
  have hrd : ∀ i, 1 ≤ i → i ≤ j + 1 → rd (some 0 :: List.replicate (j + 1) (some 1)) i = .ok (some 1) := by
    intro i h1 h2
    rw [rd_ok]
    obtain ⟨i, rfl⟩ : ∃ i', i = i' + 1 := ⟨i - 1, by omega⟩
    rw [List.getElem?_cons_succ, List.getElem?_replicate, if_pos (by omega)]
  have hconst : ∀ {f : Nat → M (Option Nat)} {l : List Nat}, (∀ i ∈ l, f i = .ok (some 1)) →
      List.Forall₂ (fun i b => f i = .ok b) l (List.replicate l.length (some 1)) := by
    intro f l h
    rw [← List.map_const', List.forall₂_map_right_iff]
    exact List.forall₂_same.2 h
  have c1 : (List.range (j + 1)).mapM (rd (some 0 :: List.replicate (j + 1) (some 1))) = .ok (some 0 :: List.replicate j (some 1)) := by
    rw [List.range_succ_eq_map, mapM_eq_ok]
    refine .cons rfl ?_
    rw [List.forall₂_map_left_iff]
    have := hconst (f := fun i => rd (some 0 :: List.replicate (j + 1) (some 1)) i.succ) (l := List.range j) (fun i hi => by
      have := List.mem_range.1 hi
      exact hrd _ (by omega) (by omega))
    rwa [List.length_range] at this
  have c2 : ((List.range (j + 1)).map (j + 1 + 1 - 1 - ·)).mapM (rd (some 0 :: List.replicate (j + 1) (some 1))) = .ok (List.replicate (j + 1) (some 1)) := by
    rw [mapM_eq_ok]
    have := hconst (f := rd (some 0 :: List.replicate (j + 1) (some 1))) (l := (List.range (j + 1)).map (j + 1 + 1 - 1 - ·)) (fun i hi => by
      obtain ⟨t, ht, rfl⟩ := List.mem_map.1 hi
      have := List.mem_range.1 ht
      exact hrd _ (by omega) (by omega))
    rwa [List.length_map, List.length_range] at this
  obtain ⟨s1, cfg1, thr1, h1, h2, h3⟩ := rare_fit (np := 0) hk hk2 (idx := List.range (j + 1)) rfl c1
  obtain ⟨s2, cfg2, thr2, h1', h2', h3'⟩ := rare_fit (np := 1) hk hk2 (idx := (List.range (j + 1)).map (j + 1 + 1 - 1 - ·)) rfl c2
  refine ⟨estLib, rareArgs (j + 1), _, rareWorld (j + 1) 0, s1, s2, 1, cfg1, cfg2, thr1, thr2, estLib_ok (n := j + 1 + 1) (by omega), rfl, rfl, rfl, rfl,
    h1, h1', h2, ?_, h2', ?_⟩
  · rw [h3]
    have : nDistinct ((some 0 :: List.replicate j (some 1)).map fun c => c.map fun v => ((v : Nat) : ℚ)) = 2 := by
      unfold nDistinct
      rw [List.map_cons, List.map_replicate, Option.map_some, Option.map_some, List.filterMap_cons_some (b := ((0 : Nat) : ℚ)) (by rfl),
        List.filterMap_replicate_of_some (b := ((1 : Nat) : ℚ)) (by rfl), List.toFinset_cons, List.toFinset_replicate_of_ne_zero (by omega)]
      rw [Finset.card_insert_of_notMem (by simp)]
      rfl
    rw [this]; rfl
  · rw [h3', hd1 _ (by omega)]; rfl

/-! ## Examples -/

/-- The hypotheses of `C40_classifier_partial` hold. -/
example : SameButGenerator (fitClassifier estLib (estArgs none false) [3, 3, 5, 5, 8, 8] (estWorld _ true false .none 0))
    (fitClassifier estLib (estArgs none false) [3, 3, 5, 5, 8, 8] (estWorld _ true false .none 41)) :=
  C40_classifier_partial estLib (estArgs none false) _ (estWorld _ true false .none 0) 41 (r := 7) rfl rfl (fun k h => by cases h)

/-- The hypotheses of `C40_regressor_partial` hold. -/
example : SameButGenerator (fitRegressor estLib (estArgs none false) realY (estWorld _ false false .none 0))
    (fitRegressor estLib (estArgs none false) realY (estWorld _ false false .none 41)) :=
  C40_regressor_partial estLib (estArgs none false) _ (estWorld _ false false .none 0) 41 (r := 7) rfl rfl (fun k h => by cases h)

/-- `C40_violated_depth`: the same `random_state`, other trees. -/
example : ∃ s1 s2, fitRegressor estLib (estArgs none true) realY (estWorld _ false false .none 0) = (.ok (), s1) ∧
    fitRegressor estLib (estArgs none true) realY (estWorld _ false false .none 41) = (.ok (), s2) ∧ s1.self.trees ≠ s2.self.trees := by
  have hlib : LibOK estLib (estArgs none true).nRows := estLib_ok (n := 6) (by norm_num)
  obtain ⟨s1, h1, o1, ho1, hd1⟩ := C40_violated_depth (L := Nat) (a := estArgs none true) (y := realY) (s := estWorld _ false false .none 0) hlib
    (estToy_valid _) (estData_valid _ _) rfl (r := 7) rfl rfl rfl
  obtain ⟨s2, h2, o2, ho2, hd2⟩ := C40_violated_depth (L := Nat) (a := estArgs none true) (y := realY) (s := estWorld _ false false .none 41) hlib
    (estToy_valid _) (estData_valid _ _) rfl (r := 7) rfl rfl rfl
  refine ⟨s1, s2, h1, h2, fun h => ?_⟩
  rw [h, ho2] at ho1
  injection ho1 with ho1
  rw [ho1, hd1] at hd2
  simp [estLib, estWorld] at hd2

/-- `C40_violated_subsample` with 50001 rows and a subset of 50000. -/
example := C40_violated_subsample 50000 (by norm_num) (by norm_num)

/-- `C43_violated` (and `C43_seeds`) with three classes and two estimators. -/
example : ∃ s', fitClassifier estLib (estArgs none false) [3, 3, 5, 5, 8, 8] (estWorld _ true false .none 0) = (.ok (), s') ∧
    ¬ SeedsShared 2 3 [7, 8] s'.self.seeds := by
  have hlib : LibOK estLib (estArgs none false).nRows := estLib_ok (n := 6) (by norm_num)
  obtain ⟨s', h1, h2, -⟩ := C43_violated hlib (estToy_valid _) (estData_valid (P := List ℝ) (ovr := true) (balanced := false) (cf := .none) (np := 0) none false)
    (y := [3, 3, 5, 5, 8, 8]) rfl est_strategy (fun _ => by norm_num [estWorld, estToy]) rfl (by decide) (r := 7) rfl rfl (by simp [estWorld, estToy])
    (by simp [estLib, estWorld, estToy, List.range_succ])
  obtain ⟨s'', h1', h3, -⟩ := C43_seeds hlib (estToy_valid _) (estData_valid (P := List ℝ) (ovr := true) (balanced := false) (cf := .none) (np := 0) none false)
    (y := [3, 3, 5, 5, 8, 8]) rfl est_strategy (fun _ => by norm_num [estWorld, estToy]) rfl (by decide) (r := 7) rfl
  rw [h1] at h1'
  obtain ⟨-, rfl⟩ := Prod.mk.inj h1'
  rw [h3] at h2
  exact ⟨s', h1, h2⟩

/-- `C43_one_estimator_partial`. -/
example : ∃ s', fitClassifier estLib (estArgs none false) [3, 3, 5, 5, 8, 8] ⟨{ estToy _ true false .none none with nEstimators := 1 }, realW, 0⟩ = (.ok (), s') ∧
    SeedsShared 1 s'.self.nClasses [7] s'.self.seeds := by
  have hlib : LibOK estLib (estArgs none false).nRows := estLib_ok (n := 6) (by norm_num)
  have hp : ParamsValid { estToy (List ℝ) true false .none none with nEstimators := 1 } 2 :=
    ⟨le_refl _, by simp [estToy], rfl, by simp [estToy], by simp [estToy], ⟨_, rfl⟩, by simp [estToy]⟩
  exact C43_one_estimator_partial hlib hp (estData_valid_any _ false) (y := [3, 3, 5, 5, 8, 8]) rfl est_strategy (fun _ => by norm_num [estToy]) rfl
    (by decide) (r := 7) rfl rfl

/-- `C44_violated`: the constructor got `categorical_features=[0]`, the first column is numerical after `fit`. -/
example : ∃ s', fitRegressor estLib (estArgs none false) realY (estWorld _ false false (.ints [0]) 0) = (.ok (), s') ∧ s'.self.isCategorical_[0]? = some false := by
  obtain ⟨e0, o, -, h, -⟩ := fitRegressor_ok (L := Nat) (a := estArgs none false) (y := realY) (s := estWorld _ false false (.ints [0]) 0)
    (estLib_ok (n := 6) (by norm_num)) (estToy_valid _) (estData_valid _ _)
  exact ⟨_, h, C44_violated h (j := 0) (k := 4) rfl rfl rfl (by decide)⟩

/-- `C44_fit_argument_partial`: the same column given to `fit`. -/
example : ∃ s', fitRegressor estLib { estArgs none false with categorical := .ints [0] } realY (estWorld _ false false .none 0) = (.ok (), s') ∧
    s'.self.isCategorical_[0]? = some true := by
  have hd := estData_valid (P := ℝ) (ovr := false) (balanced := false) (cf := .none) (np := 0) none false
  obtain ⟨ic, -, hf⟩ := hd.fittable
  obtain ⟨e0, o, -, h, -⟩ := fitRegressor_ok (L := Nat) (a := { estArgs none false with categorical := .ints [0] }) (y := realY)
    (s := estWorld _ false false .none 0) (estLib_ok (n := 6) (by norm_num)) (estToy_valid _)
    ⟨hd.1, hd.2, hd.3, hd.4, hd.5, hd.6, some [true, false], rfl, hf⟩
  exact ⟨_, h, (C44_fit_argument_partial (L := Nat) (a := { estArgs none false with categorical := .ints [0] }) (j := 0) (by simp [Selects])).2 _ _ _ h⟩

/-- `C45_read_back_partial`: settings 5, -1, None, "a", 9, 2.5. -/
example : ∃ e', [PyState.int 5, .int (-1), .none, .other, .int 9, .other].foldlM (fun e v => e.setRandomState v) (estToy ℝ false false .none none) = .ok e' ∧
    e'.getRandomState = .ok (some 9) := by
  obtain ⟨e', h1, -, -, h4⟩ := (C45_read_back_partial (estToy ℝ false false .none none)).1 rfl [PyState.int 5, .int (-1), .none, .other, .int 9, .other]
  exact ⟨e', h1, h4 _ (by decide)⟩

/-- `C45_violated`: an estimator constructed with `random_state=-3`. -/
example : ∃ e, Est.setRandomState (.int (-3)) { estToy ℝ false false .none none with randomState := none } = .ok e ∧
    e.getRandomState = .error .attributeError := by
  have h := C45_violated (W := Nat) (.int (-3)) (by decide) { estToy ℝ false false .none none with randomState := none } rfl
  exact ⟨_, h.1, h.2.1 rfl⟩

end Verif
