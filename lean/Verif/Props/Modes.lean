import Verif.Proofs.Modes
import Verif.Model.Inspect
import Verif.Props.Relabel
import Verif.Props.Rename

/-! Equivalent settings of the estimators (C102, C103), refits (C104), `handle_unknown` (C105) and names of columns (C106). -/
set_option linter.unusedSectionVars false
namespace Verif

open Spec

section
variable {L V K F P G W N N' : Type} [LinearOrder L] [DecidableEq V] [DecidableEq N] [DecidableEq N'] [LinearOrder K] [Field K] [FloorSemiring K] [Num F]

/-- **C102** With at most two classes a new classifier with `multiclass="ovr"` does the same as one with "multinomial": the same exception or none, the same
random draws, and after a successful fit the same forest, down to the attribute `multiclass`. Whatever the data, parameters and arithmetic. -/
theorem C102_classifier (lib : Lib V K F G W) (a : FitArgs N V) {y : List L} (hy : y ≠ []) (h2 : y.dedup.length ≤ 2)
    (s : World L V K F (List F) G W) (hf : s.self.fitted = false) :
    (fitClassifier lib a y (withMode true s)).1 = (fitClassifier lib a y (withMode false s)).1 ∧
    (fitClassifier lib a y (withMode true s)).2.np = (fitClassifier lib a y (withMode false s)).2.np ∧
    ((fitClassifier lib a y (withMode true s)).1 = .ok () → fitClassifier lib a y (withMode true s) = fitClassifier lib a y (withMode false s)) := by
  rw [← sortedUnique_length] at h2
  unfold fitClassifier
  by_cases h1 : y.length = a.nRows
  · by_cases hw : a.weights ≠ none → s.weights.length = a.nRows
    · rw [Py.bind_of_ok (fitChecks_ok (s := withMode true s) h1 hw), Py.bind_of_ok (fitChecks_ok (s := withMode false s) h1 hw)]
      cases ht : a.targetsOK with
      | true =>
        suffices h : ∀ {β : Type} (f : FitData F (List F) (List F) G → Py (World L V K F (List F) G W) β),
            (prepClassifier lib a y (weightsOf a (withMode true s)) >>= f) { withMode true s with self := withCategorical a.categorical (withMode true s).self } =
            (prepClassifier lib a y (weightsOf a (withMode false s)) >>= f) { withMode false s with self := withCategorical a.categorical (withMode false s).self } by
          have := h (fitRest lib a)
          exact ⟨congrArg Prod.fst this, congrArg (fun x => x.2.np) this, fun _ => this⟩
        intro β f
        refine Py.bind_congr ?_
        unfold prepClassifier
        rw [ht]
        exact Py.bind_congr (encodeY_mode (s := { s with self := withCategorical a.categorical s.self }) hy h2 hf)
      | false =>
        have h : ∀ b, (prepClassifier lib a y (weightsOf a (withMode b s)) >>= fitRest lib a) { withMode b s with self := withCategorical a.categorical (withMode b s).self } =
            (.error .valueError, { withMode b s with self := withCategorical a.categorical (withMode b s).self }) := fun b => by
          refine Py.bind_of_error ?_
          unfold prepClassifier
          rw [ht]
          exact Py.bind_of_error (encodeY_targets _ _)
        rw [h true, h false]
        exact ⟨rfl, rfl, fun h => by cases h⟩
    · push Not at hw
      rw [Py.bind_of_error (fitChecks_weights (s := withMode true s) h1 hw.1 hw.2), Py.bind_of_error (fitChecks_weights (s := withMode false s) h1 hw.1 hw.2)]
      exact ⟨rfl, rfl, fun h => by cases h⟩
  · rw [Py.bind_of_error (fitChecks_rows (s := withMode true s) h1), Py.bind_of_error (fitChecks_rows (s := withMode false s) h1)]
    exact ⟨rfl, rfl, fun h => by cases h⟩

/-- **C103** A regressor that is given the weight one for each row does the same as one without weights: the same exception or none, and the same state
afterwards, except for the array of the caller. -/
theorem C103_regressor (lib : Lib V K F G W) (a : FitArgs N V) (y : List F) (s : World L V K F F G W) (m : Bool) (hy : y.length = a.nRows) :
    fitRegressor lib { a with weights := some m } y (withWeights (List.replicate a.nRows Num.one) s) =
      ((fitRegressor lib { a with weights := none } y s).1, withWeights (List.replicate a.nRows Num.one) (fitRegressor lib { a with weights := none } y s).2) := by
  unfold fitRegressor
  rw [Py.bind_of_ok (fitChecks_ok (L := L) (V := V) (K := K) (P := F) (G := G) (W := W) (a := { a with weights := some m }) (s := withWeights (List.replicate a.nRows Num.one) s) hy (fun _ => List.length_replicate)),
    Py.bind_of_ok (fitChecks_ok (L := L) (V := V) (K := K) (P := F) (G := G) (W := W) (a := { a with weights := none }) hy (fun h => absurd rfl h))]
  exact Py.bind_rel (r := withWeights (List.replicate a.nRows Num.one)) (m := prepRegressor lib y (List.replicate a.nRows Num.one)) rfl
    fun p t => fitRest_callerWeights (List.replicate a.nRows Num.one) lib a p t

/-- **C103** The same for a classifier. With `class_weight="balanced"` it overwrites a float32 array of the caller (C70). -/
theorem C103_classifier (lib : Lib V K F G W) (a : FitArgs N V) (y : List L) (s : World L V K F (List F) G W) (m : Bool) (hy : y.length = a.nRows) :
    ∃ w, fitClassifier lib { a with weights := some m } y (withWeights (List.replicate a.nRows Num.one) s) =
      ((fitClassifier lib { a with weights := none } y s).1, withWeights w (fitClassifier lib { a with weights := none } y s).2) := by
  unfold fitClassifier
  rw [Py.bind_of_ok (fitChecks_ok (a := { a with weights := some m }) (s := withWeights (List.replicate a.nRows Num.one) s) hy (fun _ => List.length_replicate)),
    Py.bind_of_ok (fitChecks_ok (a := { a with weights := none }) hy (fun h => absurd rfl h))]
  obtain ⟨w, hw⟩ := prepClassifier_callerWeights lib a y (List.replicate a.nRows Num.one) (List.replicate a.nRows Num.one) (some m) none
    { s with self := withCategorical a.categorical s.self }
  exact ⟨w, Py.bind_rel hw fun p t => fitRest_callerWeights w lib a p t⟩

/-- **C104** A regressor forgets its history: whatever it was fitted on before, `fit` does the same as for a regressor with the same hyperparameters that
was never fitted. It succeeds in the same cases, with the same state afterwards. -/
theorem C104_regressor (lib : Lib V K F G W) (a : FitArgs N V) (y : List F) (s t : World L V K F F G W) :
    fitRegressor lib a y s = (.ok (), t) ↔ fitRegressor lib a y { s with self := unfittedRegressor s.self } = (.ok (), t) := by
  constructor
  · intro h
    obtain ⟨h1, h2, h⟩ := fitRegressor_needs h
    exact fitRegressor_of h1 h2 (fitRest_late h)
  · intro h
    obtain ⟨h1, h2, h⟩ := fitRegressor_needs h
    exact fitRegressor_of h1 h2
      (fitRest_late (f := s.self.fitted) (mf := s.self.maxFeatures_) (seeds := s.self.seeds) (ic := s.self.isCategorical_) (enc := s.self.encoder)
        (trees := s.self.trees) (ns := s.self.nSamples) (nf := s.self.nFeatures) h)

/-- **C104** The same for a classifier. Missing: with `multiclass="ovr"` and at most two classes a fitted classifier raises an exception (C51). -/
theorem C104_classifier_partial (lib : Lib V K F G W) (a : FitArgs N V) {y : List L} (hy : y ≠ []) (s t : World L V K F (List F) G W)
    (hovr : s.self.ovr = true → 2 < y.dedup.length) :
    fitClassifier lib a y s = (.ok (), t) ↔ fitClassifier lib a y { s with self := unfittedClassifier s.self } = (.ok (), t) := by
  rw [← sortedUnique_length] at hovr
  constructor
  · intro h
    obtain ⟨h1, h2, h3, h4, h⟩ := fitClassifier_needs hy (fun o _ => hovr o) h
    exact fitClassifier_of (s := { s with self := unfittedClassifier s.self }) hy (fun o _ => hovr o) h1 h2 h3 h4
      (fitRest_late (f := false) (mf := 0) (seeds := []) (ic := []) (enc := none) (trees := []) (ns := 0) (nf := 0) h)
  · intro h
    obtain ⟨h1, h2, h3, h4, h⟩ := fitClassifier_needs (s := { s with self := unfittedClassifier s.self }) hy (fun o _ => hovr o) h
    exact fitClassifier_of hy (fun o _ => hovr o) h1 h2 h3 h4
      (fitRest_late (f := s.self.fitted) (mf := s.self.maxFeatures_) (seeds := s.self.seeds) (ic := s.self.isCategorical_) (enc := s.self.encoder)
        (trees := s.self.trees) (ns := s.self.nSamples) (nf := s.self.nFeatures) h)

/-- **C105** `handle_unknown` has no effect on `fit` of a regressor: with the other value it succeeds as well, with the same state afterwards except for this
parameter. -/
theorem C105_fit_regressor {lib : Lib V K F G W} {a : FitArgs N V} {y : List F} {s t : World L V K F F G W} (b : Bool) (h : fitRegressor lib a y s = (.ok (), t)) :
    fitRegressor lib a y { s with self := withUnknown b s.self } = (.ok (), { t with self := withUnknown b t.self }) := by
  obtain ⟨h1, h2, h⟩ := fitRegressor_needs h
  exact fitRegressor_of h1 h2 (fitRest_unknown b h)

/-- **C105** The same for a classifier. -/
theorem C105_fit_classifier {lib : Lib V K F G W} {a : FitArgs N V} {y : List L} (hy : y ≠ []) {s t : World L V K F (List F) G W} (b : Bool)
    (h : fitClassifier lib a y s = (.ok (), t)) :
    fitClassifier lib a y { s with self := withUnknown b s.self } = (.ok (), { t with self := withUnknown b t.self }) := by
  by_cases hf : s.self.ovr = true → s.self.fitted = true → 2 < (sortedUnique y).length
  · obtain ⟨h1, h2, h3, h4, h⟩ := fitClassifier_needs hy hf h
    exact fitClassifier_of (s := { s with self := withUnknown b s.self }) hy hf h1 h2 h3 h4 (fitRest_unknown b h)
  · push Not at hf
    exact absurd h (fitClassifier_refit hf.1 hf.2.1 hf.2.2)

/-- **C105** Two forests that differ in `handle_unknown` only, on a table: with "error" the table is accepted only if every category of it was known to `fit`; then
both values give the same predictions and leaves, and in particular accept the same tables with known categories only. -/
theorem C105_predict (lib : Lib V K F G W) (X : Dataset N V) (n : Nat) (eps : F) :
    (∀ e : Est L V K F P G, ∀ cfg enc, e.encoder = some (cfg, enc) → AllKnown enc X →
      (withUnknown true e).apply lib n X = (withUnknown false e).apply lib n X) ∧
    (∀ e : Est L V K F (List F) G, ∀ cfg enc, e.encoder = some (cfg, enc) → AllKnown enc X →
      (withUnknown true e).predictProba lib eps n X = (withUnknown false e).predictProba lib eps n X) ∧
    (∀ e : Est L V K F F G, ∀ cfg enc, e.encoder = some (cfg, enc) → AllKnown enc X →
      (withUnknown true e).predictReg lib n X = (withUnknown false e).predictReg lib n X) ∧
    (∀ e : Est L V K F P G, ∀ cfg enc, e.encoder = some (cfg, enc) → (∃ r, (withUnknown true e).apply lib n X = .ok r) → AllKnown enc X) ∧
    (∀ e : Est L V K F (List F) G, ∀ cfg enc, e.encoder = some (cfg, enc) → (∃ r, (withUnknown true e).predictProba lib eps n X = .ok r) → AllKnown enc X) ∧
    (∀ e : Est L V K F F G, ∀ cfg enc, e.encoder = some (cfg, enc) → (∃ r, (withUnknown true e).predictReg lib n X = .ok r) → AllKnown enc X) := by
  refine ⟨fun e cfg enc he hk => ?_, fun e cfg enc he hk => ?_, fun e cfg enc he hk => ?_, fun e cfg enc he hr => ?_, fun e cfg enc he hr => ?_, fun e cfg enc he hr => ?_⟩
  · unfold Est.apply; rw [encode_unknown he hk]; rfl
  · unfold Est.predictProba; rw [encode_unknown he hk]; rfl
  · unfold Est.predictReg; rw [encode_unknown he hk]; rfl
  · obtain ⟨r, hr⟩ := hr
    unfold Est.apply at hr
    rw [bind_eq_ok] at hr
    obtain ⟨fba, hb, -⟩ := hr
    exact encode_rejects he hb
  · obtain ⟨r, hr⟩ := hr
    unfold Est.predictProba at hr
    rw [bind_eq_ok] at hr
    obtain ⟨fba, hb, -⟩ := hr
    exact encode_rejects he hb
  · obtain ⟨r, hr⟩ := hr
    unfold Est.predictReg at hr
    rw [bind_eq_ok] at hr
    obtain ⟨fba, hb, -⟩ := hr
    exact encode_rejects he hb

/-- **C106** The names of the columns do not matter, if the columns have different names: `fit` of a regressor does the same, whatever the names. -/
theorem C106_fit_regressor (lib : Lib V K F G W) (a : FitArgs N V) {X' : Dataset N' V} (h : ColumnsAgree a.X X') (y : List F) :
    fitRegressor (L := L) lib a y = fitRegressor lib ⟨X', a.nRows, a.weights, a.categorical, a.randomizedDepth, a.targetsOK⟩ y := by
  unfold fitRegressor fitRest
  simp only [encoderFit_names h, encoderTransform_names h, nFeatures_names h]
  rfl

/-- **C106** The same for a classifier. -/
theorem C106_fit_classifier (lib : Lib V K F G W) (a : FitArgs N V) {X' : Dataset N' V} (h : ColumnsAgree a.X X') (y : List L) :
    fitClassifier (F := F) lib a y = fitClassifier lib ⟨X', a.nRows, a.weights, a.categorical, a.randomizedDepth, a.targetsOK⟩ y := by
  unfold fitClassifier fitRest
  simp only [encoderFit_names h, encoderTransform_names h, nFeatures_names h]
  rfl

theorem encode_names {lib : Lib V K F G W} {X : Dataset N V} {X' : Dataset N' V} (h : ColumnsAgree X X') (e : Est L V K F P G) (n : Nat) :
    e.encode lib n X = e.encode lib n X' := by
  unfold Est.encode
  simp only [encoderTransform_names h]

/-- **C106** A fitted forest identifies the columns by their position: tables with the same columns in the same order have the same predictions and leaves,
whatever the names. -/
theorem C106_predict (lib : Lib V K F G W) {X : Dataset N V} {X' : Dataset N' V} (h : ColumnsAgree X X') (n : Nat) (eps : F) :
    (∀ e : Est L V K F (List F) G, e.predictProba lib eps n X = e.predictProba lib eps n X' ∧ e.predict lib eps n X = e.predict lib eps n X' ∧
      e.predictProbaTrees lib n X = e.predictProbaTrees lib n X') ∧
    (∀ e : Est L V K F F G, e.predictReg lib n X = e.predictReg lib n X' ∧ e.weightedDepth lib n X = e.weightedDepth lib n X') ∧
    ∀ e : Est L V K F P G, e.apply lib n X = e.apply lib n X' := by
  refine ⟨fun e => ⟨?_, ?_, ?_⟩, fun e => ⟨?_, ?_⟩, fun e => ?_⟩
  · unfold Est.predictProba; rw [encode_names h]
  · unfold Est.predict Est.predictProba; rw [encode_names h]
  · unfold Est.predictProbaTrees Est.checkNFeatures; rw [encode_names h, nFeatures_names h]
  · unfold Est.predictReg; rw [encode_names h]
  · unfold Est.weightedDepth; rw [encode_names h]
  · unfold Est.apply; rw [encode_names h]

end

section
attribute [local instance] ratNum

/-- The library of the examples. -/
def modeLib := ratLib fun _ => [0, 1, 2, 3, 4, 5, 2, 3]

/-- The arguments of the examples. -/
def modeArgs (w : Option Bool) : FitArgs String Nat := ⟨ratX, 8, w, .none, false, true⟩

/-- Labels of two classes. -/
def modeY : List Nat := [3, 3, 3, 5, 5, 5, 3, 5]

/-- Labels of three classes. -/
def modeY3 : List Nat := [3, 3, 8, 5, 5, 5, 8, 5]

/-- `C102_classifier`: two classes, a categorical column; the fit succeeds and the mode has changed. -/
example : (fitClassifier modeLib (modeArgs none) modeY (withMode true (ratWorld 1 true .binary))).1 = .ok () ∧
    (fitClassifier modeLib (modeArgs none) modeY (withMode true (ratWorld 1 true .binary))).2.self.ovr = false ∧
    (fitClassifier modeLib (modeArgs none) modeY (withMode true (ratWorld 1 true .binary))).2.self.trees.length = 1 ∧
    fitClassifier modeLib (modeArgs none) modeY (withMode true (ratWorld 1 true .binary)) =
      fitClassifier modeLib (modeArgs none) modeY (withMode false (ratWorld 1 true .binary)) := by
  have h : (fitClassifier modeLib (modeArgs none) modeY (withMode true (ratWorld 1 true .binary))).1 = .ok () := by decide +kernel
  exact ⟨h, by decide +kernel, by decide +kernel,
    (C102_classifier modeLib (modeArgs none) (y := modeY) (by decide) (by decide) (ratWorld 1 true .binary) rfl).2.2 h⟩

/-- With three classes the modes differ: the number of trees is another one. -/
example : (fitClassifier modeLib (modeArgs none) modeY3 (withMode true (ratWorld 1 true .all))).2.self.trees.length = 3 ∧
    (fitClassifier modeLib (modeArgs none) modeY3 (withMode false (ratWorld 1 true .all))).2.self.trees.length = 1 := by
  constructor <;> decide +kernel

/-- `C103`: the fits succeed. -/
example : (fitClassifier modeLib (modeArgs none) modeY (ratWorld 1 false .binary)).1 = .ok () ∧
    (fitClassifier modeLib (modeArgs (some true)) modeY (withWeights (List.replicate 8 1) (ratWorld 1 false .binary))).1 = .ok () ∧
    (fitRegressor modeLib (modeArgs none) [1, 2, 3, 4, 5, 6, 7, 8] ratWorldReg).1 = .ok () ∧
    (fitRegressor modeLib (modeArgs (some false)) [1, 2, 3, 4, 5, 6, 7, 8] (withWeights (List.replicate 8 1) ratWorldReg)).1 = .ok () := by
  refine ⟨by decide +kernel, by decide +kernel, by decide +kernel, by decide +kernel⟩

/-- `C104`: a classifier that was fitted on three classes is fitted again on two classes, and a regressor on other targets. -/
example : ∃ s s' t : World Nat Nat ℚ ℚ (List ℚ) Nat Nat, fitClassifier modeLib (modeArgs none) modeY3 (ratWorld 1 false .all) = (.ok (), s) ∧
    fitClassifier modeLib (modeArgs none) modeY s = (.ok (), t) ∧ s' = { s with self := unfittedClassifier s.self } ∧ s.self.nClasses = 3 ∧ s'.self.nClasses = 0 ∧
    fitClassifier modeLib (modeArgs none) modeY s' = (.ok (), t) ∧ t.self.nClasses = 2 := by
  have h1 : fitClassifier modeLib (modeArgs none) modeY3 (ratWorld 1 false .all) =
      (.ok (), (fitClassifier modeLib (modeArgs none) modeY3 (ratWorld 1 false .all)).2) := Prod.ext (by decide +kernel) rfl
  have h2 : fitClassifier modeLib (modeArgs none) modeY (fitClassifier modeLib (modeArgs none) modeY3 (ratWorld 1 false .all)).2 =
      (.ok (), (fitClassifier modeLib (modeArgs none) modeY (fitClassifier modeLib (modeArgs none) modeY3 (ratWorld 1 false .all)).2).2) :=
    Prod.ext (by decide +kernel) rfl
  refine ⟨_, _, _, h1, h2, rfl, by decide +kernel, rfl, (C104_classifier_partial modeLib (modeArgs none) (by decide) _ _ fun h => ?_).1 h2, by decide +kernel⟩
  have h0 : (fitClassifier modeLib (modeArgs none) modeY3 (ratWorld 1 false .all)).2.self.ovr = false := by decide +kernel
  rw [h0] at h
  cases h

/-- **C104** is violated for a fitted classifier in one-versus-rest mode with at most two classes: a new one can be fitted, the fitted one raises an exception. -/
theorem C104_violated :
    (fitClassifier modeLib (modeArgs none) modeY3 (ratWorld 1 true .all)).1 = .ok () ∧
    (fitClassifier modeLib (modeArgs none) modeY (fitClassifier modeLib (modeArgs none) modeY3 (ratWorld 1 true .all)).2).1 = .error .attributeError ∧
    (fitClassifier modeLib (modeArgs none) modeY
      { (fitClassifier modeLib (modeArgs none) modeY3 (ratWorld 1 true .all)).2 with
        self := unfittedClassifier (fitClassifier modeLib (modeArgs none) modeY3 (ratWorld 1 true .all)).2.self }).1 = .ok () := by
  refine ⟨by decide +kernel, by decide +kernel, by decide +kernel⟩

/-- `C105`: a forest fitted on words accepts with "error" the training data, and not a table with a new word, which the other value accepts. -/
example : ∃ s : World Nat Nat ℚ ℚ (List ℚ) Nat Nat, fitClassifier modeLib (modeArgs none) modeY (ratWorld 1 false .binary) = (.ok (), s) ∧
    ((withUnknown true s.self).apply modeLib 8 ratX).toOption.isSome = true ∧
    (withUnknown true s.self).apply modeLib 1 (.frame [("b", { kind := .bOSU, cells := [some 9] })]) = .error .valueError ∧
    ((withUnknown false s.self).apply modeLib 1 (.frame [("b", { kind := .bOSU, cells := [some 9] })])).toOption.isSome = true := by
  refine ⟨_, Prod.ext (by decide +kernel) rfl, by decide +kernel, by decide +kernel, by decide +kernel⟩

/-- `C106`: the column of words has another name. -/
example : ColumnsAgree ratX (.frame [(7, { kind := .bOSU, cells := [some 0, some 0, some 1, some 1, some 2, some 2, some 1, some 1] })]) :=
  .frame (by simp) (by simp) rfl

/-- **C109** is violated: with one class, a categorical column and `cat_split_strategy="binary"`, the default, the search for a split reads column 1 of an array
that has one column. With another strategy the same fit succeeds. -/
theorem C109_violated :
    (fitClassifier modeLib (modeArgs none) (List.replicate 8 3) (ratWorld 1 false .binary)).1 = .error .oob ∧
    (fitClassifier modeLib (modeArgs none) (List.replicate 8 3) (ratWorld 1 false .all)).1 = .ok () := by
  constructor <;> decide +kernel

end

end Verif
