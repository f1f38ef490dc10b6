import Verif.Proofs.Unfitted
import Verif.Proofs.EstToy
import Verif.Props.FullTree
import Verif.Props.Estimator

/-! # C100: before and after the first successful `fit` -/
set_option linter.unusedSectionVars false
namespace Verif

open Spec

section
variable {L V K F P G W N : Type} [LinearOrder L] [DecidableEq V] [DecidableEq N] [LinearOrder K] [Field K] [FloorSemiring K] [Num F]

/-- **C100** A classifier none of whose calls of `fit` has succeeded answers no question: all methods that predict and all attributes that describe the training data raise
exceptions, whatever was assigned to its attributes and however the calls of `fit` failed. If no call of `fit` came as far as the encoder, the methods raise AttributeError (and
not NotFittedError, which the call of `check_is_fitted` suggests: the constructor already assigns attributes like `max_features_`). -/
theorem C100_never_classifier {lib : Lib V K F G W} {s : World L V K F (List F) G W}
    (h : NeverFitted (Est.assignCls lib) (fun d : FitArgs N V × List L => fitClassifier lib d.1 d.2) s) :
    Raises s.self.getClasses ∧ Raises s.self.getNClasses ∧ Raises s.self.getNSamplesIn ∧ Raises s.self.getNFeaturesIn ∧
    (∀ i, Raises (s.self.callGetNodes i)) ∧ Est.callLighten s.self = (.error .typeError, s.self) ∧
    ∀ (N' : Type) [DecidableEq N'] (eps : F) (n : Nat) (X : Dataset N' V),
      Raises (s.self.callPredictProba lib eps n X) ∧ Raises (s.self.callPredict lib eps n X) ∧ Raises (s.self.callApply lib n X) ∧
      Raises (s.self.predictProbaTrees lib n X) ∧
      (s.self.encoder = none → s.self.callPredictProba lib eps n X = .error .attributeError ∧ s.self.callPredict lib eps n X = .error .attributeError ∧
        s.self.callApply lib n X = .error .attributeError) := by
  obtain ⟨h1, h2⟩ := NeverFitted.inv (assignCls_keeps lib) (fun d s s' err h => fitClassifier_error_trees h) h
  refine ⟨⟨.valueError, by simp [Est.getClasses, h1]⟩, ⟨.valueError, by simp [Est.getNClasses, h1]⟩, ⟨.valueError, by simp [Est.getNSamplesIn, h1]⟩,
    ⟨.valueError, by simp [Est.getNFeaturesIn, h1]⟩, fun i => ⟨.typeError, by simp [Est.callGetNodes, Est.treeAt, h2, bind, Except.bind]⟩,
    by simp [Est.callLighten, h2], fun N' _ eps n X => ⟨raises_bind (predictHelper_raises h2 n X), raises_bind (raises_bind (predictHelper_raises h2 n X)), raises_bind (predictHelper_raises h2 n X), ?_, fun he => ?_⟩⟩
  · exact ⟨.valueError, by simp [Est.predictProbaTrees, Est.checkNFeatures, h1, bind, Except.bind]⟩
  · simp [Est.callPredictProba, Est.callPredict, Est.callApply, Est.predictHelper, Est.encode, he, bind, Except.bind]

/-- **C100** The same for regressors. -/
theorem C100_never_regressor {lib : Lib V K F G W} {s : World L V K F F G W}
    (h : NeverFitted Est.assign (fun d : FitArgs N V × List F => fitRegressor lib d.1 d.2) s) :
    Raises s.self.getNSamplesIn ∧ Raises s.self.getNFeaturesIn ∧
    (∀ i, Raises (s.self.callGetNodes i)) ∧ Est.callLighten s.self = (.error .typeError, s.self) ∧
    ∀ (N' : Type) [DecidableEq N'] (n : Nat) (X : Dataset N' V),
      Raises (s.self.callPredictReg lib n X) ∧ Raises (s.self.callApply lib n X) ∧ Raises (s.self.callWeightedDepth lib n X) ∧ Raises (s.self.predictTrees X) ∧
      (s.self.encoder = none → s.self.callPredictReg lib n X = .error .attributeError ∧ s.self.callApply lib n X = .error .attributeError) := by
  obtain ⟨h1, h2⟩ := NeverFitted.inv assign_keeps (fun d s s' err h => fitRegressor_error_trees h) h
  refine ⟨⟨.valueError, by simp [Est.getNSamplesIn, h1]⟩,
    ⟨.valueError, by simp [Est.getNFeaturesIn, h1]⟩, fun i => ⟨.typeError, by simp [Est.callGetNodes, Est.treeAt, h2, bind, Except.bind]⟩,
    by simp [Est.callLighten, h2], fun N' _ n X => ⟨raises_bind (predictHelper_raises h2 n X), raises_bind (predictHelper_raises h2 n X), raises_bind (predictHelper_raises h2 n X), ?_, fun he => ?_⟩⟩
  · exact ⟨.valueError, by simp [Est.predictTrees, Est.checkNFeatures, h1, bind, Except.bind]⟩
  · simp [Est.callPredictReg, Est.callApply, Est.predictHelper, Est.encode, he, bind, Except.bind]

/-- **C100** From the first successful `fit` on, a classifier stays fitted, whatever is assigned and however later calls of `fit` end: the attributes that describe the
training data can be read, there is a tree to look at, and the methods that predict go beyond the checks: they are the ones that the other properties speak about. -/
theorem C100_ever_classifier {lib : Lib V K F G W} (h1 : ∀ s k, (lib.seeded s k).length = k) (h2 : ∀ w k, (lib.seededGlobal w k).1.length = k)
    {s : World L V K F (List F) G W}
    (h : EverFitted (fun _ => True) (Est.assignCls lib) (fun d : FitArgs N V × List L => fitClassifier lib d.1 d.2) s) :
    s.self.getClasses = .ok s.self.classes ∧ s.self.getNClasses = .ok s.self.nClasses ∧ s.self.getNSamplesIn = .ok s.self.nSamples ∧
    s.self.getNFeaturesIn = .ok s.self.nFeatures ∧ (∃ o, s.self.treeAt 0 = .ok o) ∧ (∃ o, s.self.treeAt (-1) = .ok o) ∧ (Est.callLighten s.self).1 = .ok () ∧
    ∀ (N' : Type) [DecidableEq N'] (eps : F) (n : Nat) (X : Dataset N' V),
      s.self.callPredictProba lib eps n X = s.self.predictProba lib eps n X ∧ s.self.callPredict lib eps n X = s.self.predict lib eps n X ∧
      s.self.callApply lib n X = s.self.apply lib n X := by
  obtain ⟨⟨f1, f2, -, -⟩, -⟩ := EverFitted.inv (assignCls_keeps lib) (fun _ _ _ _ _ => trivial) (fun _ _ _ => trivial)
    (fun d s s' err h => fitClassifier_error_trees h) (fun d s s' r h => fitClassifier_encoder h)
    (fun d s s' he _ h => fitClassifier_trees h1 h2 he h) h
  have hp : ∀ (N' : Type) [DecidableEq N'] (eps : F) (n : Nat) (X : Dataset N' V), s.self.callPredictProba lib eps n X = s.self.predictProba lib eps n X := by
    intro N' _ eps n X
    rw [Est.callPredictProba, predictHelper_eq f2]
    exact encode_bind n X _
  refine ⟨by simp [Est.getClasses, f1], by simp [Est.getNClasses, f1], by simp [Est.getNSamplesIn, f1], by simp [Est.getNFeaturesIn, f1], ?_, ?_, by simp [Est.callLighten, f2],
    fun N' _ eps n X => ⟨hp N' eps n X, ?_, ?_⟩⟩
  · exact treeAt_first f2
  · exact treeAt_last f2
  · rw [Est.callPredict, hp, Est.predict]
    simp [Est.getClasses, f1, bind, Except.bind]
  · rw [Est.callApply, predictHelper_eq f2]
    exact encode_bind n X _

/-- **C100** The same for regressors, which have no attribute `multiclass`. -/
theorem C100_ever_regressor {lib : Lib V K F G W} (h1 : ∀ s k, (lib.seeded s k).length = k) (h2 : ∀ w k, (lib.seededGlobal w k).1.length = k)
    {s : World L V K F F G W}
    (h : EverFitted (fun e => e.ovr = false) Est.assign (fun d : FitArgs N V × List F => fitRegressor lib d.1 d.2) s) :
    s.self.getNSamplesIn = .ok s.self.nSamples ∧
    s.self.getNFeaturesIn = .ok s.self.nFeatures ∧ (∃ o, s.self.treeAt 0 = .ok o) ∧ (∃ o, s.self.treeAt (-1) = .ok o) ∧ (Est.callLighten s.self).1 = .ok () ∧
    ∀ (N' : Type) [DecidableEq N'] (n : Nat) (X : Dataset N' V),
      s.self.callPredictReg lib n X = s.self.predictReg lib n X ∧ s.self.callApply lib n X = s.self.apply lib n X ∧
      s.self.callWeightedDepth lib n X = s.self.weightedDepth lib n X := by
  obtain ⟨⟨f1, f2, -, -⟩, -⟩ := EverFitted.inv assign_keeps (fun e e' k hf h => (k.ovr hf).trans h) (fun d s h => (fitRegressor_ovr lib d.1 d.2 s).trans h)
    (fun d s s' err h => fitRegressor_error_trees h) (fun d s s' r h => fitRegressor_encoder h)
    (fun d s s' he ho h => fitRegressor_trees h1 h2 he ho h) h
  refine ⟨by simp [Est.getNSamplesIn, f1], by simp [Est.getNFeaturesIn, f1], treeAt_first f2, treeAt_last f2, by simp [Est.callLighten, f2],
    fun N' _ n X => ⟨?_, ?_, ?_⟩⟩
  · rw [Est.callPredictReg, predictHelper_eq f2]
    exact encode_bind n X _
  · rw [Est.callApply, predictHelper_eq f2]
    exact encode_bind n X _
  · rw [Est.callWeightedDepth, predictHelper_eq f2]
    exact encode_bind n X _

end

/-- `estToy` is as the constructor leaves it. -/
theorem estToy_fresh {P : Type} {ovr balanced : Bool} {cf : CatFeatures} {sub : Option Nat} : Fresh (estToy P ovr balanced cf sub) :=
  ⟨rfl, rfl, ⟨rfl, rfl, rfl, rfl, rfl, rfl⟩, ⟨rfl, rfl, rfl⟩, rfl⟩

/-- `C100_never_regressor`: `fit` on one row fails after the encoder is stored (see C15), then the values for `step` are changed and `fit` fails again because of the number of
labels. The encoder exists, so that the exception of `predict` is TypeError for good data. -/
example : ∃ s : World Nat Nat ℚ ℝ ℝ Nat Nat, NeverFitted Est.assign (fun d : FitArgs String Nat × List ℝ => fitRegressor estLib d.1 d.2) s ∧ s.self.encoder ≠ none ∧
    s.self.step = 3 ∧ Raises (s.self.callPredictReg estLib 6 estX) := by
  obtain ⟨s', cfg, enc, h1, -, h2, -⟩ := C46_violated_regressor (lib := estLib) (a := estArgsOne) (y := [1]) (s := estWorld ℝ false true .none 4) rfl estLib_boot_one (fun k h => by cases h)
    (fun n k => by simp [estLib]) (fun w k => by simp [estLib]) rfl (estToy_valid 2) (estDataOne_valid _)
  have n1 : NeverFitted Est.assign (fun d : FitArgs String Nat × List ℝ => fitRegressor estLib d.1 d.2) s' := by
    have := NeverFitted.fitFails (set := Est.assign) (fit := fun d : FitArgs String Nat × List ℝ => fitRegressor estLib d.1 d.2) (s := estWorld ℝ false true .none 4)
      (estArgsOne, [1]) .recursionError (.new estToy_fresh) (by simp only; rw [h1])
    simp only [h1] at this
    exact this
  have n2 := NeverFitted.assign (.step 3) n1
  have hk := assign_keeps (.step (3 : ℝ)) s'.self
  have hi := NeverFitted.inv assign_keeps (fun d s s' err h => fitRegressor_error_trees h) n1
  have hst : (Est.assign (.step (3 : ℝ)) s'.self).2.step = 3 := by
    simp only [Est.assign]
    rw [if_neg (by norm_num [Num.le, Num.zero]), hi.1]
    rfl
  refine ⟨_, n2, ?_, hst, (C100_never_regressor n2).2.2.2.2 String 6 estX |>.1⟩
  simp only
  rw [hk.encoder, h2]
  simp

/-- `C100_never_classifier`: a new classifier, where the argument of `fit` has too few labels. -/
example : NeverFitted (Est.assignCls estLib) (fun d : FitArgs String Nat × List Nat => fitClassifier estLib d.1 d.2)
    (fitClassifier estLib (estArgs none false) [1, 2] (estWorld (List ℝ) false true .none 4)).2 := by
  obtain ⟨s', h, -⟩ := C46_classifier_partial (lib := estLib) (a := estArgs none false) (y := [1, 2]) (s := estWorld (List ℝ) false true .none 4) (.inl (by decide))
  exact .fitFails (fit := fun d : FitArgs String Nat × List Nat => fitClassifier estLib d.1 d.2) (estArgs none false, [1, 2]) .valueError (.new estToy_fresh) (by rw [h])

/-- `C100_ever_classifier`: a classifier is fitted, then `fit` fails, then `n_estimators` is assigned. -/
example : ∃ s : World Nat Nat ℚ ℝ (List ℝ) Nat Nat, EverFitted (fun _ => True) (Est.assignCls estLib) (fun d : FitArgs String Nat × List Nat => fitClassifier estLib d.1 d.2) s := by
  have hd := estData_valid (P := List ℝ) (ovr := false) (balanced := true) (cf := .none) (np := 0) none false
  have hp := estToy_valid (P := List ℝ) (ovr := false) (balanced := true) (cf := .none) (sub := none) 2
  obtain ⟨e0, o, he0, hfit, -⟩ := fitClassifier_ok (a := estArgs none false) (s := estWorld (List ℝ) false true .none 0) (y := [3, 3, 5, 5, 8, 8]) (okW := fun _ => True) (estLib_ok (n := 6) (by norm_num))
    hp hd rfl (fun h => by cases h)
    (fun _ h => by have := h.1; norm_num [Num.le, Num.zero, estWorld, estToy] at this)
    (by rw [sortedUnique_length]; exact est_strategy) (fun k _ => by simp [Num.toNat, Num.ofNat]) (fun _ _ => trivial)
  exact ⟨_, .assign (.base (.nEstimators 5)) (.fit (estArgs none false, [1, 2]) (.fitSucceeds (s := estWorld (List ℝ) false true .none 0) (estArgs none false, [3, 3, 5, 5, 8, 8])
    (by simp [estWorld, estToy]) trivial (by rw [hfit])))⟩

/-- `C100_ever_regressor`: the same for a regressor. -/
example : ∃ s : World Nat Nat ℚ ℝ ℝ Nat Nat, EverFitted (fun e => e.ovr = false) Est.assign (fun d : FitArgs String Nat × List ℝ => fitRegressor estLib d.1 d.2) s := by
  have hd := estData_valid (P := ℝ) (ovr := false) (balanced := true) (cf := .none) (np := 4) none false
  have hp := estToy_valid (P := ℝ) (ovr := false) (balanced := true) (cf := .none) (sub := none) 2
  obtain ⟨e0, o, he0, hfit, -⟩ := fitRegressor_ok (a := estArgs none false) (s := estWorld ℝ false true .none 4) (y := realY) (estLib_ok (n := 6) (by norm_num)) hp hd
  exact ⟨_, .lighten (.fit (estArgs none false, [1, 2]) (.fitSucceeds (s := estWorld ℝ false true .none 4) (estArgs none false, realY)
    (by simp [estWorld, estToy]) rfl (by rw [hfit])))⟩

end Verif
