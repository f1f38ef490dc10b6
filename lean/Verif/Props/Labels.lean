import Verif.Proofs.Balanced
import Verif.Proofs.EstToy

/-! # C55, C56: names of the labels, balanced class weights -/
set_option linter.unusedSectionVars false
namespace Verif

open Spec

section
variable {L L' V K F G W N : Type} [LinearOrder L] [LinearOrder L'] [DecidableEq V] [DecidableEq N] [LinearOrder K] [Field K] [FloorSemiring K] [Num F]

/-- **C55** The names of the labels do not matter, only their order: `fit` with labels renamed by an increasing function, on an
estimator whose stored classes are renamed in the same way, ends in the same way (the same exception, or none), changes the
same attributes, the weights of the caller and the global generator in the same way, and gives the same estimator with renamed
classes; the latter has the same probabilities on all data, and predicts the renamed labels. For all inputs, valid or not. -/
theorem C55_rename_labels {f : L → L'} (hf : StrictMono f) (lib : Lib V K F G W) (a : FitArgs N V) (y : List L)
    (s : World L V K F (List F) G W) :
    fitClassifier lib a (y.map f) (renameWorld f s) = ((fitClassifier lib a y s).1, renameWorld f (fitClassifier lib a y s).2) ∧
    ∀ (N' : Type) [DecidableEq N'] (eps : F) (n : Nat) (X : Dataset N' V),
      (renameWorld f (fitClassifier lib a y s).2).self.predictProba lib eps n X = (fitClassifier lib a y s).2.self.predictProba lib eps n X ∧
      (renameWorld f (fitClassifier lib a y s).2).self.predict lib eps n X =
        ((fitClassifier lib a y s).2.self.predict lib eps n X).map (List.map f) := by
  refine ⟨fitClassifier_rename hf lib a y s, fun N' _ eps n X => ⟨predictProba_rename f lib eps _ n X, ?_⟩⟩
  unfold Est.predict
  rw [show (renameWorld f (fitClassifier lib a y s).2).self = renameEst f (fitClassifier lib a y s).2.self from rfl, predictProba_rename]
  cases (fitClassifier lib a y s).2.self.predictProba lib eps n X with
  | error e => rfl
  | ok p => rw [bind_ok, bind_ok]; exact predictLabels_map f _ p

end

section
variable {L V K G W N : Type} [LinearOrder L] [DecidableEq V] [DecidableEq N] [LinearOrder K] [Field K] [FloorSemiring K]

/-- **C56** `class_weight="balanced"` in multinomial mode is the same as the corresponding sample weights: `fit` ends in the same way, with the same
estimator (apart from the attribute `class_weight` itself) and the same state of the global generator, as `fit` without class
weights with each weight multiplied by (number of rows) / (number of classes * number of rows of the class). -/
theorem C56_balanced_is_weights {lib : Lib V K ℝ G W} {a : FitArgs N V} {y : List L} {s : World L V K ℝ (List ℝ) G W}
    (hrows : y.length = a.nRows) (hlen : a.weights ≠ none → s.weights.length = a.nRows) (ht : a.targetsOK = true) (hy : y ≠ [])
    (hmode : s.self.ovr = false) (hbal : s.self.balanced = true) (hagg : s.self.aggregation = true → s.self.dirichlet ≠ 0) (b : Bool) :
    (fitClassifier lib { a with weights := some b } y (unbalanced (balancedOf y (givenWeights a s)) s)).1 = (fitClassifier lib a y s).1 ∧
    (fitClassifier lib { a with weights := some b } y (unbalanced (balancedOf y (givenWeights a s)) s)).2.self =
      { (fitClassifier lib a y s).2.self with balanced := false } ∧
    (fitClassifier lib { a with weights := some b } y (unbalanced (balancedOf y (givenWeights a s)) s)).2.np = (fitClassifier lib a y s).2.np := by
  have hgl : (givenWeights a s).length = y.length := by
    unfold givenWeights
    cases h : a.weights with
    | none => simp [hrows]
    | some b => rw [hrows]; exact hlen (by simp [h])
  have hd : s.self.aggregation = true → ¬(Num.le s.self.dirichlet Num.zero = true ∧ Num.le Num.zero s.self.dirichlet = true) := by
    intro h h2
    simp only [Num.le, Num.zero, decide_eq_true_eq] at h2
    exact hagg h (le_antisymm h2.1 h2.2)
  have hst : ∀ e : Est L V K ℝ (List ℝ) G, e.ovr = false → staysOvr e y = false := fun e he => by unfold staysOvr; rw [he]; rfl
  have key : fitClassifier lib { a with weights := some b } y (unbalanced (balancedOf y (givenWeights a s)) s) =
      ((fitClassifier lib a y s).1, unbalanced (balancedOf y (givenWeights a s)) (fitClassifier lib a y s).2) := by
    unfold fitClassifier
    rw [Py.bind_of_ok (fitChecks_ok hrows hlen), Py.bind_of_ok (fitChecks_ok (by exact hrows) (fun _ => (balancedOf_length hgl).trans hrows)),
      Py.bind_of_ok (prepClassifier_ok (s := { s with self := withCategorical a.categorical s.self }) ht hy
        (fun h => by rw [show s.self.ovr = true from h] at hmode; cases hmode) (by exact hd)),
      Py.bind_of_ok (prepClassifier_ok (a := { a with weights := some b }) (by exact ht) hy
        (fun h => by rw [show s.self.ovr = true from h] at hmode; cases hmode) (by exact hd))]
    have hp : preparedOf lib (withCategorical a.categorical (unbalanced (balancedOf y (givenWeights a s)) s).self) y
        (weightsOf { a with weights := some b } (unbalanced (balancedOf y (givenWeights a s)) s)) =
        preparedOf lib (withCategorical a.categorical s.self) y (weightsOf a s) := by
      unfold preparedOf
      congr 1
      unfold classWeights codesOf
      rw [hst (withCategorical a.categorical (unbalanced (balancedOf y (givenWeights a s)) s).self) (by exact hmode),
        hst (withCategorical a.categorical s.self) (by exact hmode)]
      simp only [withCategorical, unbalanced, hbal, if_true, Bool.false_eq_true, if_false, List.map_cons, List.map_nil]
      rw [zipWith_balanced]
      rfl
    simp only
    rw [hp]
    have := fitRest_unbalanced (balancedOf y (givenWeights a s)) lib a (preparedOf lib (withCategorical a.categorical s.self) y (weightsOf a s))
      { self := preparedEst (withCategorical a.categorical s.self) y, weights := callerWeights s.self a y s.weights (weightsOf a s), np := s.np }
    refine Eq.trans ?_ this
    rw [show callerWeights (withCategorical a.categorical (unbalanced (balancedOf y (givenWeights a s)) s).self) { a with weights := some b } y
      (unbalanced (balancedOf y (givenWeights a s)) s).weights
      (weightsOf { a with weights := some b } (unbalanced (balancedOf y (givenWeights a s)) s)) = balancedOf y (givenWeights a s) from rfl]
    rfl
  rw [key]
  exact ⟨rfl, rfl, rfl⟩

/-- **C56** The balanced weights of equally weighted rows give the same total weight to all classes. -/
theorem C56_equal_classes {y : List L} {l : L} (hl : l ∈ y) :
    weightOfClass y (balancedOf y (List.replicate y.length 1)) l = (y.length : ℝ) / y.dedup.length := by
  have : balancedOf y (List.replicate y.length 1) = y.map fun l => (y.length : ℝ) / (y.dedup.length * y.count l) := by
    unfold balancedOf
    refine List.ext_getElem (by simp) fun i h1 h2 => by simp
  rw [this, weightOfClass_map]
  have h1 : (0 : ℝ) < y.count l := by exact_mod_cast List.count_pos_iff.2 hl
  have h2 : (0 : ℝ) < y.dedup.length := by exact_mod_cast List.length_pos_of_mem (List.mem_dedup.2 hl)
  field_simp

end

/-- Labels multiplied by ten: both fits succeed. -/
example : ∃ s', fitClassifier estLib (estArgs (some true) true) [30, 30, 50, 50, 80, 80] (renameWorld (10 * ·) (estWorld _ true true .none 0)) = (.ok (), s') ∧
    s'.self.classes = [30, 50, 80] ∧ s'.self.trees.length = 6 := by
  have hlib : LibOK estLib (estArgs (some true) true).nRows := estLib_ok (n := 6) (by norm_num)
  obtain ⟨s', h1, -, h3, -, -, -, h7, -⟩ := fit_class_facts hlib (estToy_valid _)
    (estData_valid (P := List ℝ) (ovr := true) (balanced := true) (cf := .none) (np := 0) (some true) true) (y := [3, 3, 5, 5, 8, 8]) rfl
    (fun _ h => by cases h) est_strategy (by norm_num [estWorld, estToy]) (fun _ => by norm_num [estWorld, estToy])
    (fun w h => (realW_pos w h).le) (.inl (by norm_num [estWorld, estToy]))
  have h := (C55_rename_labels (f := (10 * ·)) (fun a b h => by simp only; omega) estLib (estArgs (some true) true) [3, 3, 5, 5, 8, 8]
    (estWorld _ true true .none 0)).1
  rw [h1] at h
  exact ⟨_, h, by change List.map _ s'.self.classes = _; rw [h3]; decide, h7.trans (by decide)⟩

/-- A balanced fit, and the fit with the weights spelled out; both succeed. -/
example : ∃ s', fitClassifier estLib { estArgs (some true) true with weights := some false } [3, 3, 3, 3, 8, 8]
      (unbalanced (balancedOf [3, 3, 3, 3, 8, 8] realW) (estWorld _ false true .none 0)) = (.ok (), s') ∧
    s'.self.classes = [3, 8] ∧ s'.self.trees.length = 2 ∧ weightOfClass [3, 3, 3, 3, 8, 8] (balancedOf [3, 3, 3, 3, 8, 8] (List.replicate 6 1)) 8 = 3 := by
  have hlib : LibOK estLib (estArgs (some true) true).nRows := estLib_ok (n := 6) (by norm_num)
  have hd := estData_valid (P := List ℝ) (ovr := false) (balanced := true) (cf := .none) (np := 0) (some true) true
  obtain ⟨s', h1, -, h3, -, -, -, h7, -⟩ := fit_class_facts hlib (estToy_valid _) hd (y := [3, 3, 3, 3, 8, 8]) rfl
    (fun _ h => by cases h) est_strategy (by norm_num [estWorld, estToy]) (fun _ => by norm_num [estWorld, estToy])
    (fun w h => (realW_pos w h).le) (.inl (by norm_num [estWorld, estToy]))
  obtain ⟨e1, e2, e3⟩ := C56_balanced_is_weights (lib := estLib) (a := estArgs (some true) true) (y := [3, 3, 3, 3, 8, 8])
    (s := estWorld _ false true .none 0) rfl hd.weights rfl (by simp) rfl rfl (fun _ => by norm_num [estWorld, estToy]) false
  rw [h1] at e1 e2 e3
  rw [show givenWeights (estArgs (some true) true) (estWorld (List ℝ) false true .none 0) = realW from rfl] at e1 e2 e3
  revert e1 e2 e3
  generalize fitClassifier estLib { estArgs (some true) true with weights := some false } [3, 3, 3, 3, 8, 8]
      (unbalanced (balancedOf [3, 3, 3, 3, 8, 8] realW) (estWorld _ false true .none 0)) = r
  intro e1 e2 e3
  refine ⟨r.2, Prod.ext e1 rfl, ?_, ?_, ?_⟩
  · rw [e2]; simp only; rw [h3]; decide
  · rw [e2]; exact h7
  · have := C56_equal_classes (y := [3, 3, 3, 3, 8, 8]) (l := 8) (by decide)
    rw [show [3, 3, 3, 3, 8, 8].length = 6 from rfl, show [3, 3, 3, 3, 8, 8].dedup.length = 2 by decide] at this
    rw [this]; norm_num

end Verif
