import Verif.Proofs.OutOfBagEst
import Verif.Proofs.RecodeEst
import Verif.Proofs.EstToy

/-! # C71: a tree learns from the rows that its bootstrap draws -/
set_option linter.unusedSectionVars false
namespace Verif

open Spec

section
variable {L V K F P G W N : Type} [LinearOrder L] [DecidableEq V] [DecidableEq N] [LinearOrder K] [Field K] [IsStrictOrderedRing K]
  [FloorSemiring K] [Num F]

/-- **C71** Two fits of a classifier on the same features from the same state, with labels `y` and `y'` in which the same classes occur (and, with
balanced class weights, each class equally often), and possibly with other sample weights. They give estimators that differ at most in the trees. If labels
and weights agree on the rows drawn with seed number `i`, then tree number `i` has the same nodes in both, with the same tests, children, counts,
impurities and predictions; only the losses and weights of the rows left out, and what aggregation makes of the losses, may differ. So every row of every data
set falls in the same leaf, and without aggregation the tree gives the same probabilities. -/
theorem C71_classifier {lib : Lib V K F G W} {a : FitArgs N V} {y y' : List L} {s s' s1 s2 : World L V K F (List F) G W} (hself : s'.self = s.self)
    (hnp : s'.np = s.np) (hy : y ≠ []) (hc : ∀ l, l ∈ y' ↔ l ∈ y) (hbal : s.self.balanced = true → y'.Perm y)
    (h1 : fitClassifier lib a y s = (.ok (), s1)) (h2 : fitClassifier lib a y' s' = (.ok (), s2)) :
    { s2.self with trees := s1.self.trees } = s1.self ∧ s2.self.trees.length = s1.self.trees.length ∧
    ∀ (i seed : Nat) (draws : List Nat), s1.self.seeds[i]? = some seed → BootstrapOf (lib.boot a.nRows) a.nRows seed draws →
      AgreeOn draws y y' → (a.weights ≠ none → AgreeOn draws s.weights s'.weights) →
      (∀ o o', s1.self.trees[i]? = some o → s2.self.trees[i]? = some o' → SameGrowth o o') ∧
      (∀ (n : Nat) (X : Dataset N V) A A', s1.self.apply lib n X = .ok A → s2.self.apply lib n X = .ok A' → A'[i]? = A[i]?) ∧
      (s.self.aggregation = false → ∀ (n : Nat) (X : Dataset N V) Q Q', s1.self.predictProbaTrees lib n X = .ok Q →
        s2.self.predictProbaTrees lib n X = .ok Q' → Q'[i]? = Q[i]?) := by
  obtain ⟨he, hl, hagg, hrest⟩ := fitClassifier_oob hself hnp hy hc hbal h1 h2
  refine ⟨he, hl, fun i seed draws hi hb hyy hww => ?_⟩
  have hg : ∀ o o', s1.self.trees[i]? = some o → s2.self.trees[i]? = some o' → SameGrowth o o' :=
    fun o o' => hrest i seed draws o o' hi hb hyy hww
  refine ⟨hg, fun n X A A' hA hA' => apply_oob he hl hg hA hA', fun ha n X Q Q' hQ hQ' => ?_⟩
  unfold Est.predictProbaTrees at hQ hQ'
  simp only [bind_eq_ok] at hQ hQ'
  obtain ⟨-, -, fba, hf, hQ⟩ := hQ
  obtain ⟨-, -, fba', hf', hQ'⟩ := hQ'
  have e1 : s2.self.encoder = s1.self.encoder := by have := congrArg Est.encoder he; exact this
  have e2 : s2.self.nClasses = s1.self.nClasses := by have := congrArg Est.nClasses he; exact this
  have e3 : s2.self.ovr = s1.self.ovr := by have := congrArg Est.ovr he; exact this
  unfold Est.encode at hf hf'
  rw [e1] at hf'
  obtain rfl := Except.ok.inj (hf.symm.trans hf')
  rw [e2, e3] at hQ'
  rcases mapM_getElem? hQ i with ⟨o, r, ho, hr, hor⟩ | ⟨ho, hr⟩
  · rcases mapM_getElem? hQ' i with ⟨o', r', ho', hr', hor'⟩ | ⟨ho', hr'⟩
    · rw [(hg o o' ho ho').predict ((hagg o (List.mem_of_getElem? ho)).trans ha)] at hor'
      rw [hr, hr', Except.ok.inj (hor.symm.trans hor')]
    · rw [List.getElem?_eq_none_iff, hl] at ho'
      rw [List.getElem?_eq_none ho'] at ho
      cases ho
  · rcases mapM_getElem? hQ' i with ⟨o', r', ho', hr', hor'⟩ | ⟨ho', hr'⟩
    · rw [List.getElem?_eq_none_iff, ← hl] at ho
      rw [List.getElem?_eq_none ho] at ho'
      cases ho'
    · rw [hr, hr']

/-- **C71** The same for regressors, where the labels can be any numbers; instead of the probabilities, the predictions of the tree for any binned data. -/
theorem C71_regressor {lib : Lib V K F G W} {a : FitArgs N V} {y y' : List F} {s s' s1 s2 : World L V K F F G W} (hself : s'.self = s.self)
    (hnp : s'.np = s.np) (h1 : fitRegressor lib a y s = (.ok (), s1)) (h2 : fitRegressor lib a y' s' = (.ok (), s2)) :
    { s2.self with trees := s1.self.trees } = s1.self ∧ s2.self.trees.length = s1.self.trees.length ∧
    ∀ (i seed : Nat) (draws : List Nat), s1.self.seeds[i]? = some seed → BootstrapOf (lib.boot a.nRows) a.nRows seed draws →
      AgreeOn draws y y' → (a.weights ≠ none → AgreeOn draws s.weights s'.weights) →
      (∀ o o', s1.self.trees[i]? = some o → s2.self.trees[i]? = some o' → SameGrowth o o') ∧
      (∀ (n : Nat) (X : Dataset N V) A A', s1.self.apply lib n X = .ok A → s2.self.apply lib n X = .ok A' → A'[i]? = A[i]?) ∧
      (s.self.aggregation = false → ∀ o o', s1.self.trees[i]? = some o → s2.self.trees[i]? = some o' → ∀ fba, o'.predict mixF fba = o.predict mixF fba) := by
  obtain ⟨he, hl, hagg, hrest⟩ := fitRegressor_oob hself hnp h1 h2
  refine ⟨he, hl, fun i seed draws hi hb hyy hww => ?_⟩
  have hg : ∀ o o', s1.self.trees[i]? = some o → s2.self.trees[i]? = some o' → SameGrowth o o' :=
    fun o o' => hrest i seed draws o o' hi hb hyy hww
  exact ⟨hg, fun n X A A' hA hA' => apply_oob he hl hg hA hA', fun ha o o' ho ho' fba =>
    (hg o o' ho ho').predict ((hagg o (List.mem_of_getElem? ho)).trans ha) mixF fba⟩

end

/-- The rows drawn in the examples are 0, 1, 2 and 3. -/
theorem est_draws (seed : Nat) : BootstrapOf (estLib.boot 6) 6 seed [0, 0, 1, 2, 3, 3] :=
  ⟨0, rfl, ⟨4, by omega, by simp⟩, fun k hk => absurd hk (by omega)⟩

/-- Labels and weights of the rows 4 and 5 are changed. -/
example : ∃ s1 s2, fitRegressor estLib (estArgs (some true) false) realY (estWorld _ false false .none 0) = (.ok (), s1) ∧
    fitRegressor estLib (estArgs (some true) false) [0, 0, 1, 1, 20, -7] { estWorld _ false false .none 0 with weights := [1, 2, 1, 3, 50, 0] } = (.ok (), s2) ∧
    s1.self.seeds = [7, 8] ∧ s1.self.trees.length = 2 ∧
    ∀ i < 2, ∀ o o', s1.self.trees[i]? = some o → s2.self.trees[i]? = some o' → SameGrowth o o' := by
  have hlib := estLib_ok (n := 6) (by norm_num)
  obtain ⟨e0, o, rfl, h, hf⟩ := fitRegressor_ok (L := Nat) (a := estArgs (some true) false) (y := realY) (s := estWorld _ false false .none 0)
    hlib (estToy_valid _) (estData_valid _ _)
  have hd := estData_valid (P := ℝ) (ovr := false) (balanced := false) (cf := .none) (np := 0) (some true) false
  obtain ⟨e1, o1, -, h', -⟩ := fitRegressor_ok (L := Nat) (a := estArgs (some true) false) (y := [0, 0, 1, 1, 20, -7])
    (s := { estWorld _ false false .none 0 with weights := [1, 2, 1, 3, 50, 0] })
    hlib (estToy_valid _) ⟨hd.1, hd.2, hd.3, fun _ => rfl, hd.5, hd.6, hd.7⟩
  refine ⟨_, _, h, h', rfl, hf.nTrees, fun i hi => ?_⟩
  have key := (C71_regressor (by rfl) (by rfl) h h').2.2 i (7 + i) _ (by interval_cases i <;> rfl) (est_draws _)
    (by intro j hj; fin_cases hj <;> rfl) (fun _ => by intro j hj; fin_cases hj <;> rfl)
  exact key.1

/-- The labels of the rows 4 and 5 are exchanged. -/
example : ∃ s1 s2, fitClassifier estLib (estArgs none false) [3, 5, 8, 8, 3, 5] (estWorld _ true true .none 0) = (.ok (), s1) ∧
    fitClassifier estLib (estArgs none false) [3, 5, 8, 8, 5, 3] (estWorld _ true true .none 0) = (.ok (), s2) ∧
    ∀ (i seed : Nat) o o', s1.self.seeds[i]? = some seed → s1.self.trees[i]? = some o → s2.self.trees[i]? = some o' → SameGrowth o o' := by
  have hlib := estLib_ok (n := 6) (by norm_num)
  obtain ⟨s1, h1, -⟩ := fit_class_facts (lib := estLib) (a := estArgs none false) hlib (estToy_valid _)
    (estData_valid (P := List ℝ) (ovr := true) (balanced := true) (cf := .none) (np := 0) none false) (y := [3, 5, 8, 8, 3, 5]) rfl
    (fun _ h => by cases h) est_strategy (by norm_num [estWorld, estToy]) (fun _ => by norm_num [estWorld, estToy])
    (fun w h => (realW_pos w h).le) (.inl (by norm_num [estWorld, estToy]))
  obtain ⟨s2, h2, -⟩ := fit_class_facts (lib := estLib) (a := estArgs none false) hlib (estToy_valid _)
    (estData_valid (P := List ℝ) (ovr := true) (balanced := true) (cf := .none) (np := 0) none false) (y := [3, 5, 8, 8, 5, 3]) rfl
    (fun _ h => by cases h) est_strategy (by norm_num [estWorld, estToy]) (fun _ => by norm_num [estWorld, estToy])
    (fun w h => (realW_pos w h).le) (.inl (by norm_num [estWorld, estToy]))
  refine ⟨s1, s2, h1, h2, fun i seed o o' hi ho ho' => ?_⟩
  have key := (C71_classifier (by rfl) (by rfl) (by simp) (by intro l; simp; tauto) (fun _ => by decide) h1 h2).2.2 i seed _ hi (est_draws _)
    (by intro j hj; fin_cases hj <;> rfl) (fun h => absurd rfl h)
  exact key.1 o o' ho ho'

end Verif
