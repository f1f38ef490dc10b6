import Verif.Proofs.InspectForest
import Verif.Props.EndToEnd

/-! # C59 and C60: leaves and per-tree predictions of a fitted forest -/
set_option linter.unusedSectionVars false
namespace Verif

open Spec

section
variable {L V K G W N : Type} [LinearOrder L] [DecidableEq V] [DecidableEq N] [LinearOrder K] [Field K] [IsStrictOrderedRing K] [FloorSemiring K]

/-- **C59** (the part that holds) `apply` of a fitted classifier returns, for every accepted matrix, one line per tree and in it one entry per sample: the
leaf of this tree where the sample ends. Missing: the documented shape, which is the transpose. -/
theorem C59_classifier_partial {lib : Lib V K ℝ G W} {a : FitArgs N V} {y : List L} {s : World L V K ℝ (List ℝ) G W}
    (hlib : LibOK lib a.nRows) (hp : ParamsValid s.self (nCols a.X)) (hd : DataValid lib.conv a s y.length) (ht : a.targetsOK = true)
    (hrefit : s.self.ovr = true → s.self.fitted = true → 2 < y.dedup.length) (hst : StrategyOK y.dedup.length s.self.strategy)
    (hagg : s.self.aggregation = true → s.self.dirichlet ≠ 0) :
    ∃ s', fitClassifier lib a y s = (.ok (), s') ∧
      ∀ (N' : Type) [DecidableEq N'] (n : Nat) (X : Dataset N' V), 0 < n → GoodInput n X → AcceptedBy lib s'.self X →
        ∃ fba out, s'.self.encode lib n X = .ok fba ∧ s'.self.apply lib n X = .ok out ∧ out.length = s'.self.trees.length ∧
          ∀ (t : Nat) (o : TreeObj ℝ (List ℝ) G), s'.self.trees[t]? = some o → ∃ l, out[t]? = some l ∧ l.length = n ∧
            ∀ i k, l[i]? = some k → LeafOfRow o.arr (binsOf fba i) k := by
  rw [← sortedUnique_length] at hrefit hst
  obtain ⟨e0, o, he0, hfit, hfacts⟩ := fitClassifier_ok (okW := fun _ => True) hlib hp hd ht hrefit
    (fun h h2 => by simp only [Num.le, Num.zero, decide_eq_true_eq] at h2; exact hagg h (le_antisymm h2.1 h2.2))
    hst (fun k _ => by simp [Num.toNat, Num.ofNat]) (fun _ _ => trivial)
  subst he0
  exact ⟨_, hfit, fun N' _ n X hn hX hA => hfacts.apply (.classifier _ _ _ _ hlib.argsort (strategy_tree hst _)) hlib hn hX hA⟩

/-- **C59** (the part that holds) The same for a regressor. -/
theorem C59_regressor_partial {lib : Lib V K ℝ G W} {a : FitArgs N V} {y : List ℝ} {s : World L V K ℝ ℝ G W}
    (hlib : LibOK lib a.nRows) (hp : ParamsValid s.self (nCols a.X)) (hd : DataValid lib.conv a s y.length) :
    ∃ s', fitRegressor lib a y s = (.ok (), s') ∧
      ∀ (N' : Type) [DecidableEq N'] (n : Nat) (X : Dataset N' V), 0 < n → GoodInput n X → AcceptedBy lib s'.self X →
        ∃ fba out, s'.self.encode lib n X = .ok fba ∧ s'.self.apply lib n X = .ok out ∧ out.length = s'.self.trees.length ∧
          ∀ (t : Nat) (o : TreeObj ℝ ℝ G), s'.self.trees[t]? = some o → ∃ l, out[t]? = some l ∧ l.length = n ∧
            ∀ i k, l[i]? = some k → LeafOfRow o.arr (binsOf fba i) k := by
  obtain ⟨e0, o, he0, hfit, hfacts⟩ := fitRegressor_ok hlib hp hd
  exact ⟨_, hfit, fun N' _ n X hn hX hA => hfacts.apply (.regressor hlib.argsort) hlib hn hX hA⟩

/-- **C59** is violated: whenever the number of samples is not the number of trees, the result does not have one line per sample. -/
theorem C59_shape_violated {lib : Lib V K ℝ G W} {a : FitArgs N V} {y : List L} {s : World L V K ℝ (List ℝ) G W}
    (hlib : LibOK lib a.nRows) (hp : ParamsValid s.self (nCols a.X)) (hd : DataValid lib.conv a s y.length) (ht : a.targetsOK = true)
    (hrefit : s.self.ovr = true → s.self.fitted = true → 2 < y.dedup.length) (hst : StrategyOK y.dedup.length s.self.strategy)
    (hagg : s.self.aggregation = true → s.self.dirichlet ≠ 0) (hmode : s.self.ovr = false) :
    ∃ s', fitClassifier lib a y s = (.ok (), s') ∧
      ∀ (N' : Type) [DecidableEq N'] (n : Nat) (X : Dataset N' V), 0 < n → GoodInput n X → AcceptedBy lib s'.self X → n ≠ s.self.nEstimators →
        ∃ out, s'.self.apply lib n X = .ok out ∧ out.length ≠ n := by
  obtain ⟨s', h1, h2⟩ := C59_classifier_partial hlib hp hd ht hrefit hst hagg
  obtain ⟨s'', h1', -, -, -, -, h3, -⟩ := class_trees hlib hp hd ht hrefit hst hagg
  rw [h1] at h1'
  obtain ⟨-, rfl⟩ := Prod.mk.inj h1'
  refine ⟨s', h1, fun N' _ n X hn hX hA hne => ?_⟩
  obtain ⟨fba, out, -, h4, h5, -⟩ := h2 N' n X hn hX hA
  refine ⟨out, h4, ?_⟩
  rw [h5, h3, show staysOvr s.self y = false by unfold staysOvr; rw [hmode]; rfl, if_neg (by simp)]
  exact hne.symm

/-- **C60** (the part that holds) In multinomial mode, or with at most two classes, entry `t` of `predict_proba_trees` has one line per sample and one
column per class, is what tree `t` predicts, and the mean over the trees is `predict_proba`. Missing: one-versus-rest, and `predict_trees` of a
regressor. -/
theorem C60_trees_partial {lib : Lib V K ℝ G W} {a : FitArgs N V} {y : List L} {s : World L V K ℝ (List ℝ) G W}
    (hlib : LibOK lib a.nRows) (hp : ParamsValid s.self (nCols a.X)) (hd : DataValid lib.conv a s y.length) (ht : a.targetsOK = true)
    (hrefit : s.self.ovr = true → s.self.fitted = true → 2 < y.dedup.length) (hst : StrategyOK y.dedup.length s.self.strategy)
    (hagg : s.self.aggregation = true → s.self.dirichlet ≠ 0) (hmode : s.self.ovr = false ∨ y.dedup.length ≤ 2) :
    ∃ s', fitClassifier lib a y s = (.ok (), s') ∧ s'.self.trees.length = s.self.nEstimators ∧
      ∀ (N' : Type) [DecidableEq N'] (eps : ℝ) (n : Nat) (X : Dataset N' V), 0 < n → GoodInput n X → AcceptedBy lib s'.self X →
        ∃ fba, ∃ v : Nat → Nat → Nat → ℝ, s'.self.encode lib n X = .ok fba ∧
          s'.self.predictProbaTrees lib n X = .ok ((List.range s.self.nEstimators).map fun t => (List.range n).map fun i =>
            (List.range s'.self.classes.length).map (v t i)) ∧
          (∀ (t : Nat) (o : TreeObj ℝ (List ℝ) G), s'.self.trees[t]? = some o → o.predict mixV fba =
            .ok ((List.range n).map fun i => (List.range s'.self.classes.length).map (v t i))) ∧
          s'.self.predictProba lib eps n X = .ok ((List.range n).map fun i => (List.range s'.self.classes.length).map fun j =>
            (∑ t ∈ Finset.range s.self.nEstimators, v t i j) / s.self.nEstimators) := by
  have hov : staysOvr s.self y = false := by
    unfold staysOvr
    rcases hmode with h | h
    · rw [h]; rfl
    · rw [sortedUnique_length, decide_eq_false (by omega), Bool.and_false]
  obtain ⟨s', h1, h2, h3, h4, h5, h6, h7⟩ := class_trees hlib hp hd ht hrefit hst hagg
  rw [hov] at h3 h6 h7
  rw [if_neg (by simp)] at h6
  simp only [Bool.false_eq_true, if_false] at h7
  refine ⟨s', h1, h6, fun N' _ eps n X hn hX hA => ?_⟩
  obtain ⟨fba, v, g1, g2, g3, g4⟩ := h7 N' n X hn hX hA
  rw [h4]
  refine ⟨fba, v, g1, by rw [g3, h6], fun t o ho => ?_, ?_⟩
  · obtain ⟨ht', rfl⟩ := List.getElem?_eq_some_iff.1 ho
    rw [g4 t ht', g2]
  · unfold Est.predictProba
    rw [g1, bind_ok, h2, h3]
    simp only [Bool.not_true, Bool.false_eq_true, if_false]
    rw [h5, proba_exact _ _ _ _ fun t h => g4 t h, g2, h6]

/-- **C60** is violated: in one-versus-rest mode `predict_proba_trees` has one entry for each class and estimator, and each has two columns and not one
per class. -/
theorem C60_ovr_violated {lib : Lib V K ℝ G W} {a : FitArgs N V} {y : List L} {s : World L V K ℝ (List ℝ) G W}
    (hlib : LibOK lib a.nRows) (hp : ParamsValid s.self (nCols a.X)) (hd : DataValid lib.conv a s y.length) (ht : a.targetsOK = true)
    (hst : StrategyOK y.dedup.length s.self.strategy)
    (hagg : s.self.aggregation = true → s.self.dirichlet ≠ 0) (hmode : s.self.ovr = true ∧ 2 < y.dedup.length) :
    ∃ s', fitClassifier lib a y s = (.ok (), s') ∧
      ∀ (N' : Type) [DecidableEq N'] (n : Nat) (X : Dataset N' V), 0 < n → GoodInput n X → AcceptedBy lib s'.self X →
        ∃ out, s'.self.predictProbaTrees lib n X = .ok out ∧ out.length ≠ s.self.nEstimators ∧
          ∀ P ∈ out, P.length = n ∧ ∀ p ∈ P, p.length = 2 ∧ p.length ≠ s'.self.classes.length := by
  have hov : staysOvr s.self y = true := by
    unfold staysOvr
    rw [hmode.1, sortedUnique_length, decide_eq_true hmode.2]; rfl
  obtain ⟨s', h1, h2, h3, h4, h5, h6, h7⟩ := class_trees hlib hp hd ht (fun _ _ => hmode.2) hst hagg
  rw [hov] at h6 h7
  rw [if_pos rfl] at h6
  simp only [if_true] at h7
  refine ⟨s', h1, fun N' _ n X hn hX hA => ?_⟩
  obtain ⟨fba, v, g1, g2, g3, g4⟩ := h7 N' n X hn hX hA
  refine ⟨_, g3, ?_, ?_⟩
  · rw [List.length_map, List.length_range, h6, sortedUnique_length]
    have := hp.estimators
    intro h0
    have : s.self.nEstimators * 1 < s.self.nEstimators * y.dedup.length := Nat.mul_lt_mul_of_pos_left (by omega) this
    omega
  · intro P hP
    obtain ⟨t, -, rfl⟩ := List.mem_map.1 hP
    refine ⟨by simp, fun p hp => ?_⟩
    obtain ⟨i, -, rfl⟩ := List.mem_map.1 hp
    refine ⟨by simp, ?_⟩
    rw [h4, sortedUnique_length]
    simp only [List.length_map, List.length_range]
    omega

/-- **C60** is violated: `predict_trees` of a regressor never returns. -/
theorem C60_regressor_violated {F : Type} [Num F] (e : Est L V K F F G) (X : Dataset N V) : ∀ out, e.predictTrees X ≠ .ok out := by
  intro out
  unfold Est.predictTrees Est.checkNFeatures
  split
  · simp
  · split <;> simp

end

/-- The hypotheses of `C59_classifier_partial`, `C59_shape_violated` and `C60_trees_partial` hold: six samples, two trees, three classes. -/
example : ∃ s' fba out P, ∃ v : Nat → Nat → Nat → ℝ,
    fitClassifier estLib (estArgs (some true) true) [3, 3, 5, 5, 8, 8] (estWorld _ false true .none 0) = (.ok (), s') ∧
    s'.self.encode estLib 6 estX = .ok fba ∧ s'.self.apply estLib 6 estX = .ok out ∧ out.length = 2 ∧
    (∃ k o, (out[1]?.bind fun l => l[3]?) = some k ∧ s'.self.trees[1]? = some o ∧ LeafOfRow o.arr (binsOf fba 3) k) ∧
    s'.self.predictProbaTrees estLib 6 estX = .ok P ∧ P.length = 2 ∧ ((P[1]?.bind fun l => l[3]?).bind fun l => l[2]?) = some (v 1 3 2) ∧
    ∃ p, s'.self.predictProba estLib (1 / 1000) 6 estX = .ok p ∧ (p[3]?.bind fun l => l[2]?) = some ((v 0 3 2 + v 1 3 2) / 2) := by
  have hd := estData_valid (P := List ℝ) (ovr := false) (balanced := true) (cf := .none) (np := 0) (some true) true
  have hlib : LibOK estLib (estArgs (some true) true).nRows := estLib_ok (n := 6) (by norm_num)
  obtain ⟨s', h1, -, h3, -, -, -, -, -, -, -, hacc, -⟩ := fit_class_facts hlib (estToy_valid _) hd (y := [3, 3, 5, 5, 8, 8]) rfl (fun _ h => by cases h)
    est_strategy (by norm_num [estWorld, estToy]) (fun _ => by norm_num [estWorld, estToy]) (fun w h => (realW_pos w h).le)
    (.inl (by norm_num [estWorld, estToy]))
  obtain ⟨s'', h1', happ⟩ := C59_classifier_partial hlib (estToy_valid _) hd (y := [3, 3, 5, 5, 8, 8]) rfl (fun _ h => by cases h)
    est_strategy (fun _ => by norm_num [estWorld, estToy])
  rw [h1] at h1'
  obtain ⟨-, rfl⟩ := Prod.mk.inj h1'
  obtain ⟨s'', h1', htl, htr⟩ := C60_trees_partial hlib (estToy_valid _) hd (y := [3, 3, 5, 5, 8, 8]) rfl (fun _ h => by cases h)
    est_strategy (fun _ => by norm_num [estWorld, estToy]) (.inl rfl)
  rw [h1] at h1'
  obtain ⟨-, rfl⟩ := Prod.mk.inj h1'
  have hc : s'.self.classes = [3, 5, 8] := by rw [h3]; decide
  obtain ⟨fba, out, g1, g2, g3, g4⟩ := happ String 6 estX (by norm_num) estX_good hacc
  obtain ⟨fba', v, k1, k2, k3, k4⟩ := htr String (1 / 1000) 6 estX (by norm_num) estX_good hacc
  rw [hc] at k2 k4
  replace htl : s'.self.trees.length = 2 := htl
  obtain ⟨l, e1, e2, e3⟩ := g4 1 _ (List.getElem?_eq_getElem (by rw [htl]; norm_num))
  refine ⟨s', fba, out, _, v, h1, g1, g2, g3.trans htl, ⟨l[3], _, ?_, List.getElem?_eq_getElem (by rw [htl]; norm_num), e3 3 _ (List.getElem?_eq_getElem _)⟩,
    k2, rfl, rfl, _, k4, ?_⟩
  · rw [e1, Option.bind_some, List.getElem?_eq_getElem]
  · have : (estWorld (List ℝ) false true .none 0).self.nEstimators = 2 := rfl
    simp [this, Finset.sum_range_succ]

/-- The hypotheses of `C60_ovr_violated` hold: six entries for two estimators. -/
example : ∃ s' P, fitClassifier estLib (estArgs (some true) true) [3, 3, 5, 5, 8, 8] (estWorld _ true false .none 0) = (.ok (), s') ∧
    s'.self.predictProbaTrees estLib 6 estX = .ok P ∧ P.length ≠ 2 := by
  have hd := estData_valid (P := List ℝ) (ovr := true) (balanced := false) (cf := .none) (np := 0) (some true) true
  have hlib : LibOK estLib (estArgs (some true) true).nRows := estLib_ok (n := 6) (by norm_num)
  obtain ⟨s', h1, -, h3, -, -, -, -, -, -, -, hacc, -⟩ := fit_class_facts hlib (estToy_valid _) hd (y := [3, 3, 5, 5, 8, 8]) rfl (fun _ h => by cases h)
    est_strategy (by norm_num [estWorld, estToy]) (fun _ => by norm_num [estWorld, estToy]) (fun w h => (realW_pos w h).le)
    (.inl (by norm_num [estWorld, estToy]))
  obtain ⟨s'', h1', htr⟩ := C60_ovr_violated hlib (estToy_valid _) hd (y := [3, 3, 5, 5, 8, 8]) rfl
    est_strategy (fun _ => by norm_num [estWorld, estToy]) ⟨rfl, by decide⟩
  rw [h1] at h1'
  obtain ⟨-, rfl⟩ := Prod.mk.inj h1'
  obtain ⟨out, k1, k2, -⟩ := htr String 6 estX (by norm_num) estX_good hacc
  exact ⟨s', out, h1, k1, k2⟩

/-- The hypotheses of `C59_regressor_partial` hold. -/
example : ∃ s' fba out, fitRegressor estLib (estArgs none false) realY (estWorld _ false false .none 4) = (.ok (), s') ∧
    s'.self.encode estLib 6 estX = .ok fba ∧ s'.self.apply estLib 6 estX = .ok out ∧ out.length = s'.self.trees.length := by
  have hd := estData_valid (P := ℝ) (ovr := false) (balanced := false) (cf := .none) (np := 4) none false
  obtain ⟨s', h1, -, hacc, -⟩ := C54_regressor (L := Nat) (lo := 0) (hi := 1) (a := estArgs none false) (y := realY)
    (s := estWorld _ false false .none 4) (estLib_ok (n := 6) (by norm_num)) (estToy_valid _) hd rfl (fun w h => realW_pos w h) (by
      intro v hv
      simp only [realY, List.mem_cons, List.not_mem_nil, or_false] at hv
      rcases hv with rfl | rfl | rfl | rfl | rfl | rfl <;> norm_num)
  obtain ⟨s'', h1', happ⟩ := C59_regressor_partial (y := realY) (estLib_ok (n := 6) (by norm_num)) (estToy_valid _) hd
  rw [h1] at h1'
  obtain ⟨-, rfl⟩ := Prod.mk.inj h1'
  obtain ⟨fba, out, g1, g2, g3, g4⟩ := happ String 6 estX (by norm_num) estX_good hacc
  exact ⟨s', fba, out, h1, g1, g2, g3⟩

end Verif
