import Verif.Proofs.EndForest
import Verif.Props.Estimator

/-! # C57: the predictions of a fitted forest from its training data -/
set_option linter.unusedSectionVars false
namespace Verif

open Spec

section
variable {L V K G W N : Type} [LinearOrder L] [DecidableEq V] [DecidableEq N] [LinearOrder K] [Field K] [IsStrictOrderedRing K] [FloorSemiring K]

/-- **C57** The probabilities of a classifier in multinomial mode (or with at most two classes): the mean over the trees of the average of the smoothed
class shares over all prunings (or the shares at the leaf without aggregation), where the shares come from the rows drawn for the tree, with
multiplicity, and the losses of the prunings from the rows that were not drawn, all with the given weights times the balancing factor. -/
theorem C57_multinomial {lib : Lib V K ℝ G W} {a : FitArgs N V} {y : List L} {s : World L V K ℝ (List ℝ) G W}
    (hlib : LibOK lib a.nRows) (hp : ParamsValid s.self (nCols a.X)) (hd : DataValid lib.conv a s y.length) (ht : a.targetsOK = true)
    (hrefit : s.self.ovr = true → s.self.fitted = true → 2 < y.dedup.length) (hst : StrategyOK y.dedup.length s.self.strategy)
    (hagg : s.self.aggregation = true → s.self.dirichlet ≠ 0) (hmode : s.self.ovr = false ∨ y.dedup.length ≤ 2) :
    ∃ s', fitClassifier lib a y s = (.ok (), s') ∧ ∃ (train : FBA) (g : Nat → GrownTree (List ℝ)), s'.self.encode lib a.nRows a.X = .ok train ∧
      (∀ t < s.self.nEstimators, GrownIn (lib.boot a.nRows) a.nRows s'.self.trees s'.self.seeds t (g t)) ∧
      ∀ (N' : Type) [DecidableEq N'] (eps : ℝ) (n : Nat) (X : Dataset N' V), 0 < n → GoodInput n X → AcceptedBy lib s'.self X →
        ∃ fba, s'.self.encode lib n X = .ok fba ∧ s'.self.predictProba lib eps n X =
          .ok ((List.range n).map fun i => (List.range s'.self.classes.length).map fun j =>
            (∑ t ∈ Finset.range s.self.nEstimators,
              probValue ⟨a.nRows, binsOf train, rowWeight (givenWeights a s) s.self.balanced a.nRows (classOf s'.self.classes y), (g t).draws⟩ (g t)
                s.self.aggregation s.self.step s.self.dirichlet s'.self.classes.length (classOf s'.self.classes y) (binsOf fba i) j) /
            s.self.nEstimators) := by
  rw [← sortedUnique_length] at hrefit hst hmode
  have hov : staysOvr s.self y = false := by
    unfold staysOvr
    rcases hmode with h | h
    · rw [h]; rfl
    · rw [decide_eq_false (by omega), Bool.and_false]
  obtain ⟨e0, o, he0, hfit, hfacts⟩ := fitClassifier_ok (okW := fun _ => True) hlib hp hd ht hrefit
    (fun h h2 => by simp only [Num.le, Num.zero, decide_eq_true_eq] at h2; exact hagg h (le_antisymm h2.1 h2.2))
    hst (fun k _ => by simp [Num.toNat, Num.ofNat]) (fun _ _ => trivial)
  subst he0
  have hnt : o.est.trees.length = s.self.nEstimators := by
    have := hfacts.nTrees
    rwa [show (preparedEst (withCategorical a.categorical s.self) y).ovr = staysOvr s.self y from rfl, hov, if_neg (by simp)] at this
  obtain ⟨train, htr, hval⟩ := FitFacts.class_values (e0 := preparedEst (withCategorical a.categorical s.self) y) rfl rfl hlib
    (strategy_tree hst _) hd.labels (weightsOf_length hd) hfacts
  obtain ⟨g, hg⟩ : ∃ g : Nat → GrownTree (List ℝ), ∀ t (h : t < o.est.trees.length), g t = (hval t h).choose :=
    ⟨fun t => if h : t < o.est.trees.length then (hval t h).choose else ⟨o.est.trees[0]'(by rw [hnt]; exact hp.estimators) |>.arr, .leaf 0, []⟩,
      fun t h => dif_pos h⟩
  have hval' := fun t (h : t < o.est.trees.length) => by have := (hval t h).choose_spec; rw [← hg t h] at this; exact this
  refine ⟨_, hfit, train, g, htr, fun t h => ?_, fun N' _ eps n X hn hX hA => ?_⟩
  · obtain ⟨h1, h2, ⟨seed, h3, h4⟩, -⟩ := hval' t (by rw [hnt]; exact h)
    exact ⟨_, seed, List.getElem?_eq_getElem _, h3, h1, h2, h4⟩
  obtain ⟨cfg', enc', he', hA'⟩ := hA
  obtain ⟨fba, hb, hrows, hx⟩ := hfacts.encode hn hX (fun c e h => by
    have := h.symm.trans he'
    injection this with this
    obtain ⟨rfl, rfl⟩ := Prod.mk.inj this
    exact hA')
  refine ⟨fba, hb, ?_⟩
  unfold Est.predictProba
  simp only
  rw [hb, bind_ok, show o.est.fitted = true from rfl, show o.est.ovr = staysOvr s.self y from rfl, hov]
  simp only [Bool.not_true, Bool.false_eq_true, if_false]
  rw [proba_exact _ _ _ _ fun t h => by
    have := (hval' t h).2.2.2 fba hx
    rw [hov] at this
    exact this, hrows, hnt]
  rfl

/-- **C57** The probabilities of a classifier in one-versus-rest mode with more than two classes: the score of a class is the sum of the probability of the label 1 over the
trees grown for this class, on the labels 1 for this class and 0 for the others; the scores are normalised. -/
theorem C57_ovr {lib : Lib V K ℝ G W} {a : FitArgs N V} {y : List L} {s : World L V K ℝ (List ℝ) G W}
    (hlib : LibOK lib a.nRows) (hp : ParamsValid s.self (nCols a.X)) (hd : DataValid lib.conv a s y.length) (ht : a.targetsOK = true)
    (hst : StrategyOK y.dedup.length s.self.strategy)
    (hagg : s.self.aggregation = true → s.self.dirichlet ≠ 0) (hmode : s.self.ovr = true ∧ 2 < y.dedup.length) :
    ∃ s', fitClassifier lib a y s = (.ok (), s') ∧ ∃ (train : FBA) (g : Nat → GrownTree (List ℝ)), s'.self.encode lib a.nRows a.X = .ok train ∧
      (∀ t < s'.self.classes.length * s.self.nEstimators, GrownIn (lib.boot a.nRows) a.nRows s'.self.trees s'.self.seeds t (g t)) ∧
      ∀ (N' : Type) [DecidableEq N'] (eps : ℝ) (n : Nat) (X : Dataset N' V), 0 < n → GoodInput n X → AcceptedBy lib s'.self X →
        ∃ fba, s'.self.encode lib n X = .ok fba ∧ s'.self.predictProba lib eps n X =
          .ok ((List.range n).map fun i => (List.range s'.self.classes.length).map (normalised eps s'.self.classes.length fun c =>
            ∑ r ∈ Finset.range s.self.nEstimators,
              probValue ⟨a.nRows, binsOf train, rowWeight (givenWeights a s) s.self.balanced a.nRows (fun i => if classOf s'.self.classes y i = c then 1 else 0),
                  (g (c * s.self.nEstimators + r)).draws⟩ (g (c * s.self.nEstimators + r))
                s.self.aggregation s.self.step s.self.dirichlet 2 (fun i => if classOf s'.self.classes y i = c then 1 else 0) (binsOf fba i) 1)) := by
  rw [← sortedUnique_length] at hst hmode
  have hov : staysOvr s.self y = true := by
    unfold staysOvr
    rw [hmode.1, decide_eq_true hmode.2]; rfl
  obtain ⟨e0, o, he0, hfit, hfacts⟩ := fitClassifier_ok (okW := fun _ => True) hlib hp hd ht (fun _ _ => hmode.2)
    (fun h h2 => by simp only [Num.le, Num.zero, decide_eq_true_eq] at h2; exact hagg h (le_antisymm h2.1 h2.2))
    hst (fun k _ => by simp [Num.toNat, Num.ofNat]) (fun _ _ => trivial)
  subst he0
  have hnt : o.est.trees.length = s.self.nEstimators * (sortedUnique y).length := by
    have := hfacts.nTrees
    rwa [show (preparedEst (withCategorical a.categorical s.self) y).ovr = staysOvr s.self y from rfl, hov, if_pos rfl] at this
  obtain ⟨train, htr, hval⟩ := FitFacts.class_values (e0 := preparedEst (withCategorical a.categorical s.self) y) rfl rfl hlib
    (strategy_tree hst _) hd.labels (weightsOf_length hd) hfacts
  obtain ⟨g, hg⟩ : ∃ g : Nat → GrownTree (List ℝ), ∀ t (h : t < o.est.trees.length), g t = (hval t h).choose :=
    ⟨fun t => if h : t < o.est.trees.length then (hval t h).choose else ⟨o.est.trees[0]'(by
        rw [hnt]; exact Nat.mul_pos hp.estimators (by omega)) |>.arr, .leaf 0, []⟩,
      fun t h => dif_pos h⟩
  have hval' := fun t (h : t < o.est.trees.length) => by have := (hval t h).choose_spec; rw [← hg t h] at this; exact this
  refine ⟨_, hfit, train, g, htr, fun t h => ?_, fun N' _ eps n X hn hX hA => ?_⟩
  · obtain ⟨h1, h2, ⟨seed, h3, h4⟩, -⟩ := hval' t (by rw [hnt, Nat.mul_comm]; exact h)
    exact ⟨_, seed, List.getElem?_eq_getElem _, h3, h1, h2, h4⟩
  obtain ⟨cfg', enc', he', hA'⟩ := hA
  obtain ⟨fba, hb, hrows, hx⟩ := hfacts.encode hn hX (fun c e h => by
    have := h.symm.trans he'
    injection this with this
    obtain ⟨rfl, rfl⟩ := Prod.mk.inj this
    exact hA')
  refine ⟨fba, hb, ?_⟩
  unfold Est.predictProba
  simp only
  rw [hb, bind_ok, show o.est.fitted = true from rfl, show o.est.ovr = staysOvr s.self y from rfl, hov]
  simp only [Bool.not_true, Bool.false_eq_true, if_false, if_true]
  rw [probaOvr_exact o.est.trees fba eps (n := o.est.nClasses) (E := o.est.nEstimators)
    (by rw [hnt, Nat.mul_comm]; exact Nat.le_refl _) _ (fun t h => by
      have := (hval' t h).2.2.2 fba hx
      rw [hov] at this
      exact this), hrows, hnt]
  refine congrArg Except.ok (List.map_congr_left fun i _ => ?_)
  have hfun : ∀ c, c < (sortedUnique y).length → (∑ t ∈ Finset.range (s.self.nEstimators * (sortedUnique y).length), if t / o.est.nEstimators = c then
      probValue ⟨a.nRows, binsOf train, rowWeight (givenWeights a s) s.self.balanced a.nRows
          (fun i => if classOf (sortedUnique y) y i = t / s.self.nEstimators then 1 else 0), (g t).draws⟩ (g t)
        s.self.aggregation s.self.step s.self.dirichlet 2 (fun i => if classOf (sortedUnique y) y i = t / s.self.nEstimators then 1 else 0) (binsOf fba i) 1
      else 0) = ∑ r ∈ Finset.range s.self.nEstimators,
      probValue ⟨a.nRows, binsOf train, rowWeight (givenWeights a s) s.self.balanced a.nRows (fun i => if classOf (sortedUnique y) y i = c then 1 else 0),
          (g (c * s.self.nEstimators + r)).draws⟩ (g (c * s.self.nEstimators + r))
        s.self.aggregation s.self.step s.self.dirichlet 2 (fun i => if classOf (sortedUnique y) y i = c then 1 else 0) (binsOf fba i) 1 := by
    intro c hc
    rw [show o.est.nEstimators = s.self.nEstimators from rfl, ← sum_block (n := (sortedUnique y).length) (fun t =>
      probValue ⟨a.nRows, binsOf train, rowWeight (givenWeights a s) s.self.balanced a.nRows (fun i => if classOf (sortedUnique y) y i = c then 1 else 0),
          (g t).draws⟩ (g t) s.self.aggregation s.self.step s.self.dirichlet 2 (fun i => if classOf (sortedUnique y) y i = c then 1 else 0) (binsOf fba i) 1) hc]
    refine Finset.sum_congr rfl fun t _ => ?_
    by_cases h : t / s.self.nEstimators = c
    · rw [if_pos h, if_pos h, h]
    · rw [if_neg h, if_neg h]
  exact List.map_congr_left fun c hc => normalised_congr eps hfun (List.mem_range.1 hc)

/-- **C57** The predictions of a regressor: the mean over the trees of the average over all prunings (or the value at the leaf without aggregation) of the
weighted mean of the labels of the rows drawn for the tree; the losses of the prunings are the square losses on the rows that were not drawn. -/
theorem C57_regressor {lib : Lib V K ℝ G W} {a : FitArgs N V} {y : List ℝ} {s : World L V K ℝ ℝ G W}
    (hlib : LibOK lib a.nRows) (hp : ParamsValid s.self (nCols a.X)) (hd : DataValid lib.conv a s y.length) (ho : s.self.ovr = false) :
    ∃ s', fitRegressor lib a y s = (.ok (), s') ∧ ∃ (train : FBA) (g : Nat → GrownTree ℝ), s'.self.encode lib a.nRows a.X = .ok train ∧
      (∀ t < s.self.nEstimators, GrownIn (lib.boot a.nRows) a.nRows s'.self.trees s'.self.seeds t (g t)) ∧
      ∀ (N' : Type) [DecidableEq N'] (n : Nat) (X : Dataset N' V), 0 < n → GoodInput n X → AcceptedBy lib s'.self X →
        ∃ fba, s'.self.encode lib n X = .ok fba ∧ s'.self.predictReg lib n X = .ok ((List.range n).map fun i =>
          (∑ t ∈ Finset.range s.self.nEstimators,
            meanValue ⟨a.nRows, binsOf train, fun i => (givenWeights a s).getD i 0, (g t).draws⟩ (g t) s.self.aggregation s.self.step
              (fun i => y.getD i 0) (binsOf fba i)) / s.self.nEstimators) := by
  obtain ⟨e0, o, he0, hfit, hfacts⟩ := fitRegressor_ok hlib hp hd
  subst he0
  have hnt : o.est.trees.length = s.self.nEstimators := by
    have := hfacts.nTrees
    rwa [show (withCategorical a.categorical s.self).ovr = s.self.ovr from rfl, ho, if_neg (by simp)] at this
  obtain ⟨train, htr, hval⟩ := FitFacts.reg_values hlib hfacts
  obtain ⟨g, hg⟩ : ∃ g : Nat → GrownTree ℝ, ∀ t (h : t < o.est.trees.length), g t = (hval t h).choose :=
    ⟨fun t => if h : t < o.est.trees.length then (hval t h).choose else ⟨o.est.trees[0]'(by rw [hnt]; exact hp.estimators) |>.arr, .leaf 0, []⟩,
      fun t h => dif_pos h⟩
  have hval' := fun t (h : t < o.est.trees.length) => by have := (hval t h).choose_spec; rw [← hg t h] at this; exact this
  refine ⟨_, hfit, train, g, htr, fun t h => ?_, fun N' _ n X hn hX hA => ?_⟩
  · obtain ⟨h1, h2, ⟨seed, h3, h4⟩, -⟩ := hval' t (by rw [hnt]; exact h)
    exact ⟨_, seed, List.getElem?_eq_getElem _, h3, h1, h2, h4⟩
  obtain ⟨cfg', enc', he', hA'⟩ := hA
  obtain ⟨fba, hb, hrows, hx⟩ := hfacts.encode hn hX (fun c e h => by
    have := h.symm.trans he'
    injection this with this
    obtain ⟨rfl, rfl⟩ := Prod.mk.inj this
    exact hA')
  refine ⟨fba, hb, ?_⟩
  unfold Est.predictReg
  simp only
  rw [hb, bind_ok, reg_exact _ _ _ fun t h => (hval' t h).2.2.2 fba hx, hrows, hnt]
  rfl

end

/-- The hypotheses of `C57_multinomial` hold for three classes with balanced weights: the probability of the third class in the first row is the mean of the
values of two trees. -/
example : ∃ s' train fba, ∃ (g : Nat → GrownTree (List ℝ)) (p : List (List ℝ)),
    fitClassifier estLib (estArgs (some true) true) [3, 3, 5, 5, 8, 8] (estWorld _ false true .none 0) = (.ok (), s') ∧
    s'.self.encode estLib 6 estX = .ok train ∧ s'.self.encode estLib 6 estX = .ok fba ∧ s'.self.predictProba estLib (1 / 1000) 6 estX = .ok p ∧
    s'.self.classes = [3, 5, 8] ∧
    p[0]?.map (fun q => q[2]?) = some (some ((∑ t ∈ Finset.range 2,
      probValue ⟨6, binsOf train, rowWeight realW true 6 (classOf [3, 5, 8] [3, 3, 5, 5, 8, 8]), (g t).draws⟩ (g t) true 1 (1 / 2) 3
        (classOf [3, 5, 8] [3, 3, 5, 5, 8, 8]) (binsOf fba 0) 2) / 2)) := by
  have hd := estData_valid (P := List ℝ) (ovr := false) (balanced := true) (cf := .none) (np := 0) (some true) true
  have hlib : LibOK estLib (estArgs (some true) true).nRows := estLib_ok (n := 6) (by norm_num)
  obtain ⟨s', h1, -, h3, -, -, -, -, -, -, -, hacc, -⟩ := fit_class_facts hlib (estToy_valid _) hd (y := [3, 3, 5, 5, 8, 8]) rfl (fun _ h => by cases h)
    est_strategy (by norm_num [estWorld, estToy]) (fun _ => by norm_num [estWorld, estToy]) (fun w h => (realW_pos w h).le)
    (.inl (by norm_num [estWorld, estToy]))
  obtain ⟨s'', h1', train, g, htr, -, hpred⟩ := C57_multinomial hlib (estToy_valid _) hd (y := [3, 3, 5, 5, 8, 8]) rfl (fun _ h => by cases h)
    est_strategy (fun _ => by norm_num [estWorld, estToy]) (.inl rfl)
  rw [h1] at h1'
  obtain ⟨-, rfl⟩ := Prod.mk.inj h1'
  obtain ⟨fba, hb, hp⟩ := hpred String (1 / 1000) 6 estX (by norm_num) estX_good hacc
  have hc : s'.self.classes = [3, 5, 8] := by rw [h3]; decide
  rw [hc] at hp
  exact ⟨s', train, fba, g, _, h1, htr, hb, hp, hc, rfl⟩

/-- The hypotheses of `C57_ovr` hold: the score of a class comes from its two trees, grown on the labels of this class against the rest. -/
example : ∃ s' train fba, ∃ (g : Nat → GrownTree (List ℝ)) (p : List (List ℝ)),
    fitClassifier estLib (estArgs (some true) true) [3, 3, 5, 5, 8, 8] (estWorld _ true false .none 0) = (.ok (), s') ∧
    s'.self.encode estLib 6 estX = .ok train ∧ s'.self.encode estLib 6 estX = .ok fba ∧ s'.self.predictProba estLib (1 / 1000) 6 estX = .ok p ∧
    p[4]?.map (fun q => q[1]?) = some (some (normalised (1 / 1000) 3 (fun c => ∑ r ∈ Finset.range 2,
      probValue ⟨6, binsOf train, rowWeight realW false 6 (fun i => if classOf [3, 5, 8] [3, 3, 5, 5, 8, 8] i = c then 1 else 0), (g (c * 2 + r)).draws⟩
        (g (c * 2 + r)) true 1 (1 / 2) 2 (fun i => if classOf [3, 5, 8] [3, 3, 5, 5, 8, 8] i = c then 1 else 0) (binsOf fba 4) 1) 1)) := by
  have hd := estData_valid (P := List ℝ) (ovr := true) (balanced := false) (cf := .none) (np := 0) (some true) true
  have hlib : LibOK estLib (estArgs (some true) true).nRows := estLib_ok (n := 6) (by norm_num)
  obtain ⟨s', h1, -, h3, -, -, -, -, -, -, -, hacc, -⟩ := fit_class_facts hlib (estToy_valid _) hd (y := [3, 3, 5, 5, 8, 8]) rfl (fun _ h => by cases h)
    est_strategy (by norm_num [estWorld, estToy]) (fun _ => by norm_num [estWorld, estToy]) (fun w h => (realW_pos w h).le)
    (.inl (by norm_num [estWorld, estToy]))
  obtain ⟨s'', h1', train, g, htr, -, hpred⟩ := C57_ovr hlib (estToy_valid _) hd (y := [3, 3, 5, 5, 8, 8]) rfl
    est_strategy (fun _ => by norm_num [estWorld, estToy]) ⟨rfl, by decide⟩
  rw [h1] at h1'
  obtain ⟨-, rfl⟩ := Prod.mk.inj h1'
  obtain ⟨fba, hb, hp⟩ := hpred String (1 / 1000) 6 estX (by norm_num) estX_good hacc
  have hc : s'.self.classes = [3, 5, 8] := by rw [h3]; decide
  rw [hc] at hp
  exact ⟨s', train, fba, g, _, h1, htr, hb, hp, rfl⟩

/-- The hypotheses of `C57_regressor` hold. -/
example : ∃ s' train fba, ∃ (g : Nat → GrownTree ℝ) (p : List ℝ), fitRegressor estLib (estArgs none false) realY (estWorld _ false false .none 4) = (.ok (), s') ∧
    s'.self.encode estLib 6 estX = .ok train ∧ s'.self.encode estLib 6 estX = .ok fba ∧ s'.self.predictReg estLib 6 estX = .ok p ∧
    p[3]? = some ((∑ t ∈ Finset.range 2, meanValue ⟨6, binsOf train, fun i => (List.replicate 6 1).getD i 0, (g t).draws⟩ (g t) true 1
      (fun i => realY.getD i 0) (binsOf fba 3)) / 2) := by
  have hd := estData_valid (P := ℝ) (ovr := false) (balanced := false) (cf := .none) (np := 4) none false
  obtain ⟨s', h1, -, hacc, -⟩ := C54_regressor (L := Nat) (lo := 0) (hi := 1) (a := estArgs none false) (y := realY)
    (s := estWorld _ false false .none 4) (estLib_ok (n := 6) (by norm_num)) (estToy_valid _) hd rfl (fun w h => realW_pos w h) (by
      intro v hv
      simp only [realY, List.mem_cons, List.not_mem_nil, or_false] at hv
      rcases hv with rfl | rfl | rfl | rfl | rfl | rfl <;> norm_num)
  obtain ⟨s'', h1', train, g, htr, -, hpred⟩ := C57_regressor (y := realY) (estLib_ok (n := 6) (by norm_num)) (estToy_valid _) hd rfl
  rw [h1] at h1'
  obtain ⟨-, rfl⟩ := Prod.mk.inj h1'
  obtain ⟨fba, hb, hp⟩ := hpred String 6 estX (by norm_num) estX_good hacc
  exact ⟨s', train, fba, g, _, h1, htr, hb, hp, rfl⟩

end Verif
