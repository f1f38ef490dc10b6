import Verif.Spec.MoreTrees
import Verif.Proofs.MoreTrees
import Verif.Proofs.EstToy
import Verif.Proofs.ToyTree
import Verif.Props.InspectForest

/-! # C84: more estimators keep the first trees -/
set_option linter.unusedSectionVars false
namespace Verif

open Spec

section
variable {L V K F G W N : Type} [LinearOrder L] [DecidableEq V] [DecidableEq N] [LinearOrder K] [Field K] [IsStrictOrderedRing K] [FloorSemiring K] [Num F]

/-- **C84** (the part that holds) In multinomial mode or with at most two classes, and in any float arithmetic: when `random_state` is an integer and `fit` succeeds with
`k` and with `m ≥ k` estimators, the lines of `apply` and of `predict_proba_trees` of the smaller forest are the first `k` lines of the larger one. Missing: one-versus-rest
mode, see `C84_ovr_violated`. The hypotheses `hl` and `hs` say that drawing `k` numbers from a seeded generator gives the first `k` of `m` numbers. -/
theorem C84_multinomial_partial {lib : Lib V K F G W} {a : FitArgs N V} {y : List L} {s s1 s2 : World L V K F (List F) G W} {m r : Nat} (hy : y ≠ [])
    (h1 : fitClassifier lib a y s = (.ok (), s1)) (h2 : fitClassifier lib a y { s with self := { s.self with nEstimators := m } } = (.ok (), s2))
    (hr : s.self.randomState = some (some r)) (hmode : s.self.ovr = false ∨ y.dedup.length ≤ 2) (hk : s.self.nEstimators ≤ m)
    (hl : ∀ k, (lib.seeded r k).length = k) (hs : lib.seeded r s.self.nEstimators = (lib.seeded r m).take s.self.nEstimators) :
    ∀ (N' : Type) [DecidableEq N'] (n : Nat) (X : Dataset N' V),
      (∀ l, s2.self.apply lib n X = .ok l → s1.self.apply lib n X = .ok (l.take s.self.nEstimators)) ∧
      ∀ l, s2.self.predictProbaTrees lib n X = .ok l → s1.self.predictProbaTrees lib n X = .ok (l.take s.self.nEstimators) := by
  have hov : staysOvr s.self y = false := by
    unfold staysOvr
    rcases hmode with h | h
    · rw [h]; rfl
    · rw [sortedUnique_length, decide_eq_false (by omega), Bool.and_false]
  have h := class_take hy h1 h2 hr hov hk hl hs
  exact fun N' _ n X => ⟨fun l hl => h.apply hl, fun l hl => h.probaTrees hl⟩

/-- **C84** (the part that holds) The same for the lines of `apply` and `_weighted_depth` of a regressor, and for its list of trees. -/
theorem C84_regressor_partial {lib : Lib V K F G W} {a : FitArgs N V} {y : List F} {s s1 s2 : World L V K F F G W} {m r : Nat}
    (h1 : fitRegressor lib a y s = (.ok (), s1)) (h2 : fitRegressor lib a y { s with self := { s.self with nEstimators := m } } = (.ok (), s2))
    (hr : s.self.randomState = some (some r)) (ho : s.self.ovr = false) (hk : s.self.nEstimators ≤ m)
    (hl : ∀ k, (lib.seeded r k).length = k) (hs : lib.seeded r s.self.nEstimators = (lib.seeded r m).take s.self.nEstimators) :
    s1.self.trees = s2.self.trees.take s.self.nEstimators ∧ ∀ (N' : Type) [DecidableEq N'] (n : Nat) (X : Dataset N' V),
      (∀ l, s2.self.apply lib n X = .ok l → s1.self.apply lib n X = .ok (l.take s.self.nEstimators)) ∧
      ∀ l, s2.self.weightedDepth lib n X = .ok l → s1.self.weightedDepth lib n X = .ok (l.take s.self.nEstimators) := by
  have h := reg_take h1 h2 hr ho hk hl hs
  exact ⟨h.trees, fun N' _ n X => ⟨fun l hl => h.apply hl, fun l hl => h.depth hl⟩⟩

end

section
attribute [local instance] toyNum

/-- External code; seed 7 draws rows of the last class, other seeds those of the first class. -/
def moreLib : Lib Nat ℚ Int Nat Nat where
  seeded s k := (List.range k).map (· + s)
  seededGlobal w k := ((List.range k).map (· + w), w + 1)
  choice w _ k := (List.range k, w)
  depth w := (w, w)
  boot _ s := if s = 7 then [4, 5, 4, 5, 4, 5] else [0, 1, 0, 1, 0, 1]
  frames := 1
  flog n := Nat.log 3 n
  fsqrt n := Nat.sqrt n
  cap := 1000
  words _ := 0
  garbage _ := toyGarbage
  rng := toyRng
  argsort := toyArgsort
  conv := exConv

/-- A classifier with `k` estimators in one-versus-rest mode whose trees are single leaves. -/
def moreWorld (k : Nat) : World Nat Nat ℚ Int (List Int) Nat Nat :=
  ⟨{ fitted := false, nEstimators := k, criterion := .gini, step := 1, dirichlet := 0, aggregation := false, maxDepth := none, minSplit := 100,
     minLeaf := 1, maxBins := 5, categoricalFeatures := .none, maxFeatures := .none, subsample := none, catMin := .int 4, handleUnknownError := false,
     randomState := some (some 7), balanced := false, ovr := true, strategy := .all, classes := [], nClasses := 0, nTrees := 0,
     nClassesPerTree := 0, maxFeatures_ := 0, seeds := [], isCategorical_ := [], encoder := none, trees := [], nSamples := 0, nFeatures := 0 }, [], 0⟩

/-- One column of words. -/
def moreX : Dataset String Nat := .frame [("b", { kind := .bOSU, cells := [some 2, some 0, some 1, some 2, none, some 0] })]

/-- The fit of `k` estimators in one-versus-rest mode. -/
def moreFit (k : Nat) : M Unit × World Nat Nat ℚ Int (List Int) Nat Nat := fitClassifier moreLib ⟨moreX, 6, none, .none, false, true⟩ [3, 3, 5, 5, 8, 8] (moreWorld k)

/-- **C84** is violated in one-versus-rest mode: with one estimator the tree of class `8` uses the first seed, with two estimators both trees of this class use the second
seed; so the line of this class is lost, although the seeds are the same. The arithmetic on integers is exact here. -/
theorem C84_ovr_violated : ∃ s1 s2 l1 l2,
    fitClassifier moreLib ⟨moreX, 6, none, .none, false, true⟩ [3, 3, 5, 5, 8, 8] (moreWorld 1) = (.ok (), s1) ∧
    fitClassifier moreLib ⟨moreX, 6, none, .none, false, true⟩ [3, 3, 5, 5, 8, 8] { moreWorld 1 with self := { (moreWorld 1).self with nEstimators := 2 } } = (.ok (), s2) ∧
    (moreWorld 1).self.randomState = some (some 7) ∧ moreLib.seeded 7 1 = (moreLib.seeded 7 2).take 1 ∧
    s1.self.predictProbaTrees moreLib 6 moreX = .ok l1 ∧ s2.self.predictProbaTrees moreLib 6 moreX = .ok l2 ∧ ¬ ClassLinesKept 3 1 2 l1 l2 := by
  have e1 : (moreFit 1).1 = .ok () := by decide +kernel
  have e2 : (moreFit 2).1 = .ok () := by decide +kernel
  have e3 : (moreFit 1).2.self.predictProbaTrees moreLib 6 moreX =
      .ok [List.replicate 6 [1, 0], List.replicate 6 [1, 0], List.replicate 6 [0, 1]] := by decide +kernel
  have e4 : (moreFit 2).2.self.predictProbaTrees moreLib 6 moreX =
      .ok [List.replicate 6 [1, 0], List.replicate 6 [1, 0], List.replicate 6 [1, 0], List.replicate 6 [1, 0], List.replicate 6 [1, 0], List.replicate 6 [1, 0]] := by
    decide +kernel
  obtain ⟨s1, h1⟩ : ∃ s1, moreFit 1 = (.ok (), s1) := ⟨_, by rw [← e1]⟩
  obtain ⟨s2, h2⟩ : ∃ s2, moreFit 2 = (.ok (), s2) := ⟨_, by rw [← e2]⟩
  rw [h1] at e3
  rw [h2] at e4
  refine ⟨s1, s2, _, _, h1, h2, rfl, by decide, e3, e4, fun h => ?_⟩
  have := h 2 (by norm_num) 0 (by norm_num)
  exact absurd this (by decide)

end

/-- The hypotheses of `C84_multinomial_partial` hold: two of five trees, drawn by the seed `7`, for three classes. -/
example : ∃ s1 s2 : World Nat Nat ℚ ℝ (List ℝ) Nat Nat, fitClassifier estLib (estArgs none true) [3, 3, 5, 5, 8, 8] (estWorld _ false true .none 0) = (.ok (), s1) ∧
    ∀ l, s2.self.apply estLib 6 estX = .ok l → s1.self.apply estLib 6 estX = .ok (l.take 2) := by
  have hd := estData_valid (P := List ℝ) (ovr := false) (balanced := true) (cf := .none) (np := 0) none true
  have hlib : LibOK estLib (estArgs none true).nRows := estLib_ok (n := 6) (by norm_num)
  have hp := estToy_valid (P := List ℝ) (ovr := false) (balanced := true) (cf := .none) (sub := none) 2
  obtain ⟨s1, h1, -⟩ := C59_classifier_partial hlib (estToy_valid _) hd (y := [3, 3, 5, 5, 8, 8]) rfl (fun _ h => by cases h) est_strategy
    (fun _ => by norm_num [estWorld, estToy])
  obtain ⟨s2, h2, -⟩ := C59_classifier_partial (s := { estWorld (List ℝ) false true .none 0 with self := { (estWorld (List ℝ) false true .none 0).self with nEstimators := 5 } })
    hlib ⟨by norm_num, hp.2, hp.3, hp.4, hp.5, hp.6, hp.7⟩ ⟨hd.1, hd.2, hd.3, hd.4, hd.5, hd.6, hd.7⟩ (y := [3, 3, 5, 5, 8, 8]) rfl (fun _ h => by cases h)
    est_strategy (fun _ => by norm_num [estWorld, estToy])
  exact ⟨s1, s2, h1, (C84_multinomial_partial (m := 5) (r := 7) (by simp) h1 h2 rfl (.inl rfl) (by norm_num [estWorld, estToy]) (by simp [estLib])
    (by simp [estLib, estWorld, estToy, List.range_succ]) String 6 estX).1⟩

/-- The hypotheses of `C84_regressor_partial` hold. -/
example : ∃ s1 s2 : World Nat Nat ℚ ℝ ℝ Nat Nat, fitRegressor estLib (estArgs none false) realY (estWorld _ false false .none 4) = (.ok (), s1) ∧
    s1.self.trees = s2.self.trees.take 2 ∧ s2.self.trees.length = 5 := by
  have hd := estData_valid (P := ℝ) (ovr := false) (balanced := false) (cf := .none) (np := 4) none false
  have hlib : LibOK estLib (estArgs none false).nRows := estLib_ok (n := 6) (by norm_num)
  have hp := estToy_valid (P := ℝ) (ovr := false) (balanced := false) (cf := .none) (sub := none) 2
  obtain ⟨e0, o, -, h1, -⟩ := fitRegressor_ok (y := realY) hlib (estToy_valid _) hd
  obtain ⟨e2, o2, he2, h2, hf⟩ := fitRegressor_ok (y := realY) (s := { estWorld ℝ false false .none 4 with self := { (estWorld ℝ false false .none 4).self with nEstimators := 5 } })
    hlib ⟨by norm_num, hp.2, hp.3, hp.4, hp.5, hp.6, hp.7⟩ ⟨hd.1, hd.2, hd.3, hd.4, hd.5, hd.6, hd.7⟩
  refine ⟨_, _, h1, (C84_regressor_partial (m := 5) (r := 7) h1 h2 rfl rfl (by norm_num [estWorld, estToy]) (by simp [estLib])
    (by simp [estLib, estWorld, estToy, List.range_succ])).1, ?_⟩
  rw [hf.nTrees, he2]
  rfl

end Verif
