import Verif.Proofs.Deep
import Verif.Props.Cut
import Verif.Props.Estimator

/-! # C108, C109: limits of the depth that no node reaches; a single class -/
set_option linter.unusedSectionVars false
namespace Verif

open Spec

section
variable {L V K F P G W N : Type} [LinearOrder L] [DecidableEq V] [DecidableEq N] [LinearOrder K] [Field K] [IsStrictOrderedRing K] [FloorSemiring K] [Num F]

theorem noContext_mapM {α : Type} (f : TreeObj F P G → M α) (hf : ∀ t, f { t with ctx := none } = f t) (ts : List (TreeObj F P G)) :
    (NoContext ts).mapM f = ts.mapM f := by
  induction ts with
  | nil => rfl
  | cons t ts ih =>
    have : NoContext (t :: ts) = { t with ctx := none } :: NoContext ts := rfl
    rw [this, List.mapM_cons, List.mapM_cons, hf, ih]

theorem noContext_foldlM {α : Type} (f : α → TreeObj F P G → M α) (hf : ∀ a t, f a { t with ctx := none } = f a t) (ts : List (TreeObj F P G)) (a : α) :
    (NoContext ts).foldlM f a = ts.foldlM f a := by
  unfold NoContext
  rw [List.foldlM_map]
  simp only [hf]

theorem noContext_zipIdx {α : Type} (f : α → TreeObj F P G × Nat → M α) (hf : ∀ a t i, f a ({ t with ctx := none }, i) = f a (t, i)) (ts : List (TreeObj F P G)) (a : α) :
    (NoContext ts).zipIdx.foldlM f a = ts.zipIdx.foldlM f a := by
  unfold NoContext
  rw [List.zipIdx_map, List.foldlM_map]
  congr 1
  funext a x
  exact hf a x.1 x.2

variable {lib : Lib V K F G W} {m : Option Nat}

theorem apply_noContext {e e' : Est L V K F P G} (he : e' = { e with maxDepth := m, trees := e'.trees })
    (h : NoContext e'.trees = NoContext e.trees) (n : Nat) (X : Dataset N V) : e'.apply lib n X = e.apply lib n X := by
  have h1 : e'.encode lib n X = e.encode lib n X := by rw [he]; rfl
  unfold Est.apply
  rw [h1]
  refine bind_congr fun fba => ?_
  rw [← noContext_mapM _ (fun _ => rfl) e'.trees, h, noContext_mapM _ (fun _ => rfl)]

theorem predictProba_noContext {eps : F} {e e' : Est L V K F (List F) G} (he : e' = { e with maxDepth := m, trees := e'.trees })
    (h : NoContext e'.trees = NoContext e.trees) (n : Nat) (X : Dataset N V) : e'.predictProba lib eps n X = e.predictProba lib eps n X := by
  have h1 : e'.encode lib n X = e.encode lib n X := by rw [he]; rfl
  have h2 : e'.fitted = e.fitted := by rw [he]
  have h3 : e'.ovr = e.ovr := by rw [he]
  have h4 : e'.nClasses = e.nClasses := by rw [he]
  have h5 : e'.nEstimators = e.nEstimators := by rw [he]
  have h6 : e'.trees.length = e.trees.length := by simpa [NoContext] using congrArg List.length h
  unfold Est.predictProba
  rw [h1, h2, h3, h4, h5]
  refine bind_congr fun fba => ?_
  congr 2
  · unfold predictProbaOvr
    rw [← noContext_zipIdx _ (fun _ _ _ => rfl) e'.trees, h, noContext_zipIdx _ (fun _ _ _ => rfl)]
  · unfold Verif.predictProba accumulateProba
    rw [← noContext_foldlM _ (fun _ _ => rfl) e'.trees, h, noContext_foldlM _ (fun _ _ => rfl), h6]

theorem predict_noContext {eps : F} {e e' : Est L V K F (List F) G} (he : e' = { e with maxDepth := m, trees := e'.trees })
    (h : NoContext e'.trees = NoContext e.trees) (n : Nat) (X : Dataset N V) : e'.predict lib eps n X = e.predict lib eps n X := by
  have h1 : e'.classes = e.classes := by rw [he]
  unfold Est.predict
  rw [predictProba_noContext he h, h1]

theorem predictReg_noContext {e e' : Est L V K F F G} (he : e' = { e with maxDepth := m, trees := e'.trees })
    (h : NoContext e'.trees = NoContext e.trees) (n : Nat) (X : Dataset N V) : e'.predictReg lib n X = e.predictReg lib n X := by
  have h1 : e'.encode lib n X = e.encode lib n X := by rw [he]; rfl
  have h6 : e'.trees.length = e.trees.length := by simpa [NoContext] using congrArg List.length h
  unfold Est.predictReg
  rw [h1]
  refine bind_congr fun fba => ?_
  unfold forestPredict
  rw [← noContext_foldlM _ (fun _ _ => rfl) e'.trees, h, noContext_foldlM _ (fun _ _ => rfl), h6]

/-- **C108** Two classifiers that differ in `max_depth` only. The nodes of the first forest are less deep than the number of training rows. If they are less deep
than both limits, the two fits do the same: the forests differ in `max_depth` only, have the same nodes and answer every call alike. -/
theorem C108_classifier {a : FitArgs N V} {y : List L} {s : World L V K F (List F) G W}
    (hlib : LibOK lib a.nRows) (hp : ParamsValid s.self (nCols a.X)) (hd : DataValid lib.conv a s y.length) (ht : a.targetsOK = true)
    (hrefit : s.self.ovr = true → s.self.fitted = true → 2 < y.dedup.length) (hst : StrategyOK y.dedup.length s.self.strategy)
    (hdir : s.self.aggregation = true → ¬(Num.le s.self.dirichlet Num.zero = true ∧ Num.le Num.zero s.self.dirichlet = true))
    (hF : ∀ k, k < max 2 y.dedup.length → Num.toNat (Num.ofNat k : F) = k) (hr : a.randomizedDepth = false) (m : Option Nat) :
    ∃ s1 s2, fitClassifier lib a y s = (.ok (), s1) ∧ fitClassifier lib a y { s with self := { s.self with maxDepth := m } } = (.ok (), s2) ∧
      DepthBelow (some a.nRows) s1.self.trees ∧
      (DepthBelow s.self.maxDepth s1.self.trees → DepthBelow m s1.self.trees →
        NoContext s2.self.trees = NoContext s1.self.trees ∧
        s2 = { s1 with self := { s1.self with maxDepth := m, trees := s2.self.trees } } ∧
        ∀ (N' : Type) [DecidableEq N'] (eps : F) (n : Nat) (X : Dataset N' V), s2.self.predictProba lib eps n X = s1.self.predictProba lib eps n X ∧
          s2.self.predict lib eps n X = s1.self.predict lib eps n X ∧ s2.self.apply lib n X = s1.self.apply lib n X) := by
  rw [← sortedUnique_length] at hrefit hst hF
  obtain ⟨e0, o, he0, hfit, hfacts⟩ := fitClassifier_ok (okW := fun _ => True) hlib hp hd ht hrefit hdir hst hF (fun _ _ => trivial)
  obtain ⟨e0', o', he0', hfit', hfacts'⟩ := fitClassifier_ok (s := { s with self := { s.self with maxDepth := m } }) (okW := fun _ => True) hlib
    ⟨hp.1, hp.2, hp.3, hp.4, hp.5, hp.6, hp.7⟩ ⟨hd.1, hd.2, hd.3, hd.4, hd.5, hd.6, hd.7⟩ ht hrefit hdir hst hF (fun _ _ => trivial)
  subst he0 he0'
  have hT : ValidTask ((preparedOf lib s.self y (weightsOf a s)).task (preparedEst (withCategorical a.categorical s.self) y).dirichlet) _ := .classifier lib.rng _ _ _ hlib.argsort (strategy_tree hst _)
  refine ⟨_, _, hfit, hfit', Outcome.depth hlib hT o hfacts, fun h1 h2 => ?_⟩
  obtain ⟨k1, k2⟩ := Outcome.deep (m := m) hlib hd.rows.2 hT o o' hfacts hfacts' hr h2 h1
  refine ⟨k1, ?_, fun N' _ eps n X => ⟨predictProba_noContext k2 k1 n X, predict_noContext k2 k1 n X, apply_noContext k2 k1 n X⟩⟩
  have hnp : npAfter lib a (preparedEst (withCategorical a.categorical { s.self with maxDepth := m }) y) s.np =
      npAfter lib a (preparedEst (withCategorical a.categorical s.self) y) s.np := by
    unfold npAfter
    rw [hr]
    simp only [depthsOf_fixed]
    rfl
  simp only [hnp]
  congr 1

/-- **C108** The same for regressors. -/
theorem C108_regressor {a : FitArgs N V} {y : List F} {s : World L V K F F G W}
    (hlib : LibOK lib a.nRows) (hp : ParamsValid s.self (nCols a.X)) (hd : DataValid lib.conv a s y.length) (hr : a.randomizedDepth = false) (m : Option Nat) :
    ∃ s1 s2, fitRegressor lib a y s = (.ok (), s1) ∧ fitRegressor lib a y { s with self := { s.self with maxDepth := m } } = (.ok (), s2) ∧
      DepthBelow (some a.nRows) s1.self.trees ∧
      (DepthBelow s.self.maxDepth s1.self.trees → DepthBelow m s1.self.trees →
        NoContext s2.self.trees = NoContext s1.self.trees ∧
        s2 = { s1 with self := { s1.self with maxDepth := m, trees := s2.self.trees } } ∧
        ∀ (N' : Type) [DecidableEq N'] (n : Nat) (X : Dataset N' V), s2.self.predictReg lib n X = s1.self.predictReg lib n X ∧
          s2.self.apply lib n X = s1.self.apply lib n X) := by
  obtain ⟨e0, o, he0, hfit, hfacts⟩ := fitRegressor_ok hlib hp hd
  obtain ⟨e0', o', he0', hfit', hfacts'⟩ := fitRegressor_ok (s := { s with self := { s.self with maxDepth := m } }) hlib
    ⟨hp.1, hp.2, hp.3, hp.4, hp.5, hp.6, hp.7⟩ ⟨hd.1, hd.2, hd.3, hd.4, hd.5, hd.6, hd.7⟩
  subst he0 he0'
  refine ⟨_, _, hfit, hfit', Outcome.depth hlib (.regressor hlib.argsort) o hfacts, fun h1 h2 => ?_⟩
  obtain ⟨k1, k2⟩ := Outcome.deep (m := m) hlib hd.rows.2 (.regressor hlib.argsort) o o' hfacts hfacts' hr h2 h1
  refine ⟨k1, ?_, fun N' _ n X => ⟨predictReg_noContext k2 k1 n X, apply_noContext k2 k1 n X⟩⟩
  have hnp : npAfter lib a (withCategorical a.categorical { s.self with maxDepth := m }) s.np = npAfter lib a (withCategorical a.categorical s.self) s.np := by
    unfold npAfter
    rw [hr]
    simp only [depthsOf_fixed]
    rfl
  simp only [hnp]
  congr 1

end

/-- **C109**, partial: a classifier with `cat_split_strategy` "all" or "random" can be fitted on labels with a single class. It then predicts this class with
probability one for every row of every acceptable dataset. Missing: the strategy "binary", the default, see `C109_violated`. -/
theorem C109_classifier_partial {L V K G W N : Type} [LinearOrder L] [DecidableEq V] [DecidableEq N] [LinearOrder K] [Field K] [IsStrictOrderedRing K] [FloorSemiring K]
    {lib : Lib V K ℝ G W} {a : FitArgs N V} {n : Nat} {l : L} {s : World L V K ℝ (List ℝ) G W} {eps : ℝ} (heps : 0 ≤ eps)
    (hlib : LibOK lib a.nRows) (hp : ParamsValid s.self (nCols a.X)) (hd : DataValid lib.conv a s n) (ht : a.targetsOK = true)
    (hrefit : s.self.ovr = true → s.self.fitted = false) (hst : s.self.strategy ≠ .binary)
    (hdir : 0 ≤ s.self.dirichlet) (hagg : s.self.aggregation = true → 0 < s.self.dirichlet)
    (hw : ∀ w ∈ s.weights, 0 ≤ w) (hpos : 0 < s.self.dirichlet ∨ ∀ w ∈ s.weights, 0 < w) :
    ∃ s', fitClassifier lib a (List.replicate n l) s = (.ok (), s') ∧ s'.self.classes = [l] ∧ AcceptedBy lib s'.self a.X ∧
      ∀ (N' : Type) [DecidableEq N'] (k : Nat) (X : Dataset N' V), 0 < k → GoodInput k X → AcceptedBy lib s'.self X →
        s'.self.predictProba lib eps k X = .ok (List.replicate k [1]) ∧ s'.self.predict lib eps k X = .ok (List.replicate k l) := by
  have hn : n = a.nRows := by simpa using hd.labels
  have hn0 : 0 < n := by rw [hn]; exact hd.rows.1
  obtain ⟨j, rfl⟩ : ∃ j, n = j + 1 := ⟨n - 1, by omega⟩
  have hone : (List.replicate (j + 1) l).dedup = [l] := List.replicate_dedup (by omega)
  obtain ⟨s', h1, h2, h3, h4, h5⟩ := C54_classifier (y := List.replicate (j + 1) l) heps hlib hp (by simpa using hd) ht
    (fun h h' => by rw [hrefit h] at h'; cases h') (by rw [hone]; cases hs : s.self.strategy <;> simp_all [StrategyOK]) hdir hagg hw hpos
  have hc : s'.self.classes = [l] := by
    have hmem : ∀ x ∈ s'.self.classes, x = l := fun x hx => List.eq_of_mem_replicate ((h3 x).1 hx)
    have hl : l ∈ s'.self.classes := (h3 l).2 (by simp)
    cases hcc : s'.self.classes with
    | nil => rw [hcc] at hl; cases hl
    | cons x xs =>
      rw [hcc] at hmem h2
      cases xs with
      | nil => rw [hmem x (by simp)]
      | cons z zs =>
        have := (List.pairwise_cons.1 h2).1 z (by simp)
        rw [hmem x (by simp), hmem z (by simp)] at this
        exact absurd this (lt_irrefl _)
  refine ⟨s', h1, hc, h4, fun N' _ k X hk hX hA => ?_⟩
  obtain ⟨proba, labels, g1, g2, g3, g4, g5, g6⟩ := h5 N' k X hk hX hA
  suffices proba = List.replicate k [1] ∧ labels = List.replicate k l by rw [g1, g4, this.1, this.2]; exact ⟨rfl, rfl⟩
  refine ⟨List.eq_replicate_iff.2 ⟨g2, fun p hp' => ?_⟩, List.eq_replicate_iff.2 ⟨g5, fun x hx => ?_⟩⟩
  · have := g3 p hp'
    rw [hc] at this
    obtain ⟨d1, d2, d3⟩ := this
    obtain ⟨x, rfl⟩ := List.length_eq_one_iff.1 d1
    simpa using d3
  · obtain ⟨i, hi⟩ := List.getElem?_of_mem hx
    have hi' : i < proba.length := by
      by_contra hcon; rw [List.getElem?_eq_none (by omega)] at hi; cases hi
    obtain ⟨k', l', e1, -, e2, -⟩ := g6 i _ (List.getElem?_eq_getElem hi')
    rw [hi] at e1
    cases e1
    exact List.eq_of_mem_replicate e2

/-- The hypotheses of `C108_classifier` hold: three classes, a categorical and a numerical column, no limit against 1000. -/
example : ∃ s1 s2 : World Nat Nat ℚ ℝ (List ℝ) Nat Nat, fitClassifier estLib (estArgs none false) [3, 3, 5, 5, 8, 8] (estWorld _ false true .none 0) = (.ok (), s1) ∧
    NoContext s2.self.trees = NoContext s1.self.trees ∧ s2.self.maxDepth = some 1000 ∧ s1.self.maxDepth = none := by
  have hd := estData_valid (P := List ℝ) (ovr := false) (balanced := true) (cf := .none) (np := 0) none false
  have hp := estToy_valid (P := List ℝ) (ovr := false) (balanced := true) (cf := .none) (sub := none) 2
  have hlib : LibOK estLib (estArgs none false).nRows := estLib_ok (n := 6) (by norm_num)
  obtain ⟨s1, s2, h1, h2, h3, h4⟩ := C108_classifier (y := [3, 3, 5, 5, 8, 8]) hlib hp hd rfl (fun h _ => by cases h)
    est_strategy (by
      intro _ h
      have := h.1
      simp only [estWorld, estToy, Num.le, Num.zero] at this
      norm_num at this) (fun k _ => by simp [Num.toNat, Num.ofNat]) rfl (some 1000)
  obtain ⟨k1, k2, -⟩ := h4 (fun x hx => by cases hx) (fun x hx t ht k n hk => lt_of_lt_of_le (h3 _ rfl t ht k n hk) (by cases hx; norm_num [estArgs]))
  refine ⟨s1, s2, h1, k1, by rw [k2], ?_⟩
  obtain ⟨e0, o, he0, hfit, hf⟩ := fitClassifier_ok (y := [3, 3, 5, 5, 8, 8]) (okW := fun _ => True) hlib hp hd rfl (fun h _ => by cases h) (by
      intro _ h
      have := h.1
      simp only [estWorld, estToy, Num.le, Num.zero] at this
      norm_num at this)
    (by rw [sortedUnique_length]; exact est_strategy) (fun k _ => by simp [Num.toNat, Num.ofNat]) (fun _ _ => trivial)
  rw [h1] at hfit
  cases hfit
  subst he0
  rfl

/-- The hypotheses of `C108_regressor` hold. -/
example : ∃ s1 s2 : World Nat Nat ℚ ℝ ℝ Nat Nat, fitRegressor estLib (estArgs none false) realY (cutWorld _ 4) = (.ok (), s1) ∧
    fitRegressor estLib (estArgs none false) realY { cutWorld ℝ 4 with self := { (cutWorld ℝ 4).self with maxDepth := none } } = (.ok (), s2) := by
  have hd := estData_valid (P := ℝ) (ovr := false) (balanced := true) (cf := .none) (np := 4) none false
  have hp := estToy_valid (P := ℝ) (ovr := false) (balanced := true) (cf := .none) (sub := none) 2
  have hlib : LibOK estLib (estArgs none false).nRows := estLib_ok (n := 6) (by norm_num)
  obtain ⟨s1, s2, h1, h2, -⟩ := C108_regressor (s := cutWorld ℝ 4) (y := realY) hlib
    ⟨hp.1, hp.2, hp.3, hp.4, by norm_num [cutWorld], hp.6, hp.7⟩ ⟨hd.1, hd.2, hd.3, hd.4, hd.5, hd.6, hd.7⟩ rfl none
  exact ⟨s1, s2, h1, h2⟩

/-- The hypotheses of `C109_classifier_partial` hold: six rows of class 3. -/
example : ∃ s' : World Nat Nat ℚ ℝ (List ℝ) Nat Nat, fitClassifier estLib (estArgs none false) (List.replicate 6 3)
    { estWorld (List ℝ) true true .none 0 with self := { (estWorld (List ℝ) true true .none 0).self with strategy := .random } } = (.ok (), s') ∧ s'.self.classes = [3] := by
  have hd := estData_valid (P := List ℝ) (ovr := true) (balanced := true) (cf := .none) (np := 0) none false
  have hp := estToy_valid (P := List ℝ) (ovr := true) (balanced := true) (cf := .none) (sub := none) 2
  have hlib : LibOK estLib (estArgs none false).nRows := estLib_ok (n := 6) (by norm_num)
  obtain ⟨s', h1, h2, -⟩ := C109_classifier_partial (s := { estWorld (List ℝ) true true .none 0 with self := { (estWorld (List ℝ) true true .none 0).self with strategy := .random } })
    (n := 6) (l := 3) (eps := 0) le_rfl hlib ⟨hp.1, hp.2, hp.3, hp.4, hp.5, hp.6, hp.7⟩ ⟨hd.1, hd.2, hd.3, hd.4, hd.5, hd.6, hd.7⟩ rfl (fun _ => rfl) (by simp)
    (by norm_num [estWorld, estToy]) (fun _ => by norm_num [estWorld, estToy]) (by intro w hw; simp [estWorld, realW] at hw; rcases hw with rfl | rfl | rfl | rfl | rfl <;> norm_num) (.inl (by norm_num [estWorld, estToy]))
  exact ⟨s', h1, h2⟩

end Verif
