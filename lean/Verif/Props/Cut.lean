import Verif.Proofs.Cut
import Verif.Proofs.EstEnd
import Verif.Proofs.EstToy
import Verif.Props.MoreTrees

/-! # C95: stricter limits cut the trees -/
set_option linter.unusedSectionVars false
namespace Verif

open Spec

section
variable {L V K F P G W N : Type} [LinearOrder L] [DecidableEq V] [DecidableEq N] [LinearOrder K] [Field K] [IsStrictOrderedRing K] [FloorSemiring K] [Num F]

theorem classOrders_noDraw (R : Rng G) (argsort : List F → List Nat) (n : Nat) {s : CatStrategy} (hs : s ≠ .random) (bins : List Nat) (ys : List (List F)) (g g' : G) :
    RelM (fun x y => x.1 = y.1) (classOrders R argsort n s bins ys g) (classOrders R argsort n s bins ys g') := by
  unfold classOrders
  cases s with
  | random => exact absurd rfl hs
  | all =>
    refine RelM.same.bind fun u _ e => ?_
    subst e
    exact RelM.pure' rfl
  | binary =>
    refine RelM.same.bind fun u _ e => ?_
    subst e
    exact RelM.pure' rfl

theorem regOrders_noDraw (argsort : List F → List Nat) (bins : List Nat) (ys : List (F × F)) (g g' : G) :
    RelM (fun x y => x.1 = y.1) ((regressorTask argsort : Task F _ F G).orders bins ys g) ((regressorTask argsort).orders bins ys g') := by
  unfold regressorTask
  refine RelM.same.bind fun u _ e => ?_
  subst e
  exact RelM.pure' rfl

/-- **C95** Two classifiers differ in `max_depth` and `min_samples_split`, and those of the first are stricter. The fits have the same encoder. When all features are
tried for each split and no random choice is made (`cat_split_strategy` is not "random" or no column is categorical), each tree of the first forest is the tree of the
second forest cut at the topmost nodes that break a limit of the first. -/
theorem C95_classifier {lib : Lib V K F G W} {a : FitArgs N V} {y : List L} {s : World L V K F (List F) G W}
    (hlib : LibOK lib a.nRows) (hp : ParamsValid s.self (nCols a.X)) (hd : DataValid lib.conv a s y.length) (ht : a.targetsOK = true)
    (hrefit : s.self.ovr = true → s.self.fitted = true → 2 < y.dedup.length) (hst : StrategyOK y.dedup.length s.self.strategy)
    (hdir : s.self.aggregation = true → ¬(Num.le s.self.dirichlet Num.zero = true ∧ Num.le Num.zero s.self.dirichlet = true))
    (hF : ∀ k, k < max 2 y.dedup.length → Num.toNat (Num.ofNat k : F) = k) (hr : a.randomizedDepth = false)
    {m : Option Nat} {ms : Nat} (hm : ∀ x, m = some x → ∃ z, s.self.maxDepth = some z ∧ z ≤ x) (hms : 1 ≤ ms ∧ ms ≤ s.self.minSplit)
    (hmax : ∀ x, s.self.maxDepth = some x → x < 2 ^ 64) :
    ∃ s1 s2, fitClassifier lib a y s = (.ok (), s1) ∧
      fitClassifier lib a y { s with self := { s.self with maxDepth := m, minSplit := ms } } = (.ok (), s2) ∧ s1.self.encoder = s2.self.encoder ∧
      (s1.self.maxFeatures_ = nCols a.X → (s.self.strategy ≠ .random ∨ ∀ c ∈ s1.self.isCategorical_, c = false) →
        ForestCut (Breaks s.self.maxDepth s.self.minSplit s.self.aggregation) s1.self.trees s2.self.trees) := by
  rw [← sortedUnique_length] at hrefit hst hF
  obtain ⟨e0, o, he0, hfit, hfacts⟩ := fitClassifier_ok (okW := fun _ => True) hlib hp hd ht hrefit hdir hst hF (fun _ _ => trivial)
  obtain ⟨e0', o', he0', hfit', hfacts'⟩ := fitClassifier_ok (s := { s with self := { s.self with maxDepth := m, minSplit := ms } }) (okW := fun _ => True) hlib
    ⟨hp.1, hp.2, hp.3, hp.4, hms.1, hp.6, hp.7⟩ ⟨hd.1, hd.2, hd.3, hd.4, hd.5, hd.6, hd.7⟩ ht hrefit hdir hst hF (fun _ _ => trivial)
  subst he0 he0'
  have hT : ValidTask ((preparedOf lib s.self y (weightsOf a s)).task (preparedEst (withCategorical a.categorical s.self) y).dirichlet) _ := .classifier lib.rng _ _ _ hlib.argsort (strategy_tree hst _)
  refine ⟨_, _, hfit, hfit', ?_, fun hmf hnd => ?_⟩
  · have h1 := o.henc
    have h2 := o'.henc
    have h3 : o.ic = o'.ic := Except.ok.inj (o.hic.symm.trans o'.hic)
    rw [h3] at h1
    have h4 : o.enc = o'.enc := Except.ok.inj (h1.symm.trans h2)
    show some (_, o.enc) = some (_, o'.enc)
    rw [h4, h3]
    rfl
  · exact (Outcome.cut (m := m) (ms := ms) hlib hd.rows.2 hT o o' hfacts hfacts' hr hm hms.2 hmax hmf
      (hnd.imp (fun h bins ys g g' => classOrders_noDraw _ _ _ h _ _ _ _) id)).2

/-- **C95** The same for a regressor, which makes no random choice besides the features and the rows. -/
theorem C95_regressor {lib : Lib V K F G W} {a : FitArgs N V} {y : List F} {s : World L V K F F G W}
    (hlib : LibOK lib a.nRows) (hp : ParamsValid s.self (nCols a.X)) (hd : DataValid lib.conv a s y.length) (hr : a.randomizedDepth = false)
    {m : Option Nat} {ms : Nat} (hm : ∀ x, m = some x → ∃ z, s.self.maxDepth = some z ∧ z ≤ x) (hms : 1 ≤ ms ∧ ms ≤ s.self.minSplit)
    (hmax : ∀ x, s.self.maxDepth = some x → x < 2 ^ 64) :
    ∃ s1 s2, fitRegressor lib a y s = (.ok (), s1) ∧
      fitRegressor lib a y { s with self := { s.self with maxDepth := m, minSplit := ms } } = (.ok (), s2) ∧ s1.self.encoder = s2.self.encoder ∧
      (s1.self.maxFeatures_ = nCols a.X → ForestCut (Breaks s.self.maxDepth s.self.minSplit s.self.aggregation) s1.self.trees s2.self.trees) := by
  obtain ⟨e0, o, he0, hfit, hfacts⟩ := fitRegressor_ok (y := y) hlib hp hd
  obtain ⟨e0', o', he0', hfit', hfacts'⟩ := fitRegressor_ok (y := y) (s := { s with self := { s.self with maxDepth := m, minSplit := ms } }) hlib
    ⟨hp.1, hp.2, hp.3, hp.4, hms.1, hp.6, hp.7⟩ ⟨hd.1, hd.2, hd.3, hd.4, hd.5, hd.6, hd.7⟩
  subst he0 he0'
  refine ⟨_, _, hfit, hfit', ?_, fun hmf => ?_⟩
  · have h1 := o.henc
    have h2 := o'.henc
    have h3 : o.ic = o'.ic := Except.ok.inj (o.hic.symm.trans o'.hic)
    rw [h3] at h1
    have h4 : o.enc = o'.enc := Except.ok.inj (h1.symm.trans h2)
    show some (_, o.enc) = some (_, o'.enc)
    rw [h4, h3]
    rfl
  · exact (Outcome.cut (m := m) (ms := ms) hlib hd.rows.2 (.regressor hlib.argsort) o o' hfacts hfacts' hr hm hms.2 hmax hmf
      (Or.inl fun bins ys g g' => regOrders_noDraw _ _ _ _ _)).2

/-- **C95** The leaf of the cut tree that a row visits has the value, counts, weights and loss of the first node, on the way of this row down the larger tree, that is a
leaf or breaks a limit. -/
theorem C95_leaves {stop : Node F → Prop} {ts ts' : List (TreeObj F P G)} (h : ForestCut stop ts ts') {t : Nat} {o o' : TreeObj F P G} (ho : ts[t]? = some o)
    (ho' : ts'[t]? = some o') {x : Nat → Nat} {k : Nat} {n : Node F} (hv : Visits o.arr x k) (hn : NodeAt o.arr k n) (hl : n.isLeaf = true) :
    ∃ k' n', Reaches stop o'.arr x k' ∧ NodeAt o'.arr k' n' ∧ (n'.isLeaf = true ∨ stop n') ∧ SameNumbers o.arr o'.arr k k' n n' := by
  obtain ⟨k', h1, h2⟩ := (h.2 t o o' ho ho').visits hv
  cases h2 with
  | leaf e1 e2 e3 _ e5 =>
    cases nodeAt_inj hn e1
    exact ⟨_, _, h1, e2, e5, e3⟩
  | node e1 _ _ e4 =>
    cases nodeAt_inj hn e1
    rw [hl] at e4; cases e4

end

/-- The estimator of the examples with limits. -/
noncomputable def cutWorld (P : Type) (np : Nat) : World Nat Nat ℚ ℝ P Nat Nat :=
  { estWorld P false true .none np with self := { (estWorld P false true .none np).self with maxDepth := some 1, minSplit := 3 } }

/-- The hypotheses of `C95_classifier` hold: three classes, a categorical and a numerical column, depth at most one and three rows to split against no limits. -/
example : ∃ s1 s2 : World Nat Nat ℚ ℝ (List ℝ) Nat Nat, fitClassifier estLib (estArgs none false) [3, 3, 5, 5, 8, 8] (cutWorld _ 0) = (.ok (), s1) ∧ s1.self.encoder = s2.self.encoder ∧
    ForestCut (Breaks (some 1) 3 true) s1.self.trees s2.self.trees ∧ s1.self.trees.length = 2 := by
  have hd := estData_valid (P := List ℝ) (ovr := false) (balanced := true) (cf := .none) (np := 0) none false
  have hp := estToy_valid (P := List ℝ) (ovr := false) (balanced := true) (cf := .none) (sub := none) 2
  have hlib : LibOK estLib (estArgs none false).nRows := estLib_ok (n := 6) (by norm_num)
  have hp' : ParamsValid (cutWorld (List ℝ) 0).self 2 := ⟨hp.1, hp.2, hp.3, hp.4, by norm_num [cutWorld], hp.6, hp.7⟩
  have hd' : DataValid estLib.conv (estArgs none false) (cutWorld (List ℝ) 0) 6 := ⟨hd.1, hd.2, hd.3, hd.4, hd.5, hd.6, hd.7⟩
  have hdir : (cutWorld (List ℝ) 0).self.aggregation = true →
      ¬(Num.le (cutWorld (List ℝ) 0).self.dirichlet Num.zero = true ∧ Num.le Num.zero (cutWorld (List ℝ) 0).self.dirichlet = true) := by
    intro _ h
    have := h.1
    simp only [cutWorld, estWorld, estToy, Num.le, Num.zero] at this
    norm_num at this
  obtain ⟨s1, s2, h1, h2, h3, h4⟩ := C95_classifier (y := [3, 3, 5, 5, 8, 8]) (m := none) (ms := 2) hlib hp' hd' rfl (fun h _ => by cases h)
    est_strategy hdir (fun k _ => by simp [Num.toNat, Num.ofNat]) rfl (fun x h => by cases h) (by norm_num [cutWorld])
    (fun x h => by cases h; norm_num)
  obtain ⟨e0, o, he0, hfit, hf⟩ := fitClassifier_ok (y := [3, 3, 5, 5, 8, 8]) (okW := fun _ => True) hlib hp' hd' rfl (fun h _ => by cases h) hdir
    (by rw [sortedUnique_length]; exact est_strategy) (fun k _ => by simp [Num.toNat, Num.ofNat]) (fun _ _ => trivial)
  rw [h1] at hfit
  cases hfit
  subst he0
  refine ⟨_, s2, h1, h3, h4 ?_ (.inl (by simp [cutWorld, estWorld, estToy])), hf.nTrees⟩
  exact (Except.ok.inj o.hmf).symm

/-- The hypotheses of `C95_regressor` hold. -/
example : ∃ s1 s2 : World Nat Nat ℚ ℝ ℝ Nat Nat, fitRegressor estLib (estArgs none false) realY (cutWorld _ 4) = (.ok (), s1) ∧
    (s1.self.maxFeatures_ = 2 → ForestCut (Breaks (some 1) 3 true) s1.self.trees s2.self.trees) := by
  have hd := estData_valid (P := ℝ) (ovr := false) (balanced := true) (cf := .none) (np := 4) none false
  have hp := estToy_valid (P := ℝ) (ovr := false) (balanced := true) (cf := .none) (sub := none) 2
  have hlib : LibOK estLib (estArgs none false).nRows := estLib_ok (n := 6) (by norm_num)
  obtain ⟨s1, s2, h1, h2, h3, h4⟩ := C95_regressor (s := cutWorld ℝ 4) (y := realY) (m := some 2) (ms := 2) hlib
    ⟨hp.1, hp.2, hp.3, hp.4, by norm_num [cutWorld], hp.6, hp.7⟩ ⟨hd.1, hd.2, hd.3, hd.4, hd.5, hd.6, hd.7⟩ rfl
    (fun x h => ⟨1, rfl, by cases h; norm_num⟩) (by norm_num [cutWorld]) (fun x h => by cases h; norm_num)
  exact ⟨s1, s2, h1, h4⟩

section
attribute [local instance] toyNum

/-- A column of words. -/
def cutX : Dataset String Nat := .frame [("b", { kind := .bOSU, cells := [some 0, some 1, some 2, some 3, some 4, some 5] })]

/-- The fit with a limit on the depth; all rows but the last are drawn. -/
def cutFit (m : Option Nat) : M Unit × World Nat Nat ℚ Int Int Nat Nat :=
  fitRegressor { moreLib with boot := fun _ _ => [0, 1, 2, 3, 4, 4] } ⟨cutX, 6, none, .none, false, true⟩ [0, 0, 10, 10, 30, 30]
    ⟨{ (moreWorld 1).self with maxDepth := m, minSplit := 2, ovr := false, maxBins := 8, trees := [] }, [], 0⟩

/-- The cut is not trivial: in a run with integers, the tree without limit has more nodes than the tree with `max_depth = 1`. -/
example : (cutFit none).1 = .ok () ∧ (cutFit none).2.self.trees.map (fun o => o.arr.nodeCount) = [5] ∧ (cutFit (some 1)).1 = .ok () ∧
    (cutFit (some 1)).2.self.trees.map (fun o => o.arr.nodeCount) = [3] := by
  decide +kernel

end

end Verif
