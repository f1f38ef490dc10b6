import Verif.Proofs.Size
import Verif.Props.Greedy

/-! # C97: the sizes of the trees are bounded by the hyperparameters and the data -/
set_option linter.unusedSectionVars false
namespace Verif

open Spec

section
variable {L V K F P G W N : Type} [LinearOrder L] [DecidableEq V] [DecidableEq N] [LinearOrder K] [Field K] [IsStrictOrderedRing K]
  [FloorSemiring K] [Num F]

/-- **C97** The trees of a fitted classifier have one node fewer than twice their number of leaves. A tree with more than one leaf has at most (drawn rows / `min_samples_leaf`)
leaves, with aggregation also at most (other rows / `min_samples_leaf`), at most 2 to the power of the depth limit, at most two more than the number of drawn rows
without `min_samples_split`, and at most as many as there are different rows among the drawn ones. The arithmetic of the floats is arbitrary. -/
theorem C97_classifier {lib : Lib V K F G W} {a : FitArgs N V} {y : List L} {s : World L V K F (List F) G W}
    (hlib : LibOK lib a.nRows) (hp : ParamsValid s.self (nCols a.X)) (hd : DataValid lib.conv a s y.length) (ht : a.targetsOK = true)
    (hrefit : s.self.ovr = true → s.self.fitted = true → 2 < y.dedup.length) (hst : StrategyOK y.dedup.length s.self.strategy)
    (hdir : s.self.aggregation = true → ¬(Num.le s.self.dirichlet Num.zero = true ∧ Num.le Num.zero s.self.dirichlet = true))
    (hF : ∀ k, k < max 2 y.dedup.length → Num.toNat (Num.ofNat k : F) = k) :
    ∃ s', fitClassifier lib a y s = (.ok (), s') ∧ ForestSize lib s.self s'.self a := by
  rw [← sortedUnique_length] at hrefit hst hF
  obtain ⟨e0, o, he0, hfit, hfacts⟩ := fitClassifier_ok (okW := fun _ => True) hlib hp hd ht hrefit hdir hst hF (fun _ _ => trivial)
  subst he0
  exact ⟨_, hfit, hfacts.sizes hlib hd.rows.2 hd.rows.1 hd.good (.classifier lib.rng _ _ _ hlib.argsort (strategy_tree hst _)) o⟩

/-- **C97** The same for a regressor. -/
theorem C97_regressor {lib : Lib V K F G W} {a : FitArgs N V} {y : List F} {s : World L V K F F G W}
    (hlib : LibOK lib a.nRows) (hp : ParamsValid s.self (nCols a.X)) (hd : DataValid lib.conv a s y.length) :
    ∃ s', fitRegressor lib a y s = (.ok (), s') ∧ ForestSize lib s.self s'.self a := by
  obtain ⟨e0, o, he0, hfit, hfacts⟩ := fitRegressor_ok hlib hp hd
  subst he0
  exact ⟨_, hfit, hfacts.sizes hlib hd.rows.2 hd.rows.1 hd.good (.regressor hlib.argsort) o⟩

end

/-- The hypotheses of `C97_classifier` hold, with three classes in one-versus-rest mode: no tree has more than 11 nodes. -/
example : ∃ s', fitClassifier estLib (estArgs (some true) true) [3, 3, 5, 5, 8, 8] (estWorld _ true false .none 0) = (.ok (), s') ∧
    ∀ o ∈ s'.self.trees, o.arr.nodeCount ≤ 11 := by
  obtain ⟨s', h1, h2⟩ := C97_classifier (estLib_ok (n := 6) (by norm_num)) (estToy_valid _)
    (estData_valid (P := List ℝ) (ovr := true) (balanced := false) (cf := .none) (np := 0) (some true) true) (y := [3, 3, 5, 5, 8, 8]) rfl
    (fun _ h => by cases h) est_strategy (by intro _; norm_num [estWorld, estToy, Num.le, Num.zero])
    (fun k _ => by simp [Num.toNat, Num.ofNat])
  refine ⟨s', h1, fun o ho => ?_⟩
  obtain ⟨t, ht⟩ := List.getElem?_of_mem ho
  obtain ⟨seed, draws, lim, -, -, -, h⟩ := h2 t o ht
  have := h.nodes
  have := h.minSplit
  have : (drawnRows 6 draws).length ≤ 6 := drawnRows_length 6 draws
  have : (drawnRows (estArgs (some true) true).nRows draws).length ≤ 6 := this
  omega

/-- The hypotheses of `C97_regressor` hold; with aggregation a tree has at most as many leaves as rows that it does not draw, or one. -/
example : ∃ s', fitRegressor estLib (estArgs none false) realY (estWorld _ false false .none 4) = (.ok (), s') ∧
    ∀ o ∈ s'.self.trees, ∃ draws : List Nat, leafCount o.arr ≤ max 1 (leftOutRows 6 draws).length := by
  obtain ⟨s', h1, h2⟩ := C97_regressor (y := realY) (estLib_ok (n := 6) (by norm_num)) (estToy_valid _)
    (estData_valid (P := ℝ) (ovr := false) (balanced := false) (cf := .none) (np := 4) none false)
  refine ⟨s', h1, fun o ho => ?_⟩
  obtain ⟨t, ht⟩ := List.getElem?_of_mem ho
  obtain ⟨seed, draws, lim, -, -, -, h⟩ := h2 t o ht
  refine ⟨draws, ?_⟩
  rcases h.minLeaf with h3 | ⟨-, h3⟩
  · omega
  · have := h3 rfl
    have : leafCount o.arr * 1 ≤ (leftOutRows 6 draws).length := this
    omega

end Verif
