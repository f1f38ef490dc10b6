import Verif.Proofs.EstFit
import Verif.Props.Forest

/-! `fit` followed by predictions. -/
set_option linter.unusedSectionVars false
namespace Verif

open Spec

section
variable {L V K F Y P G W N : Type} [LinearOrder L] [DecidableEq V] [DecidableEq N] [LinearOrder K] [Field K] [IsStrictOrderedRing K]
  [FloorSemiring K] [Num F]

theorem weightsOf_length {cv : Conv V K} {a : FitArgs N V} {s : World L V K F P G W} {k : Nat} (hd : DataValid cv a s k) :
    (weightsOf a s).length = a.nRows := by
  unfold weightsOf
  cases h : a.weights with
  | none => simp
  | some b => exact hd.weights (by simp [h])

theorem strategy_tree {n : Nat} {s : CatStrategy} (h : StrategyOK n s) (b : Bool) : StrategyOK (if b then 2 else n) s := by
  cases b with
  | false => exact h
  | true => cases s <;> simp [StrategyOK]

theorem sortedUnique_pos {y : List L} (hy : y ≠ []) : 0 < (sortedUnique y).length := by
  obtain ⟨l, hl⟩ := List.exists_mem_of_ne_nil y hy
  exact List.length_pos_of_mem (mem_sortedUnique.2 hl)

/-- `fit` of a classifier succeeds; all that is known of the result. -/
theorem fitClassifier_ok {lib : Lib V K F G W} {a : FitArgs N V} {y : List L} {s : World L V K F (List F) G W} {okW : List F → Prop}
    (hlib : LibOK lib a.nRows) (hp : ParamsValid s.self (nCols a.X)) (hd : DataValid lib.conv a s y.length) (ht : a.targetsOK = true)
    (hrefit : s.self.ovr = true → s.self.fitted = true → 2 < (sortedUnique y).length)
    (hdir : s.self.aggregation = true → ¬(Num.le s.self.dirichlet Num.zero = true ∧ Num.le Num.zero s.self.dirichlet = true))
    (hst : StrategyOK (sortedUnique y).length s.self.strategy)
    (hF : ∀ k, k < max 2 (sortedUnique y).length → Num.toNat (Num.ofNat k : F) = k)
    (hW : ∀ w ∈ classWeights s.self y (weightsOf a s), okW w) :
    ∃ (e0 : Est L V K F (List F) G) (o : Outcome lib a (preparedOf lib s.self y (weightsOf a s)) e0 s.np),
      e0 = preparedEst (withCategorical a.categorical s.self) y ∧
      fitClassifier lib a y s = (.ok (), { self := o.est, weights := callerWeights s.self a y s.weights (weightsOf a s), np := npAfter lib a e0 s.np }) ∧
      FitFacts lib a (preparedOf lib s.self y (weightsOf a s)) (ClassLabel (if staysOvr s.self y then 2 else (sortedUnique y).length)) okW e0 o.est := by
  have hy : y ≠ [] := by
    intro h0; have := hd.labels; have := hd.rows.1; rw [h0] at *; simp_all
  have hp' : ParamsValid (preparedEst (withCategorical a.categorical s.self) y) (nCols a.X) := ⟨hp.1, hp.2, hp.3, hp.4, hp.5, hp.6, hp.7⟩
  obtain ⟨o, ho⟩ := fit_outcome (np := s.np) (p := preparedOf lib s.self y (weightsOf a s)) hlib hp' hd (okW := okW)
    (classifier_safe lib.rng hlib.argsort (if staysOvr s.self y then 2 else (sortedUnique y).length) s.self.dirichlet s.self.criterion
      (strategy_tree hst _))
    (codes_prep hd.labels (weightsOf_length hd) hF hW)
  refine ⟨_, o, rfl, ?_, ho⟩
  unfold fitClassifier
  rw [Py.bind_of_ok (fitChecks_ok hd.labels hd.weights), Py.bind_of_ok (prepClassifier_ok ht hy (by exact hrefit) (by exact hdir))]
  exact fitRest_ok (s := { self := preparedEst (withCategorical a.categorical s.self) y, weights := callerWeights s.self a y s.weights (weightsOf a s), np := s.np }) o

/-- The same for a regressor. -/
theorem fitRegressor_ok {lib : Lib V K F G W} {a : FitArgs N V} {y : List F} {s : World L V K F F G W}
    (hlib : LibOK lib a.nRows) (hp : ParamsValid s.self (nCols a.X)) (hd : DataValid lib.conv a s y.length) :
    ∃ (e0 : Est L V K F F G) (o : Outcome lib a ⟨fun _ => regressorTask lib.argsort, false, [y], [weightsOf a s]⟩ e0 s.np),
      e0 = withCategorical a.categorical s.self ∧
      fitRegressor lib a y s = (.ok (), { self := o.est, weights := s.weights, np := npAfter lib a e0 s.np }) ∧
      FitFacts lib a ⟨fun _ => regressorTask lib.argsort, false, [y], [weightsOf a s]⟩ (fun _ => True) (· = weightsOf a s) e0 o.est := by
  have hp' : ParamsValid (withCategorical a.categorical s.self) (nCols a.X) := ⟨hp.1, hp.2, hp.3, hp.4, hp.5, hp.6, hp.7⟩
  obtain ⟨o, ho⟩ := fit_outcome (np := s.np) (p := ⟨fun _ => regressorTask lib.argsort, false, [y], [weightsOf a s]⟩) hlib hp' hd
    (okW := (· = weightsOf a s)) (regressor_safe hlib.argsort)
    (fun i _ => ⟨y, weightsOf a s, rfl, rfl, hd.labels, weightsOf_length hd, fun _ _ => trivial, rfl⟩)
  refine ⟨_, o, rfl, ?_, ho⟩
  unfold fitRegressor
  rw [Py.bind_of_ok (fitChecks_ok hd.labels hd.weights)]
  exact fitRest_ok (s := { s with self := withCategorical a.categorical s.self }) o

end

/-! ## Real numbers -/

section
variable {L V K Y P G W N : Type} [LinearOrder L] [DecidableEq V] [DecidableEq N] [LinearOrder K] [Field K] [IsStrictOrderedRing K]
  [FloorSemiring K]

/-- Balancing keeps the sign of the weights. -/
theorem balancedWeights_pos (y : List Nat) : ∀ w ∈ (balancedWeights y : List ℝ), 0 < w := by
  intro w hw
  obtain ⟨k, hk, rfl⟩ := List.mem_map.1 hw
  have h1 : 0 < y.length := List.length_pos_of_mem hk
  have h2 : 0 < y.dedup.length := List.length_pos_of_mem (List.mem_dedup.2 hk)
  have h3 : 0 < y.count k := List.count_pos_iff.2 hk
  simp only [Num.div, Num.mul, Num.ofNat]
  positivity

theorem classWeights_sign {e : Est L V K ℝ P G} {y : List L} {sw : List ℝ} (h0 : ∀ w ∈ sw, 0 ≤ w) :
    ∀ ws ∈ classWeights e y sw, (∀ w ∈ ws, 0 ≤ w) ∧ ((∀ w ∈ sw, 0 < w) → ∀ w ∈ ws, 0 < w) := by
  intro ws hws
  unfold classWeights at hws
  split at hws
  · obtain ⟨c, _, rfl⟩ := List.mem_map.1 hws
    refine ⟨fun w hw => ?_, fun hpos w hw => ?_⟩
    · obtain ⟨a, ha, b, hb, rfl⟩ := mem_zipWith hw
      exact mul_nonneg (h0 a ha) (balancedWeights_pos _ b hb).le
    · obtain ⟨a, ha, b, hb, rfl⟩ := mem_zipWith hw
      exact mul_pos (hpos a ha) (balancedWeights_pos _ b hb)
  · obtain ⟨c, _, rfl⟩ := List.mem_map.1 hws
    exact ⟨h0, fun h => h⟩

theorem weightsOf_sign {a : FitArgs N V} {s : World L V K ℝ P G W} (h : ∀ w ∈ s.weights, 0 ≤ w) :
    (∀ w ∈ weightsOf a s, 0 ≤ w) ∧ ((∀ w ∈ s.weights, 0 < w) → ∀ w ∈ weightsOf a s, 0 < w) := by
  unfold weightsOf
  cases a.weights with
  | none =>
    refine ⟨fun w hw => ?_, fun _ w hw => ?_⟩ <;> rw [List.eq_of_mem_replicate hw] <;> simp [Num.one]
  | some b => exact ⟨h, fun h => h⟩

theorem getD_prop {Q : ℝ → Prop} {l : List ℝ} (h : ∀ v ∈ l, Q v) {i : Nat} (hi : i < l.length) : Q (l.getD i Num.zero) := by
  rw [List.getD_eq_getElem?_getD, List.getElem?_eq_getElem hi]
  exact h _ (List.getElem_mem hi)

/-- Every tree of a fitted classifier gives distributions. -/
theorem FitFacts.predict_class {lib : Lib V K ℝ G W} {a : FitArgs N V} {y : List L} {sw : List ℝ} {b : Bool} {m : Nat} {d : ℝ}
    {e0 e' e : Est L V K ℝ (List ℝ) G} (hb : b = staysOvr e y) (hm : m = if b then 2 else (sortedUnique y).length) (hlib : LibOK lib a.nRows) (hst : StrategyOK m e.strategy) (hd : 0 ≤ d) (hd0 : e0.dirichlet = d)
    (h : FitFacts lib a (preparedOf lib e y sw) (ClassLabel m) (fun w => (∀ v ∈ w, 0 ≤ v) ∧ (0 < d ∨ ∀ v ∈ w, 0 < v)) e0 e')
    {fba : FBA} (hx : RowsOK fba (nCols a.X)) :
    ∀ o ∈ e'.trees, ∃ p, o.predict mixV fba = .ok p ∧ p.length = fba.nSamples ∧ ∀ v ∈ p, Distribution m v := by
  intro o ho
  subst hb hm hd0
  obtain ⟨c, gb, seed, D, hin, hlen, hn, hdd, ⟨hw0, hw1⟩, hDw, _, hbt⟩ := h.trees o ho
  obtain ⟨bt, w, hB⟩ := buildTree_inv (D := D) (by rw [hn]; exact hlib.boot) hin hlen hbt
  refine Built.predict_class hlib.argsort hst hd hB (fun i hi => ?_) (hw1.imp id fun h1 i hi => ?_) (by rw [hdd]; exact hx)
  · rw [hDw]; exact getD_prop hw0 (by omega)
  · rw [hDw]; exact getD_prop h1 (by omega)

/-- Every tree of a fitted regressor stays in the range of the labels. -/
theorem FitFacts.predict_reg {lib : Lib V K ℝ G W} {a : FitArgs N V} {y sw : List ℝ} {e0 e' : Est L V K ℝ ℝ G} {lo hi : ℝ} (hlib : LibOK lib a.nRows)
    (h : FitFacts lib a ⟨fun _ => regressorTask lib.argsort, false, [y], [sw]⟩ (fun _ => True) (· = sw) e0 e') (hw : ∀ v ∈ sw, 0 < v)
    (hl : y.length = a.nRows) (hy : ∀ v ∈ y, lo ≤ v ∧ v ≤ hi) {fba : FBA} (hx : RowsOK fba (nCols a.X)) :
    ∀ o ∈ e'.trees, ∃ p, o.predict mixF fba = .ok p ∧ p.length = fba.nSamples ∧ ∀ v ∈ p, lo ≤ v ∧ v ≤ hi := by
  intro o ho
  obtain ⟨c, gb, seed, D, hin, hlen, hn, hdd, hw0, hDw, ⟨y', hy', hDy⟩, hbt⟩ := h.trees o ho
  rw [List.mem_singleton] at hy'
  subst hy'
  obtain ⟨bt, w, hB⟩ := buildTree_inv (D := D) (by rw [hn]; exact hlib.boot) hin hlen hbt
  refine Built.predict_reg hlib.argsort hB (fun i hi => ?_) (fun i hi => ?_) (by rw [hdd]; exact hx)
  · rw [hDw]; exact getD_prop (by rw [hw0]; exact hw) (by omega)
  · rw [hDy]; exact getD_prop hy (by omega)

end

end Verif
