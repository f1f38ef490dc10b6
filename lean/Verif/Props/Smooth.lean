import Verif.Proofs.Smooth
import Verif.Props.EndToEnd

/-! # C83: no class gets probability zero -/
set_option linter.unusedSectionVars false
namespace Verif

open Spec

section
variable {L V K G W N : Type} [LinearOrder L] [DecidableEq V] [DecidableEq N] [LinearOrder K] [Field K] [IsStrictOrderedRing K] [FloorSemiring K]

/-- **C83** With `dirichlet = d > 0` and sample weights between zero and `c`, in exact arithmetic and for either mode: on every input that the fitted forest accepts, every
probability returned by `predict_proba` is at least `d / (C (B + d))`, where `C` is the number of classes and `B` bounds the weight of a bootstrap: `n c` for `n` training
rows, or `n² c` with `class_weight="balanced"`. Hence the logarithmic loss of a prediction is at most `log (C (B + d) / d)`, whatever the true class. -/
theorem C83_no_zero_probability {lib : Lib V K ℝ G W} {a : FitArgs N V} {y : List L} {s : World L V K ℝ (List ℝ) G W} {c : ℝ}
    (hlib : LibOK lib a.nRows) (hp : ParamsValid s.self (nCols a.X)) (hd : DataValid lib.conv a s y.length) (ht : a.targetsOK = true)
    (hrefit : s.self.ovr = true → s.self.fitted = true → 2 < y.dedup.length) (hst : StrategyOK y.dedup.length s.self.strategy)
    (hdir : 0 < s.self.dirichlet) (hc : 0 ≤ c) (hw : ∀ w ∈ givenWeights a s, 0 ≤ w ∧ w ≤ c) :
    ∃ s', fitClassifier lib a y s = (.ok (), s') ∧
      ∀ (N' : Type) [DecidableEq N'] (eps : ℝ) (n : Nat) (X : Dataset N' V), 0 < n → GoodInput n X → AcceptedBy lib s'.self X →
        ∃ p : Nat → Nat → ℝ, s'.self.predictProba lib eps n X = .ok ((List.range n).map fun i => (List.range s'.self.classes.length).map (p i)) ∧
          ∀ i < n, ∀ j < s'.self.classes.length,
            s.self.dirichlet / (s'.self.classes.length * (a.nRows * (c * if s.self.balanced then (a.nRows : ℝ) else 1) + s.self.dirichlet)) ≤ p i j ∧
            -Real.log (p i j) ≤
              Real.log (s'.self.classes.length * (a.nRows * (c * if s.self.balanced then (a.nRows : ℝ) else 1) + s.self.dirichlet) / s.self.dirichlet) := by
  have hB : 0 ≤ (a.nRows : ℝ) * (c * if s.self.balanced then (a.nRows : ℝ) else 1) := by split <;> positivity
  have hE : (0 : ℝ) < s.self.nEstimators := by exact_mod_cast hp.estimators
  have hlog : ∀ {k : Nat} {B q : ℝ}, 0 ≤ B → 0 < k → s.self.dirichlet / (k * (B + s.self.dirichlet)) ≤ q →
      s.self.dirichlet / (k * (B + s.self.dirichlet)) ≤ q ∧ -Real.log q ≤ Real.log (k * (B + s.self.dirichlet) / s.self.dirichlet) := by
    intro k B q hB hk hq
    have hk' : (0 : ℝ) < k := by exact_mod_cast hk
    have h0 : 0 < s.self.dirichlet / (k * (B + s.self.dirichlet)) := by positivity
    refine ⟨hq, ?_⟩
    rw [← inv_div, Real.log_inv, neg_le_neg_iff]
    exact Real.log_le_log h0 hq
  rcases Classical.em (s.self.ovr = true ∧ 2 < y.dedup.length) with hmode | hmode
  · obtain ⟨s', hfit, train, g, -, hg, hall⟩ := C57_ovr hlib hp hd ht hst (fun _ => hdir.ne') hmode
    refine ⟨s', hfit, fun N' _ eps n X hn hX hA => ?_⟩
    obtain ⟨fba, -, hpr⟩ := hall N' eps n X hn hX hA
    refine ⟨_, hpr, fun i _ j hj => hlog hB (by omega) ?_⟩
    exact normalised_bound hdir hB hE hj fun k hk => by
      rw [← Finset.card_range s.self.nEstimators, ← nsmul_eq_mul, ← nsmul_eq_mul]
      have hb := fun r (hr : r ∈ Finset.range s.self.nEstimators) => by
        have : k * s.self.nEstimators + r < s'.self.classes.length * s.self.nEstimators := by
          have := Nat.mul_le_mul_right s.self.nEstimators (Nat.succ_le_of_lt hk)
          rw [Nat.succ_mul] at this
          have := Finset.mem_range.1 hr
          omega
        exact probValue_bounds (X := binsOf train) (balanced := s.self.balanced) (agg := s.self.aggregation)
          (lab := fun i => if classOf s'.self.classes y i = k then 1 else 0) (step := s.self.step) hlib.boot (hg _ this) hw hc (nC := 2) (by norm_num) hdir (x := binsOf fba i) (j := 1) rfl
      exact ⟨by simpa using Finset.card_nsmul_le_sum _ _ _ fun r hr => (hb r hr).1, by simpa using Finset.sum_le_card_nsmul _ _ _ fun r hr => (hb r hr).2⟩
  · obtain ⟨s', hfit, train, g, -, hg, hall⟩ := C57_multinomial hlib hp hd ht hrefit hst (fun _ => hdir.ne') (by
      rcases Bool.eq_false_or_eq_true s.self.ovr with h | h
      · exact .inr (by by_contra h2; exact hmode ⟨h, by omega⟩)
      · exact .inl h)
    refine ⟨s', hfit, fun N' _ eps n X hn hX hA => ?_⟩
    obtain ⟨fba, -, hpr⟩ := hall N' eps n X hn hX hA
    refine ⟨_, hpr, fun i _ j hj => hlog hB (by omega) ?_⟩
    have hC : (1 : ℝ) ≤ s'.self.classes.length := by exact_mod_cast (show 1 ≤ s'.self.classes.length by omega)
    rw [le_div_iff₀ hE]
    refine le_trans ?_ (Finset.card_nsmul_le_sum (Finset.range s.self.nEstimators) _
      (s.self.dirichlet / (a.nRows * (c * if s.self.balanced then (a.nRows : ℝ) else 1) + s'.self.classes.length * s.self.dirichlet)) fun r hr => ?_)
    · rw [Finset.card_range, nsmul_eq_mul, mul_comm]
      refine mul_le_mul_of_nonneg_left (div_le_div_of_nonneg_left hdir.le (by positivity) ?_) hE.le
      rw [mul_add]
      exact add_le_add_left (le_mul_of_one_le_left hB hC) _
    · exact (probValue_bounds hlib.boot (hg r (Finset.mem_range.1 hr)) hw hc (by omega) hdir rfl).1

end

/-- The hypotheses of `C83_no_zero_probability` hold in one-versus-rest mode for three classes without sample weights: every probability is at least `1 / 39`. -/
example : ∃ s', fitClassifier estLib (estArgs none true) [3, 3, 5, 5, 8, 8] (estWorld _ true false .none 0) = (.ok (), s') ∧
    ∃ p : Nat → Nat → ℝ, s'.self.predictProba estLib (1 / 1000) 6 estX = .ok ((List.range 6).map fun i => (List.range 3).map (p i)) ∧
      ∀ i < 6, ∀ j < 3, 1 / 39 ≤ p i j := by
  have hd := estData_valid (P := List ℝ) (ovr := true) (balanced := false) (cf := .none) (np := 0) none true
  have hlib : LibOK estLib (estArgs none true).nRows := estLib_ok (n := 6) (by norm_num)
  obtain ⟨s', h1, -, h3, -, -, -, -, -, -, -, hacc, -⟩ := fit_class_facts hlib (estToy_valid _) hd (y := [3, 3, 5, 5, 8, 8]) rfl (fun _ h => by cases h)
    est_strategy (by norm_num [estWorld, estToy]) (fun _ => by norm_num [estWorld, estToy]) (fun w h => (realW_pos w h).le)
    (.inl (by norm_num [estWorld, estToy]))
  obtain ⟨s'', h1', hall⟩ := C83_no_zero_probability (c := 1) hlib (estToy_valid _) hd (y := [3, 3, 5, 5, 8, 8]) rfl (fun _ h => by cases h)
    est_strategy (by norm_num [estWorld, estToy]) zero_le_one (fun w h => by
      obtain ⟨-, rfl⟩ := List.mem_replicate.1 h
      norm_num)
  rw [h1] at h1'
  obtain ⟨-, rfl⟩ := Prod.mk.inj h1'
  obtain ⟨p, hp, hb⟩ := hall String (1 / 1000) 6 estX (by norm_num) estX_good hacc
  have hc : s'.self.classes = [3, 5, 8] := by rw [h3]; decide
  rw [hc] at hp hb
  refine ⟨s', h1, p, hp, fun i hi j hj => le_trans (le_of_eq ?_) (hb i hi j hj).1⟩
  norm_num [estWorld, estToy, estArgs]

/-- The hypotheses hold in multinomial mode with balanced weights between zero and three: `B = 108` and every probability is at least `1 / 651`. -/
example : ∃ s', fitClassifier estLib (estArgs (some true) true) [3, 3, 5, 5, 8, 8] (estWorld _ false true .none 0) = (.ok (), s') ∧
    ∃ p : Nat → Nat → ℝ, s'.self.predictProba estLib (1 / 1000) 6 estX = .ok ((List.range 6).map fun i => (List.range 3).map (p i)) ∧
      ∀ i < 6, ∀ j < 3, 1 / 651 ≤ p i j := by
  have hd := estData_valid (P := List ℝ) (ovr := false) (balanced := true) (cf := .none) (np := 0) (some true) true
  have hlib : LibOK estLib (estArgs (some true) true).nRows := estLib_ok (n := 6) (by norm_num)
  obtain ⟨s', h1, -, h3, -, -, -, -, -, -, -, hacc, -⟩ := fit_class_facts hlib (estToy_valid _) hd (y := [3, 3, 5, 5, 8, 8]) rfl (fun _ h => by cases h)
    est_strategy (by norm_num [estWorld, estToy]) (fun _ => by norm_num [estWorld, estToy]) (fun w h => (realW_pos w h).le)
    (.inl (by norm_num [estWorld, estToy]))
  obtain ⟨s'', h1', hall⟩ := C83_no_zero_probability (c := 3) hlib (estToy_valid _) hd (y := [3, 3, 5, 5, 8, 8]) rfl (fun _ h => by cases h)
    est_strategy (by norm_num [estWorld, estToy]) (by norm_num) (fun w h => ⟨(realW_pos w h).le, by
      simp only [givenWeights, estArgs, estWorld, realW, List.mem_cons, List.not_mem_nil, or_false] at h
      rcases h with rfl | rfl | rfl | rfl | rfl | rfl <;> norm_num⟩)
  rw [h1] at h1'
  obtain ⟨-, rfl⟩ := Prod.mk.inj h1'
  obtain ⟨p, hp, hb⟩ := hall String (1 / 1000) 6 estX (by norm_num) estX_good hacc
  have hc : s'.self.classes = [3, 5, 8] := by rw [h3]; decide
  rw [hc] at hp hb
  refine ⟨s', h1, p, hp, fun i hi j hj => le_trans (le_of_eq ?_) (hb i hi j hj).1⟩
  norm_num [estWorld, estToy, estArgs]

end Verif
