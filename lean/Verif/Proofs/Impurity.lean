import Mathlib.Analysis.Convex.SpecificFunctions.Basic
import Mathlib.Analysis.SpecialFunctions.Log.NegMulLog
import Mathlib.Tactic.NormNum
import Verif.Proofs.RealFind

set_option linter.unusedSectionVars false

/-! Impurities and information gain over the real numbers. -/
namespace Verif

open Spec

theorem sq_div_add_le {a b A B : ℝ} (hA : 0 < A) (hB : 0 < B) : (a + b) ^ 2 / (A + B) ≤ a ^ 2 / A + b ^ 2 / B := by
  have : a ^ 2 / A + b ^ 2 / B - (a + b) ^ 2 / (A + B) = (a * B - b * A) ^ 2 / (A * B * (A + B)) := by
    field_simp
    ring
  have h2 : 0 ≤ (a * B - b * A) ^ 2 / (A * B * (A + B)) := by positivity
  linarith

/-- Weighted gini impurity decreases. -/
theorem gini_gain {n : Nat} {v u : Nat → ℝ} {A B : ℝ} (hA : 0 < A) (hB : 0 < B) :
    A * classImp n .gini A v + B * classImp n .gini B u ≤ (A + B) * classImp n .gini (A + B) (fun k => v k + u k) := by
  simp only [classImp]
  have h1 : A * (1 - (∑ k ∈ Finset.range n, v k * v k) / (A * A)) = A - ∑ k ∈ Finset.range n, v k ^ 2 / A := by
    rw [← Finset.sum_div]
    simp only [pow_two]
    field_simp
  have h2 : B * (1 - (∑ k ∈ Finset.range n, u k * u k) / (B * B)) = B - ∑ k ∈ Finset.range n, u k ^ 2 / B := by
    rw [← Finset.sum_div]
    simp only [pow_two]
    field_simp
  have h3 : (A + B) * (1 - (∑ k ∈ Finset.range n, (v k + u k) * (v k + u k)) / ((A + B) * (A + B))) =
      (A + B) - ∑ k ∈ Finset.range n, (v k + u k) ^ 2 / (A + B) := by
    rw [← Finset.sum_div]
    simp only [pow_two]
    field_simp
  rw [h1, h2, h3]
  have : ∑ k ∈ Finset.range n, (v k + u k) ^ 2 / (A + B) ≤
      ∑ k ∈ Finset.range n, v k ^ 2 / A + ∑ k ∈ Finset.range n, u k ^ 2 / B := by
    rw [← Finset.sum_add_distrib]
    exact Finset.sum_le_sum fun k _ => sq_div_add_le hA hB
  linarith

theorem entropy_term {v w : ℝ} (hv : 0 ≤ v) :
    (if 0 < v then -(v / w * Real.log (v / w)) else 0) = Real.negMulLog (v / w) := by
  by_cases h : 0 < v
  · rw [if_pos h, Real.negMulLog, neg_mul]
  · rw [if_neg h, le_antisymm (not_lt.1 h) hv]; simp

/-- Weighted entropy decreases. -/
theorem entropy_gain {n : Nat} {v u : Nat → ℝ} {A B : ℝ} (hA : 0 < A) (hB : 0 < B) (hv : ∀ k, 0 ≤ v k)
    (hu : ∀ k, 0 ≤ u k) :
    A * classImp n .entropy A v + B * classImp n .entropy B u ≤ (A + B) * classImp n .entropy (A + B) (fun k => v k + u k) := by
  simp only [classImp]
  simp only [Finset.mul_sum, entropy_term (hv _), entropy_term (hu _), entropy_term (add_nonneg (hv _) (hu _))]
  rw [← Finset.sum_add_distrib]
  apply Finset.sum_le_sum
  intro k _
  have hc := Real.concaveOn_negMulLog.2 (show v k / A ∈ Set.Ici (0 : ℝ) from div_nonneg (hv k) hA.le)
    (show u k / B ∈ Set.Ici (0 : ℝ) from div_nonneg (hu k) hB.le) (show 0 ≤ A / (A + B) by positivity)
    (show 0 ≤ B / (A + B) by positivity) (show A / (A + B) + B / (A + B) = 1 by field_simp)
  simp only [smul_eq_mul] at hc
  have e : A / (A + B) * (v k / A) + B / (A + B) * (u k / B) = (v k + u k) / (A + B) := by field_simp
  rw [e] at hc
  have h4 := mul_le_mul_of_nonneg_left hc (by positivity : 0 ≤ A + B)
  have e2 : (A + B) * (A / (A + B) * Real.negMulLog (v k / A) + B / (A + B) * Real.negMulLog (u k / B)) =
      A * Real.negMulLog (v k / A) + B * Real.negMulLog (u k / B) := by field_simp
  linarith

theorem gini_nonneg {n : Nat} {v : Nat → ℝ} {w : ℝ} (hv : ∀ k, 0 ≤ v k) (hs : ∑ k ∈ Finset.range n, v k = w) (hw : 0 < w) :
    0 ≤ classImp n .gini w v := by
  simp only [classImp]
  have : ∑ k ∈ Finset.range n, v k * v k ≤ w * w := by
    rw [← hs, Finset.sum_mul]
    apply Finset.sum_le_sum
    intro k hk
    exact mul_le_mul_of_nonneg_left (Finset.single_le_sum (fun k _ => hv k) hk) (hv k)
  have : (∑ k ∈ Finset.range n, v k * v k) / (w * w) ≤ 1 := by
    rw [div_le_one (by positivity)]; exact this
  linarith

theorem entropy_nonneg {n : Nat} {v : Nat → ℝ} {w : ℝ} (hv : ∀ k, 0 ≤ v k) (hs : ∑ k ∈ Finset.range n, v k = w) (hw : 0 < w) :
    0 ≤ classImp n .entropy w v := by
  simp only [classImp, entropy_term (hv _)]
  apply Finset.sum_nonneg
  intro k hk
  apply Real.negMulLog_nonneg (div_nonneg (hv k) hw.le)
  rw [div_le_one hw, ← hs]
  exact Finset.single_le_sum (fun k _ => hv k) hk

/-- A pure node has impurity zero. -/
theorem pure_zero {n : Nat} (cr : Criterion) {v : Nat → ℝ} {w : ℝ} {k : Nat} (hk : k < n) (hvk : v k = w) (hw : 0 < w)
    (hv : ∀ l, l < n → l ≠ k → v l = 0) : classImp n cr w v = 0 := by
  cases cr with
  | gini =>
    simp only [classImp]
    rw [Finset.sum_eq_single k (fun l hl hlk => by rw [hv l (by simpa using hl) hlk]; simp) (fun h => absurd (by simpa using hk) h),
      hvk]
    field_simp
    simp
  | entropy =>
    simp only [classImp]
    rw [Finset.sum_eq_single k (fun l hl hlk => by rw [hv l (by simpa using hl) hlk]; simp) (fun h => absurd (by simpa using hk) h),
      hvk, div_self hw.ne']
    simp

/-- Weighted variance as a function of the sums decreases. -/
theorem mse_gain {A B s t p q : ℝ} (hA : 0 < A) (hB : 0 < B) :
    A * mseNode A s p + B * mseNode B t q ≤ (A + B) * mseNode (A + B) (s + t) (p + q) := by
  simp only [mseNode, Num.sub, Num.div, Num.mul]
  have h := sq_div_add_le (a := s) (b := t) hA hB
  have e1 : A * (p / A - s / A * (s / A)) = p - s ^ 2 / A := by field_simp
  have e2 : B * (q / B - t / B * (t / B)) = q - t ^ 2 / B := by field_simp
  have e3 : (A + B) * ((p + q) / (A + B) - (s + t) / (A + B) * ((s + t) / (A + B))) = (p + q) - (s + t) ^ 2 / (A + B) := by
    field_simp
  rw [e1, e2, e3]
  linarith

theorem variance_nonneg {D : Data ℝ} {l : List Nat} (hw : ∀ i ∈ l, 0 ≤ D.w i) : 0 ≤ variance D l := by
  apply div_nonneg
  · apply List.sum_nonneg
    intro x hx
    obtain ⟨i, hi, rfl⟩ := List.mem_map.1 hx
    exact mul_nonneg (hw i hi) (sq_nonneg _)
  · exact totalW_nonneg hw

/-- Information gain from the decrease of the weighted impurity. -/
theorem informationGain_nonneg {w iP iL iR A B : ℝ} (hw : 0 < w) (hA : 0 < A) (hB : 0 < B)
    (h : A * iL + B * iR ≤ (A + B) * iP) : 0 ≤ informationGain w iP iL iR (A + B) A B := by
  simp only [informationGain, Num.sub, Num.mul, Num.div]
  have e : (A + B) / w * (iP - B / (A + B) * iR - A / (A + B) * iL) = ((A + B) * iP - (A * iL + B * iR)) / w := by
    field_simp
    ring
  rw [e]
  apply div_nonneg _ hw.le
  linarith

end Verif
