import Mathlib.Analysis.Complex.ExponentialBounds
import Verif.Proofs.Float32

/-! Values of exp and log in float32. -/
namespace Verif

open Spec

theorem lastDigit_cast (q : ℚ) : lastDigit (q : ℝ) = lastDigit q := by
  unfold lastDigit
  have : Int.log 2 (q : ℝ) = Int.log 2 q := by
    unfold Int.log
    have h1 : (1 : ℝ) ≤ (q : ℝ) ↔ 1 ≤ q := by exact_mod_cast Iff.rfl
    have hf : ∀ r : ℚ, ⌊(r : ℝ)⌋₊ = ⌊r⌋₊ := fun r => by rw [← Int.floor_toNat, ← Int.floor_toNat, Rat.floor_cast]
    have hc : ∀ r : ℚ, ⌈(r : ℝ)⌉₊ = ⌈r⌉₊ := fun r => by rw [← Int.ceil_toNat, ← Int.ceil_toNat, Rat.ceil_cast]
    by_cases h : 1 ≤ q
    · rw [if_pos h, if_pos (h1.2 h), hf]
    · rw [if_neg h, if_neg (fun h' => h (h1.1 h')), ← Rat.cast_inv, hc]
  rw [this]

theorem nearest_cast (q : ℚ) : nearest (q : ℝ) = nearest q := by
  unfold nearest
  rw [Rat.floor_cast]
  have h1 : ((q : ℝ) - (⌊q⌋ : ℤ) < 1 / 2) = (q - ⌊q⌋ < 1 / 2) := by
    rw [eq_iff_iff]
    have : (q : ℝ) - (⌊q⌋ : ℤ) = ((q - ⌊q⌋ : ℚ) : ℝ) := by push_cast; rfl
    rw [this, show (1 / 2 : ℝ) = ((1 / 2 : ℚ) : ℝ) by push_cast; rfl, Rat.cast_lt]
  have h2 : (1 / 2 < (q : ℝ) - (⌊q⌋ : ℤ)) = (1 / 2 < q - ⌊q⌋) := by
    rw [eq_iff_iff]
    have : (q : ℝ) - (⌊q⌋ : ℤ) = ((q - ⌊q⌋ : ℚ) : ℝ) := by push_cast; rfl
    rw [this, show (1 / 2 : ℝ) = ((1 / 2 : ℚ) : ℝ) by push_cast; rfl, Rat.cast_lt]
  simp only [h1, h2]

/-- Rounding does not depend on where a rational number is taken. -/
theorem round32_cast (q : ℚ) : round32 (q : ℝ) = round32 q := by
  have hp : ∀ q : ℚ, roundPos (q : ℝ) = roundPos q := by
    intro q
    unfold roundPos
    rw [lastDigit_cast]
    have : (q : ℝ) / 2 ^ lastDigit q = ((q / 2 ^ lastDigit q : ℚ) : ℝ) := by push_cast; rfl
    rw [this, nearest_cast]
  unfold round32
  have h0 : (0 : ℝ) ≤ (q : ℝ) ↔ 0 ≤ q := by exact_mod_cast Iff.rfl
  by_cases h : 0 ≤ q
  · rw [if_pos h, if_pos (h0.2 h), hp]
  · rw [if_neg h, if_neg (fun h' => h (h0.1 h')), ← Rat.cast_neg, hp]

/-- A number between two numbers that are rounded in the same way. -/
theorem round32_between {x : ℝ} {lo hi : ℚ} (h1 : (lo : ℝ) ≤ x) (h2 : x ≤ (hi : ℝ)) (h : round32 lo = round32 hi) : round32 x = round32 lo := by
  have a := round32_mono h1
  have b := round32_mono h2
  rw [round32_cast] at a b
  exact le_antisymm (b.trans h.ge) a

/-- The logarithm of a power of two. -/
theorem f32Log_pow {n : Nat} {x : F32} (hx : x.1 = 1 / 2 ^ n) (h : round32 (-(n * (6931471808 / 10000000000)) : ℚ) = round32 (-(n * (6931471803 / 10000000000)) : ℚ)) :
    f32Log x = F32.of (-(n * (6931471808 / 10000000000))) := by
  refine Subtype.ext ?_
  change round32 (Real.log ((x.1 : ℚ) : ℝ)) = round32 (_ : ℚ)
  have hl : Real.log ((x.1 : ℚ) : ℝ) = -(n * Real.log 2) := by
    rw [hx]; push_cast
    rw [one_div, Real.log_inv, Real.log_pow]
  rw [hl]
  refine round32_between ?_ ?_ h
  · push_cast
    have := Real.log_two_lt_d9
    have h0 : (0 : ℝ) ≤ n := Nat.cast_nonneg n
    have : (n : ℝ) * Real.log 2 ≤ n * (6931471808 / 10000000000) := mul_le_mul_of_nonneg_left (by linarith) h0
    linarith
  · push_cast
    have := Real.log_two_gt_d9
    have h0 : (0 : ℝ) ≤ n := Nat.cast_nonneg n
    have : (n : ℝ) * (6931471803 / 10000000000) ≤ n * Real.log 2 := mul_le_mul_of_nonneg_left (by linarith) h0
    linarith

theorem f32Exp_one {x : F32} (hx : x.1 = 1) : f32Exp x = F32.of (27182818283 / 10000000000) := by
  refine Subtype.ext ?_
  change round32 (Real.exp ((x.1 : ℚ) : ℝ)) = round32 (_ : ℚ)
  rw [hx, Rat.cast_one]
  refine round32_between (hi := 27182818286 / 10000000000) ?_ ?_ (by decide +kernel)
  · have := Real.exp_one_gt_d9; push_cast; linarith
  · have := Real.exp_one_lt_d9; push_cast; linarith

/-- exp of a very negative number is zero. -/
theorem f32Exp_neg {x : F32} (hx : x.1 ≤ -151) : f32Exp x = F32.of 0 := by
  refine Subtype.ext ?_
  change round32 (Real.exp ((x.1 : ℚ) : ℝ)) = round32 (0 : ℚ)
  refine round32_between (hi := 1 / 2 ^ 151) ?_ ?_ (by decide +kernel)
  · rw [Rat.cast_zero]; exact (Real.exp_pos _).le
  · have h1 : ((x.1 : ℚ) : ℝ) ≤ -151 := by exact_mod_cast hx
    have h2 : Real.exp (-151) ≤ 1 / 2 ^ 151 := by
      rw [Real.exp_neg, one_div, show (151 : ℝ) = (151 : ℕ) * 1 by norm_num, Real.exp_nat_mul]
      refine inv_anti₀ (by positivity) ?_
      exact pow_le_pow_left₀ (by norm_num) (by have := Real.exp_one_gt_d9; linarith) 151
    push_cast
    exact (Real.exp_le_exp.2 h1).trans h2

/-- exp, with a table of some values. -/
noncomputable def tableExp (x : F32) : F32 :=
  if x.1 = 1 then F32.of (27182818283 / 10000000000) else if x.1 ≤ -151 then F32.of 0 else f32Exp x

/-- log, with a table of some values. -/
noncomputable def tableLog (x : F32) : F32 :=
  if x.1 = 1 / 2 then F32.of (-(6931471808 / 10000000000)) else if x.1 = 1 / 2 ^ 8 then F32.of (-(8 * (6931471808 / 10000000000)))
  else if x.1 = 1 / 2 ^ 15 then F32.of (-(15 * (6931471808 / 10000000000))) else f32Log x

theorem tableExp_eq : tableExp = f32Exp := by
  funext x
  unfold tableExp
  split
  · rename_i h; rw [f32Exp_one h]
  · split
    · rename_i h; rw [f32Exp_neg h]
    · rfl

theorem tableLog_eq : tableLog = f32Log := by
  funext x
  unfold tableLog
  split
  · rename_i h
    rw [f32Log_pow (n := 1) (by rw [h, pow_one]) (by decide +kernel), Nat.cast_one, one_mul]
  · split
    · rename_i h; rw [f32Log_pow (n := 8) h (by decide +kernel)]; rfl
    · split
      · rename_i h; rw [f32Log_pow (n := 15) h (by decide +kernel)]; rfl
      · rfl

end Verif
