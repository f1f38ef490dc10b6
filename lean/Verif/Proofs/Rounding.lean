import Verif.Spec.Rounding

/-! Rounding to float32. -/
set_option linter.unusedSectionVars false
namespace Verif

open Spec

section
variable {K : Type} [LinearOrder K] [Field K] [IsStrictOrderedRing K] [FloorRing K]

theorem nearest_bounds (x : K) : ⌊x⌋ ≤ nearest x ∧ nearest x ≤ ⌊x⌋ + 1 := by
  unfold nearest
  split_ifs <;> constructor <;> omega

theorem nearest_int (m : Int) : nearest (m : K) = m := by
  unfold nearest
  rw [if_pos (by simp), Int.floor_intCast]

theorem nearest_mono {x y : K} (h : x ≤ y) : nearest x ≤ nearest y := by
  rcases (Int.floor_mono h).eq_or_lt with e | e
  · have hd : x - ⌊x⌋ ≤ y - ⌊y⌋ := by rw [e]; linarith
    unfold nearest
    rw [← e] at hd ⊢
    split_ifs <;> first | omega | (exfalso; linarith)
  · have h1 := (nearest_bounds x).2
    have h2 := (nearest_bounds y).1
    omega

theorem pow_pos' (e : Int) : (0 : K) < 2 ^ e := zpow_pos two_pos e

theorem lastDigit_mono {x y : K} (hx : 0 < x) (h : x ≤ y) : lastDigit x ≤ lastDigit y := by
  unfold lastDigit
  have := Int.log_mono_right (b := 2) hx h
  omega

theorem cast_pow (K : Type) [Field K] [CharZero K] (e : Int) : (((2 : ℚ) ^ e : ℚ) : K) = 2 ^ e := by
  push_cast; rfl

/-- The value of `roundPos` in the field of its argument. -/
theorem roundPos_cast (x : K) : ((roundPos x : ℚ) : K) = nearest (x / 2 ^ lastDigit x) * 2 ^ lastDigit x := by
  unfold roundPos
  push_cast
  rfl

theorem roundPos_zero : roundPos (0 : K) = 0 := by
  unfold roundPos
  have : nearest ((0 : K) / 2 ^ lastDigit (0 : K)) = 0 := by
    rw [zero_div]
    have := nearest_int (K := K) 0
    rwa [Int.cast_zero] at this
  rw [this]; simp

/-- Numbers with 24 digits are not changed. -/
theorem roundPos_exact {m : Nat} {e : Int} (hm : m ≤ 2 ^ 24) (he : -149 ≤ e) : roundPos ((m : K) * 2 ^ e) = m * 2 ^ e := by
  rcases Nat.eq_zero_or_pos m with h0 | h0
  · subst h0; simp [roundPos_zero]
  have hx : (0 : K) < m * 2 ^ e := mul_pos (by exact_mod_cast h0) (pow_pos' e)
  -- the quotient is an integer
  obtain ⟨z, hz⟩ : ∃ z : Int, (m : ℚ) * 2 ^ e = z * 2 ^ lastDigit ((m : K) * 2 ^ e) := by
    rcases hm.eq_or_lt with h1 | h1
    · have hlog : Int.log 2 ((m : K) * 2 ^ e) = e + 24 := by
        have : (m : K) * 2 ^ e = ((2 : Nat) : K) ^ (e + 24) := by
          rw [h1, zpow_add₀ (by norm_num)]; push_cast; rw [mul_comm]; norm_num
        rw [this, Int.log_zpow (by norm_num)]
      have hl : lastDigit ((m : K) * 2 ^ e) = e + 1 := by unfold lastDigit; rw [hlog]; omega
      refine ⟨2 ^ 23, ?_⟩
      rw [hl, h1, zpow_add₀ (by norm_num)]
      push_cast; ring
    · have hlt : (m : K) * 2 ^ e < ((2 : Nat) : K) ^ (e + 24) := by
        rw [zpow_add₀ (by norm_num), mul_comm]
        push_cast
        have : (m : K) < 2 ^ 24 := by exact_mod_cast h1
        have hp := pow_pos' (K := K) e
        have h24 : (2 : K) ^ (24 : Int) = 2 ^ 24 := by norm_cast
        rw [h24]
        exact mul_lt_mul_of_pos_left this hp
      have hlog := (Int.lt_zpow_iff_log_lt (b := 2) (by norm_num) hx).1 hlt
      have hl : lastDigit ((m : K) * 2 ^ e) ≤ e := by unfold lastDigit; omega
      generalize lastDigit ((m : K) * 2 ^ e) = l at hl
      obtain ⟨k, hk⟩ := Int.le.dest hl
      refine ⟨m * 2 ^ k, ?_⟩
      rw [← hk, zpow_add₀ (by norm_num)]
      push_cast
      rw [zpow_natCast]; ring
  have hz' : (m : K) * 2 ^ e = z * 2 ^ lastDigit ((m : K) * 2 ^ e) := by
    have := congrArg (fun q : ℚ => (q : K)) hz
    push_cast at this
    exact this
  unfold roundPos
  rw [hz]
  congr 2
  have : (m : K) * 2 ^ e / 2 ^ lastDigit ((m : K) * 2 ^ e) = (z : K) := by
    rw [div_eq_iff (pow_pos' _).ne']; exact hz'
  rw [this, nearest_int]

theorem nearest_nonneg {x : K} (h : 0 ≤ x) : 0 ≤ nearest x := (Int.floor_nonneg.2 h).trans (nearest_bounds x).1

theorem roundPos_nonneg {x : K} (h : 0 ≤ x) : 0 ≤ roundPos x := by
  unfold roundPos
  have := nearest_nonneg (div_nonneg h (pow_pos' (K := K) (lastDigit x)).le)
  have h2 : (0 : ℚ) ≤ nearest (x / 2 ^ lastDigit x) := by exact_mod_cast this
  positivity

/-- The rounded number has 24 digits. -/
theorem roundPos_form {x : K} (h : 0 ≤ x) : ∃ (m : Nat) (e : Int), m ≤ 2 ^ 24 ∧ -149 ≤ e ∧ roundPos x = m * 2 ^ e := by
  rcases h.eq_or_lt with h0 | h0
  · exact ⟨0, 0, by norm_num, by norm_num, by rw [← h0, roundPos_zero]; simp⟩
  have hn := nearest_nonneg (div_nonneg h (pow_pos' (K := K) (lastDigit x)).le)
  refine ⟨(nearest (x / 2 ^ lastDigit x)).toNat, lastDigit x, ?_, by unfold lastDigit; omega, ?_⟩
  · have hx : x < ((2 : Nat) : K) ^ (lastDigit x + 24) :=
      (Int.lt_zpow_iff_log_lt (b := 2) (by norm_num) h0).2 (by unfold lastDigit; omega)
    have h1 : x / 2 ^ lastDigit x ≤ ((2 ^ 24 : Int) : K) := by
      rw [div_le_iff₀ (pow_pos' _)]
      refine hx.le.trans (le_of_eq ?_)
      rw [zpow_add₀ (by norm_num)]
      push_cast
      rw [mul_comm]
      norm_cast
    have := nearest_mono h1
    rw [nearest_int] at this
    omega
  · unfold roundPos
    congr 1
    have : ((nearest (x / 2 ^ lastDigit x)).toNat : Int) = nearest (x / 2 ^ lastDigit x) := Int.toNat_of_nonneg hn
    exact_mod_cast congrArg (fun z : Int => (z : ℚ)) this.symm

theorem roundPos_mono {x y : K} (hx : 0 ≤ x) (h : x ≤ y) : roundPos x ≤ roundPos y := by
  rcases hx.eq_or_lt with h0 | h0
  · rw [← h0, roundPos_zero]; exact roundPos_nonneg (h0.trans_le h)
  rcases (lastDigit_mono h0 h).eq_or_lt with he | he
  · unfold roundPos
    rw [← he]
    have := nearest_mono (div_le_div_of_nonneg_right h (pow_pos' (K := K) (lastDigit x)).le)
    have h2 : (nearest (x / 2 ^ lastDigit x) : ℚ) ≤ nearest (y / 2 ^ lastDigit x) := by exact_mod_cast this
    exact mul_le_mul_of_nonneg_right h2 (pow_pos' _).le
  · -- `2 ^ (lastDigit y + 23)` lies between the numbers
    have hy0 : 0 < y := h0.trans_le h
    have e1 : Int.log 2 y = lastDigit y + 23 := by unfold lastDigit at *; omega
    have e2 : Int.log 2 x < lastDigit y + 23 := by unfold lastDigit at *; omega
    have b1 : x ≤ ((2 : Nat) : K) ^ (lastDigit y + 23) := ((Int.lt_zpow_iff_log_lt (b := 2) (by norm_num) h0).2 e2).le
    have b2 : ((2 : Nat) : K) ^ (lastDigit y + 23) ≤ y := (Int.zpow_le_iff_le_log (b := 2) (by norm_num) hy0).2 e1.ge
    push_cast at b1 b2
    have c1 : roundPos x ≤ (2 : ℚ) ^ (lastDigit y + 23) := by
      obtain ⟨k, hk⟩ := Int.le.dest (show lastDigit x ≤ lastDigit y + 23 by omega)
      unfold roundPos
      rw [← hk, zpow_add₀ (by norm_num), mul_comm (2 ^ lastDigit x)]
      refine mul_le_mul_of_nonneg_right ?_ (pow_pos' _).le
      have : x / 2 ^ lastDigit x ≤ ((2 ^ k : Int) : K) := by
        rw [div_le_iff₀ (pow_pos' _)]
        refine b1.trans (le_of_eq ?_)
        rw [← hk, zpow_add₀ (by norm_num), mul_comm, zpow_natCast]
        push_cast; rfl
      have := nearest_mono this
      rw [nearest_int] at this
      rw [zpow_natCast]
      exact_mod_cast this
    have c2 : (2 : ℚ) ^ (lastDigit y + 23) ≤ roundPos y := by
      unfold roundPos
      rw [zpow_add₀ (by norm_num), mul_comm]
      refine mul_le_mul_of_nonneg_right ?_ (pow_pos' _).le
      have : ((2 ^ 23 : Int) : K) ≤ y / 2 ^ lastDigit y := by
        rw [le_div_iff₀ (pow_pos' _)]
        refine le_trans (le_of_eq ?_) b2
        rw [zpow_add₀ (by norm_num), mul_comm]
        push_cast; norm_cast
      have := nearest_mono this
      rw [nearest_int] at this
      have h2 : ((2 ^ 23 : Int) : ℚ) ≤ nearest (y / 2 ^ lastDigit y) := by exact_mod_cast this
      refine le_trans (le_of_eq ?_) h2
      norm_cast
    exact c1.trans c2

theorem round32_mono {x y : K} (h : x ≤ y) : round32 x ≤ round32 y := by
  unfold round32
  split_ifs with h1 h2 h2
  · exact roundPos_mono h1 h
  · exact absurd (h1.trans h) h2
  · have := roundPos_nonneg (x := -x) (by linarith)
    have := roundPos_nonneg h2
    linarith
  · have := roundPos_mono (x := -y) (y := -x) (by linarith) (by linarith)
    linarith

theorem round32_exact {m : Nat} {e : Int} (hm : m ≤ 2 ^ 24) (he : -149 ≤ e) : round32 ((m : K) * 2 ^ e) = m * 2 ^ e := by
  unfold round32
  rw [if_pos (mul_nonneg (Nat.cast_nonneg _) (pow_pos' e).le), roundPos_exact hm he]

theorem round32_neg (x : K) : round32 (-x) = -round32 x := by
  unfold round32
  rcases lt_trichotomy x 0 with h | h | h
  · rw [if_pos (by linarith), if_neg (by linarith), neg_neg]
  · subst h; simp [roundPos_zero]
  · rw [if_neg (by linarith), if_pos h.le, neg_neg]

theorem round32_idem (x : K) : round32 (round32 x : ℚ) = round32 x := by
  have hpos : ∀ x : K, 0 ≤ x → round32 (roundPos x) = roundPos x := by
    intro x hx
    obtain ⟨m, e, h1, h2, h3⟩ := roundPos_form hx
    rw [h3]; exact round32_exact h1 h2
  by_cases h : 0 ≤ x
  · rw [show round32 x = roundPos x from if_pos h]; exact hpos x h
  · rw [show round32 x = -roundPos (-x) from if_neg h, round32_neg, hpos _ (by linarith)]

theorem round32_nat {n : Nat} (h : n ≤ 2 ^ 24) : round32 (n : K) = n := by
  have := round32_exact (K := K) (e := 0) h (by norm_num)
  simpa using this

end

end Verif
