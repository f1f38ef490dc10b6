import Verif.Proofs.Float32
import Verif.Model.Impurity
import Mathlib.Tactic.Positivity

/-! float32 arithmetic on integers, and the impurity of a node of a regression tree. -/
set_option linter.unusedSectionVars false
namespace Verif

open Spec

theorem round32_int {z : ℤ} (h : |z| ≤ 2 ^ 24) : round32 (z : ℚ) = z := by
  have hn : z.natAbs ≤ 2 ^ 24 := by zify; exact h
  rcases Int.natAbs_eq z with e | e
  · rw [e, Int.cast_natCast, round32_nat hn]
  · rw [e, Int.cast_neg, Int.cast_natCast, round32_neg, round32_nat hn]

theorem F32.of_int {z : ℤ} (h : |z| ≤ 2 ^ 24) : (F32.of z).1 = z := round32_int h

theorem nearest_error (x : ℚ) : |(nearest x : ℚ) - x| ≤ 1 / 2 := by
  have h1 := Int.floor_le x
  have h2 := Int.lt_floor_add_one x
  unfold nearest
  rw [abs_le]
  split_ifs <;> push_cast <;> constructor <;> linarith

/-- The relative error of rounding. -/
theorem round32_error {x : ℚ} (hx : (2 : ℚ) ^ (-126 : ℤ) ≤ x) : |round32 x - x| ≤ x / 2 ^ 24 := by
  have h0 : 0 < x := lt_of_lt_of_le (pow_pos' _) hx
  have hlog : -126 ≤ Int.log 2 x := (Int.zpow_le_iff_le_log (b := 2) (by norm_num) h0).1 (by exact_mod_cast hx)
  have hl : lastDigit x = Int.log 2 x - 23 := by unfold lastDigit; omega
  have hle : (2 : ℚ) ^ Int.log 2 x ≤ x := by exact_mod_cast Int.zpow_log_le_self (b := 2) (by norm_num) h0
  have he : round32 x = nearest (x / 2 ^ lastDigit x) * 2 ^ lastDigit x := by
    unfold round32
    rw [if_pos h0.le]; rfl
  have hp : (0 : ℚ) < 2 ^ lastDigit x := pow_pos' _
  have hd : round32 x - x = (nearest (x / 2 ^ lastDigit x) - x / 2 ^ lastDigit x) * 2 ^ lastDigit x := by
    rw [he, sub_mul, div_mul_cancel₀ _ hp.ne']
  rw [hd, abs_mul, abs_of_pos hp]
  refine (mul_le_mul_of_nonneg_right (nearest_error _) hp.le).trans ?_
  rw [hl, zpow_sub₀ (by norm_num)]
  rw [show ((2 : ℚ) ^ (23 : ℤ)) = 2 ^ 23 by norm_cast]
  rw [show (1 : ℚ) / 2 * (2 ^ Int.log 2 x / 2 ^ 23) = 2 ^ Int.log 2 x / 2 ^ 24 by ring]
  exact div_le_div_of_nonneg_right hle (by positivity)

/-- A float32 number is an integer times the smallest positive one. -/
theorem F32.multiple (x : F32) : ∃ z : ℤ, x.1 = z * 2 ^ (-149 : ℤ) := by
  have hpos : ∀ q : ℚ, 0 ≤ q → ∃ z : ℤ, roundPos q = z * 2 ^ (-149 : ℤ) := by
    intro q hq
    obtain ⟨m, e, -, he, h⟩ := roundPos_form hq
    obtain ⟨k, hk⟩ := Int.le.dest he
    refine ⟨m * 2 ^ k, ?_⟩
    rw [h, ← hk, zpow_add₀ (by norm_num), zpow_natCast]
    push_cast; ring
  rw [← x.2]
  unfold round32
  split
  · rename_i h; exact hpos _ h
  · rename_i h
    obtain ⟨z, hz⟩ := hpos (-x.1) (by linarith)
    exact ⟨-z, by rw [hz]; push_cast; ring⟩

/-- The difference of two different numbers is not rounded to zero. -/
theorem F32.sub_pos {x y : F32} (h : y.1 < x.1) : 0 < (F32.of (x.1 - y.1)).1 := by
  obtain ⟨a, ha⟩ := F32.multiple x
  obtain ⟨b, hb⟩ := F32.multiple y
  have hp : (0 : ℚ) < 2 ^ (-149 : ℤ) := pow_pos' _
  have hab : b + 1 ≤ a := by
    rw [ha, hb] at h
    have : (b : ℚ) < a := lt_of_mul_lt_mul_right h hp.le
    exact_mod_cast this
  have h1 : (2 : ℚ) ^ (-149 : ℤ) ≤ x.1 - y.1 := by
    rw [ha, hb, ← sub_mul]
    have : (1 : ℚ) ≤ a - b := by
      have : ((b + 1 : ℤ) : ℚ) ≤ a := by exact_mod_cast hab
      push_cast at this; linarith
    nlinarith
  have h2 := round32_mono h1
  have h3 := round32_exact (K := ℚ) (m := 1) (e := -149) (by norm_num) (by norm_num)
  rw [Nat.cast_one, one_mul] at h3
  rw [h3] at h2
  exact lt_of_lt_of_le hp h2

theorem round32_tiny : round32 ((2 : ℚ) ^ (-126 : ℤ)) = 2 ^ (-126 : ℤ) := by
  have h3 := round32_exact (K := ℚ) (m := 1) (e := -126) (by norm_num) (by norm_num)
  rwa [Nat.cast_one, one_mul] at h3

/-- The size of a rounded number. -/
theorem round32_abs (x : ℚ) : |round32 x| ≤ |x| * (1 + 1 / 2 ^ 24) ∨ |round32 x| ≤ 2 ^ (-126 : ℤ) := by
  wlog h : 0 ≤ x with H
  · have := H (-x) (by linarith)
    rwa [round32_neg, abs_neg, abs_neg] at this
  have h0 : 0 ≤ round32 x := by
    have := round32_mono h
    rwa [show round32 (0 : ℚ) = 0 by have := round32_nat (K := ℚ) (n := 0) (by norm_num); simpa using this] at this
  rw [abs_of_nonneg h0, abs_of_nonneg h]
  by_cases hx : (2 : ℚ) ^ (-126 : ℤ) ≤ x
  · left
    have := (abs_le.1 (round32_error hx)).2
    linarith
  · right
    have := round32_mono (not_le.1 hx).le
    rwa [round32_tiny] at this

/-- The impurity that `mse_node` computes for integers with a small sum of squares is positive when the labels differ. -/
theorem mse_pos {w s q : F32} {W S Q B : ℤ} (hw : w.1 = W) (hs : s.1 = S) (hq : q.1 = Q) (hB : 1 ≤ B) (hW : 2 ≤ W) (hv : W - 1 ≤ W * Q - S * S)
    (hQ : Q ≤ W * (B * B)) (hb : W * (B * B) ≤ 2 ^ 20) : 0 < (mseNode w s q).1 := by
  change 0 < (F32.of ((F32.of (q.1 / w.1)).1 - (F32.of ((F32.of (s.1 / w.1)).1 * (F32.of (s.1 / w.1)).1)).1)).1
  refine F32.sub_pos ?_
  rw [hw, hs, hq]
  change round32 (round32 ((S : ℚ) / W) * round32 ((S : ℚ) / W)) < round32 ((Q : ℚ) / W)
  obtain ⟨p, hp⟩ : ∃ p : ℚ, p = (Q : ℚ) / W := ⟨_, rfl⟩
  obtain ⟨μ, hμ⟩ : ∃ p : ℚ, p = (S : ℚ) / W := ⟨_, rfl⟩
  rw [← hp, ← hμ]
  have hW' : (2 : ℚ) ≤ W := by exact_mod_cast hW
  have hB' : (1 : ℚ) ≤ B := by exact_mod_cast hB
  have hv' : (W : ℚ) - 1 ≤ W * Q - S * S := by exact_mod_cast hv
  have hQ' : (Q : ℚ) ≤ W * (B * B) := by exact_mod_cast hQ
  have hb' : (W : ℚ) * (B * B) ≤ 2 ^ 20 := by exact_mod_cast hb
  have hW0 : (0 : ℚ) < W := by linarith
  have hBB : (1 : ℚ) ≤ B * B := by nlinarith
  have hpB : p ≤ B * B := by rw [hp, div_le_iff₀ hW0]; linarith
  -- the exact variance
  have hvar : 1 / (2 * W) ≤ p - μ * μ := by
    rw [hp, hμ, show (Q : ℚ) / W - S / W * (S / W) = (W * Q - S * S) / (W * W) by field_simp, div_le_div_iff₀ (by positivity) (by positivity)]
    nlinarith
  have hδ : B * B / 2 ^ 21 ≤ 1 / (2 * (W : ℚ)) := by
    rw [div_le_div_iff₀ (by norm_num) (by positivity)]
    linarith
  have hp21 : 1 / 2 ^ 21 ≤ p := by
    have h1 : 1 / (2 : ℚ) ^ 21 ≤ B * B / 2 ^ 21 := div_le_div_of_nonneg_right hBB (by norm_num)
    nlinarith [mul_self_nonneg μ]
  have htiny : (2 : ℚ) ^ (-126 : ℤ) ≤ 1 / 2 ^ 100 := by
    rw [one_div, ← zpow_natCast, ← zpow_neg]
    exact zpow_le_zpow_right₀ (by norm_num) (by norm_num)
  have hp126 : (2 : ℚ) ^ (-126 : ℤ) ≤ p := htiny.trans (le_trans (by norm_num) hp21)
  have hr1 := (abs_le.1 (round32_error hp126)).1
  have hr1' : 1 / 2 ^ 22 ≤ round32 p := by
    have : p / 2 ^ 24 ≤ p / 2 := div_le_div_of_nonneg_left (by linarith [htiny, pow_pos' (K := ℚ) (-126)]) (by norm_num) (by norm_num)
    have h3 : p / 2 ≤ round32 p := by linarith
    refine le_trans ?_ h3
    have : 1 / (2 : ℚ) ^ 22 = 1 / 2 ^ 21 / 2 := by norm_num
    rw [this]
    exact div_le_div_of_nonneg_right hp21 (by norm_num)
  have hsmall : ∀ x : ℚ, 0 ≤ x → x ≤ 2 ^ (-126 : ℤ) → round32 x < round32 p := by
    intro x h0 hx
    have := round32_mono hx
    rw [round32_tiny] at this
    refine lt_of_le_of_lt (this.trans htiny) (lt_of_lt_of_le (by norm_num) hr1')
  obtain ⟨m, hm⟩ : ∃ m : ℚ, m = round32 μ := ⟨_, rfl⟩
  rw [← hm]
  have hm0 : 0 ≤ m * m := mul_self_nonneg m
  rcases le_total (m * m) ((2 : ℚ) ^ (-126 : ℤ)) with h | h
  · exact hsmall _ hm0 h
  have hm1 : |m| ≤ |μ| * (1 + 1 / 2 ^ 24) := by
    rcases round32_abs μ with h' | h' <;> rw [← hm] at h'
    · exact h'
    · exfalso
      have h1 : m * m ≤ 2 ^ (-126 : ℤ) * 2 ^ (-126 : ℤ) := by
        rw [← abs_mul_abs_self m]
        exact mul_le_mul h' h' (abs_nonneg _) (pow_pos' _).le
      have h2 : (2 : ℚ) ^ (-126 : ℤ) ≤ 2 ^ (-126 : ℤ) * 2 ^ (-126 : ℤ) := h.trans h1
      have h3 := pow_pos' (K := ℚ) (-126)
      have h4 : (2 : ℚ) ^ (-126 : ℤ) < 1 := lt_of_le_of_lt htiny (by norm_num)
      nlinarith
  have hm2 : m * m ≤ μ * μ * ((1 + 1 / 2 ^ 24) * (1 + 1 / 2 ^ 24)) := by
    rw [← abs_mul_abs_self m, ← abs_mul_abs_self μ]
    have := mul_le_mul hm1 hm1 (abs_nonneg m) (by positivity)
    linarith
  have hr2 := (abs_le.1 (round32_error h)).2
  have hμμ : μ * μ ≤ p - B * B / 2 ^ 21 := by linarith
  generalize round32 (m * m) = r2 at *
  generalize round32 p = r1 at *
  generalize m * m = mm at *
  generalize μ * μ = uu at *
  generalize (B : ℚ) * B = bb at *
  norm_num at *
  linarith

/-! ## Integer labels that differ -/

theorem spread_ge {k m : Nat → ℤ} {x : ℤ} : ∀ {l : List Nat}, (∀ i ∈ l, 1 ≤ k i) →
    0 ≤ (l.map fun i => k i * m i * m i).sum - 2 * x * (l.map fun i => k i * m i).sum + x * x * (l.map k).sum ∧
    ((∃ i ∈ l, m i ≠ x) → 1 ≤ (l.map fun i => k i * m i * m i).sum - 2 * x * (l.map fun i => k i * m i).sum + x * x * (l.map k).sum) := by
  intro l
  induction l with
  | nil => intro _; simp
  | cons a l ih =>
    intro hk
    obtain ⟨h1, h2⟩ := ih fun i hi => hk i (by simp [hi])
    have ha := hk a (by simp)
    simp only [List.map_cons, List.sum_cons]
    have hsq : k a * m a * m a + (l.map fun i => k i * m i * m i).sum - 2 * x * (k a * m a + (l.map fun i => k i * m i).sum) + x * x * (k a + (l.map k).sum) =
        k a * ((m a - x) * (m a - x)) + ((l.map fun i => k i * m i * m i).sum - 2 * x * (l.map fun i => k i * m i).sum + x * x * (l.map k).sum) := by ring
    rw [hsq]
    have hn : 0 ≤ k a * ((m a - x) * (m a - x)) := mul_nonneg (by omega) (mul_self_nonneg _)
    refine ⟨by omega, ?_⟩
    rintro ⟨i, hi, hne⟩
    by_cases hx : m a = x
    · rcases List.mem_cons.1 hi with rfl | hi
      · exact absurd hx hne
      · have := h2 ⟨i, hi, hne⟩; omega
    · have : 1 ≤ (m a - x) * (m a - x) := by
        have : 0 < (m a - x) * (m a - x) := mul_self_pos.2 (sub_ne_zero.2 hx)
        omega
      have : 1 ≤ k a * ((m a - x) * (m a - x)) := by nlinarith
      omega

/-- The sums over labels that are not all equal. -/
theorem spread {k m : Nat → ℤ} : ∀ {l : List Nat}, (∀ i ∈ l, 1 ≤ k i) → (∃ i ∈ l, ∃ r ∈ l, m r ≠ m i) →
    2 ≤ (l.map k).sum ∧ (l.map k).sum - 1 ≤ (l.map k).sum * (l.map fun i => k i * m i * m i).sum -
      (l.map fun i => k i * m i).sum * (l.map fun i => k i * m i).sum := by
  intro l
  induction l with
  | nil => rintro - ⟨i, hi, -⟩; cases hi
  | cons a l ih =>
    intro hk hne
    have hk' : ∀ i ∈ l, 1 ≤ k i := fun i hi => hk i (by simp [hi])
    have ha := hk a (by simp)
    have hne' : ∃ i ∈ l, m i ≠ m a := by
      obtain ⟨i, hi, r, hr, h⟩ := hne
      by_contra hc
      push Not at hc
      have hall : ∀ i ∈ a :: l, m i = m a := fun i hi => by
        rcases List.mem_cons.1 hi with rfl | hi
        · rfl
        · exact hc i hi
      exact h ((hall r hr).trans (hall i hi).symm)
    have hsp := (spread_ge (m := m) (x := m a) hk').2 hne'
    simp only [List.map_cons, List.sum_cons]
    have hW : 1 ≤ (l.map k).sum := by
      obtain ⟨i, hi, -⟩ := hne'
      exact (hk' i hi).trans (List.single_le_sum (fun x hx => by
        obtain ⟨r, hr, rfl⟩ := List.mem_map.1 hx
        have := hk' r hr; omega) _ (List.mem_map.2 ⟨i, hi, rfl⟩))
    have hid : (k a + (l.map k).sum) * (k a * m a * m a + (l.map fun i => k i * m i * m i).sum) -
        (k a * m a + (l.map fun i => k i * m i).sum) * (k a * m a + (l.map fun i => k i * m i).sum) =
        ((l.map k).sum * (l.map fun i => k i * m i * m i).sum - (l.map fun i => k i * m i).sum * (l.map fun i => k i * m i).sum) +
        k a * ((l.map fun i => k i * m i * m i).sum - 2 * m a * (l.map fun i => k i * m i).sum + m a * m a * (l.map k).sum) := by ring
    rw [hid]
    refine ⟨by omega, ?_⟩
    by_cases hl : ∃ i ∈ l, ∃ r ∈ l, m r ≠ m i
    · obtain ⟨h1, h2⟩ := ih hk' hl
      nlinarith
    · push Not at hl
      obtain ⟨i, hi, hia⟩ := hne'
      have hall : ∀ r ∈ l, m r = m i := fun r hr => hl i hi r hr
      have e1 : (l.map fun i => k i * m i).sum = (l.map k).sum * m i := by
        rw [← List.sum_map_mul_right]
        exact congrArg _ (List.map_congr_left fun r hr => by rw [hall r hr])
      have e2 : (l.map fun i => k i * m i * m i).sum = (l.map k).sum * (m i * m i) := by
        rw [← List.sum_map_mul_right]
        exact congrArg _ (List.map_congr_left fun r hr => by rw [hall r hr]; ring)
      rw [e1, e2]
      have h1 : 1 ≤ (m i - m a) * (m i - m a) := by
        have : 0 < (m i - m a) * (m i - m a) := mul_self_pos.2 (sub_ne_zero.2 hia)
        omega
      have h2 : (l.map k).sum * (m i * m i) - 2 * m a * ((l.map k).sum * m i) + m a * m a * (l.map k).sum =
          (l.map k).sum * ((m i - m a) * (m i - m a)) := by ring
      rw [h2]
      have h3 : (l.map k).sum ≤ (l.map k).sum * ((m i - m a) * (m i - m a)) := by nlinarith
      nlinarith

end Verif
