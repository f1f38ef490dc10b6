import Verif.Spec.Float32

/-! float32 arithmetic satisfies the laws of an arithmetic with rounding. -/
namespace Verif

open Spec

theorem F32.of_val (x : F32) : F32.of x.1 = x := Subtype.ext x.2

theorem F32.of_mono {p q : ℚ} (h : p ≤ q) : F32.of p ≤ F32.of q := round32_mono h

theorem F32.of_nat {n : Nat} (h : n ≤ 2 ^ 24) : (F32.of n).1 = n := round32_nat h

theorem F32.zero_val : (F32.of 0).1 = 0 := by
  have := F32.of_nat (n := 0) (by norm_num)
  simpa using this

theorem F32.one_val : (F32.of 1).1 = 1 := by
  have := F32.of_nat (n := 1) (by norm_num)
  simpa using this

/-- The laws hold for float32 numbers, whatever exp and log are. -/
theorem f32With_laws (exp log : F32 → F32) : @FloatLaws F32 _ (f32With exp log) (2 ^ 24) := by
  let _ := f32With exp log
  have hz : ∀ a : F32, (Num.zero : F32) ≤ a ↔ 0 ≤ a.1 := fun a => by
    change (F32.of 0).1 ≤ a.1 ↔ _
    rw [F32.zero_val]
  have hz' : ∀ a : F32, (Num.zero : F32) < a ↔ 0 < a.1 := fun a => by
    change (F32.of 0).1 < a.1 ↔ _
    rw [F32.zero_val]
  exact
  { le := fun _ _ => rfl
    zero_lt_one := by
      change (F32.of 0).1 < (F32.of 1).1
      rw [F32.zero_val, F32.one_val]; exact _root_.zero_lt_one
    zero_add := fun a => by
      change F32.of ((F32.of 0).1 + a.1) = a
      rw [F32.zero_val, _root_.zero_add, F32.of_val]
    add_zero := fun a => by
      change F32.of (a.1 + (F32.of 0).1) = a
      rw [F32.zero_val, _root_.add_zero, F32.of_val]
    add_mono := fun a a' b b' h1 h2 => F32.of_mono (add_le_add h1 h2)
    zero_mul := fun a => by
      change F32.of ((F32.of 0).1 * a.1) = F32.of 0
      rw [F32.zero_val, MulZeroClass.zero_mul]
    one_mul := fun a => by
      change F32.of ((F32.of 1).1 * a.1) = a
      rw [F32.one_val, _root_.one_mul, F32.of_val]
    mul_one := fun a => by
      change F32.of (a.1 * (F32.of 1).1) = a
      rw [F32.one_val, _root_.mul_one, F32.of_val]
    mul_mono := fun a a' b b' h1 h2 h3 h4 => F32.of_mono (mul_le_mul h2 h4 ((hz b).1 h3) (((hz a).1 h1).trans h2))
    zero_div := fun a _ => by
      change F32.of ((F32.of 0).1 / a.1) = F32.of 0
      rw [F32.zero_val, _root_.zero_div]
    div_self := fun a h => by
      change F32.of (a.1 / a.1) = F32.of 1
      rw [_root_.div_self ((hz' a).1 h).ne']
    div_mono := fun a b c hc h => F32.of_mono (div_le_div_of_nonneg_right h ((hz' c).1 hc).le)
    ofNat_zero := by
      change F32.of ((0 : Nat) : ℚ) = F32.of 0
      rw [Nat.cast_zero]
    ofNat_one := by
      change F32.of ((1 : Nat) : ℚ) = F32.of 1
      rw [Nat.cast_one]
    ofNat_mono := fun k l h => F32.of_mono (by exact_mod_cast h)
    ofNat_succ := fun k h => by
      change F32.of ((F32.of k).1 + (F32.of 1).1) = F32.of ((k + 1 : Nat) : ℚ)
      rw [F32.of_nat h.le, F32.one_val]
      push_cast; rfl
    toNat_ofNat := fun k h => by
      change ⌊(F32.of k).1⌋₊ = k
      rw [F32.of_nat h, Nat.floor_natCast] }

theorem f32_laws : FloatLaws F32 (2 ^ 24) := f32With_laws f32Exp f32Log

end Verif
