import Verif.Proofs.BinPlace
import Verif.Props.Binning

/-! # C04: where the thresholds lie -/
namespace Verif

open Spec

section
variable {K : Type} [LinearOrder K] [Field K] [IsStrictOrderedRing K]

/-- C04. With at most `max_bins` distinct values, threshold number `i` is half way between the distinct values of rank `i` and `i + 1`. -/
theorem C04_half_way {cap : K} {col : List (Option K)} {m : Nat} {thr : List K} (hm : 1 ≤ m) (h : findBinningThresholds cap col m = .ok thr)
    (hd : nDistinct col ≤ m) {i : Nat} {t : K} (ht : thr[i]? = some t) :
    ∃ a b, some a ∈ col ∧ some b ∈ col ∧ rank col a = i ∧ rank col b = i + 1 ∧ t = min ((a + b) / 2) cap := thresholds_few hm h hd ht

omit [IsStrictOrderedRing K] in
/-- C04. With more distinct values, threshold number `i` is the quantile of level `q = (i + 1) / max_bins` (midpoint method): half way between the values
at the places `⌊(n - 1) q⌋` and `⌈(n - 1) q⌉` in increasing order of all values of the column. -/
theorem C04_quantiles {cap : K} {col : List (Option K)} {m : Nat} {thr : List K} (hm : 1 ≤ m) (h : findBinningThresholds cap col m = .ok thr)
    (hd : m < nDistinct col) {i : Nat} {t : K} (ht : thr[i]? = some t) :
    ∃ lo hi a b, OrderStat (col.filterMap id) lo a ∧ OrderStat (col.filterMap id) hi b ∧
      lo * m ≤ ((col.filterMap id).length - 1) * (i + 1) ∧ ((col.filterMap id).length - 1) * (i + 1) < (lo + 1) * m ∧
      ((col.filterMap id).length - 1) * (i + 1) ≤ hi * m ∧ hi * m < ((col.filterMap id).length - 1) * (i + 1) + m ∧
      t = min ((a + b) / 2) cap := thresholds_many hm h hd ht

/-- C04. Therefore the thresholds balance the bins: about `(n - 1) (i + 1) / max_bins` values lie below threshold number `i`, up to one value and up
to the values equal to the threshold. -/
theorem C04_balanced {cap : K} {col : List (Option K)} {m : Nat} {thr : List K} (hm : 1 ≤ m) (h : findBinningThresholds cap col m = .ok thr)
    (hd : m < nDistinct col) (hcap : ∀ x, some x ∈ col → x ≤ cap) {i : Nat} {t : K} (ht : thr[i]? = some t) :
    ((col.filterMap id).length - 1) * (i + 1) < m * (col.filterMap id).countP (fun x => decide (x ≤ t)) ∧
      m * (col.filterMap id).countP (fun x => decide (x < t)) < ((col.filterMap id).length - 1) * (i + 1) + m := by
  obtain ⟨lo, hi, a, b, h1, h2, h3, h4, h5, h6, h7⟩ := C04_quantiles hm h hd ht
  have hab : a ≤ b := OrderStat.mono h1 h2 (by
    by_contra hc
    push Not at hc
    have : (hi + 1) * m ≤ lo * m := Nat.mul_le_mul_right m hc
    rw [Nat.add_mul, Nat.one_mul] at this
    omega)
  have hb : b ≤ cap := hcap b (by have := h2.1; simpa using this)
  have hmid : (a + b) / 2 ≤ b := by linarith
  have hmid' : a ≤ (a + b) / 2 := by linarith
  rw [min_eq_left (hmid.trans hb)] at h7
  constructor
  · refine lt_of_lt_of_le h4 ?_
    rw [Nat.mul_comm]
    refine Nat.mul_le_mul_left m (Nat.le_trans h1.2.2 (List.countP_mono_left fun x _ hx => ?_))
    simp only [decide_eq_true_eq] at hx ⊢
    rw [h7]; exact hx.trans hmid'
  · refine lt_of_le_of_lt ?_ h6
    rw [Nat.mul_comm]
    refine Nat.mul_le_mul_right m (Nat.le_trans (List.countP_mono_left fun x _ hx => ?_) h2.2.1)
    simp only [decide_eq_true_eq] at hx ⊢
    rw [h7] at hx; exact lt_of_lt_of_le hx hmid

end

/-- Two bins for the values 1, 4, 6, 20 (and a missing one): more distinct values than bins, the threshold is half way between 4 and 6. -/
example : ∃ thr, findBinningThresholds (1000 : ℚ) [some 6, none, some 1, some 20, some 4] 2 = .ok thr ∧ thr = [5] ∧
    2 < nDistinct ([some 6, none, some 1, some 20, some 4] : List (Option ℚ)) := by
  obtain ⟨thr, h1, h2, h3, h4, -⟩ := findBinningThresholds_spec (K := ℚ) 1000 [some 6, none, some 1, some 20, some 4] 2 (by norm_num)
  have hd : 2 < nDistinct ([some 6, none, some 1, some 20, some 4] : List (Option ℚ)) := by decide
  have hl : thr.length = 1 := by rw [h4]; decide
  refine ⟨thr, h1, ?_, hd⟩
  obtain ⟨t, rfl⟩ := List.length_eq_one_iff.1 hl
  obtain ⟨lo, hi, a, b, g1, g2, g3, g4, g5, g6, g7⟩ := C04_quantiles (by norm_num) h1 hd (i := 0) rfl
  simp at g3 g4 g5 g6
  have e1 : lo = 1 := by omega
  have e2 : hi = 2 := by omega
  subst e1 e2
  have ha : a = 4 := by
    obtain ⟨m1, m2, m3⟩ := g1
    simp at m1
    rcases m1 with rfl | rfl | rfl | rfl <;> first | rfl | exact absurd m2 (by decide) | exact absurd m3 (by decide)
  have hb : b = 6 := by
    obtain ⟨m1, m2, m3⟩ := g2
    simp at m1
    rcases m1 with rfl | rfl | rfl | rfl <;> first | rfl | exact absurd m2 (by decide) | exact absurd m3 (by decide)
  rw [g7, ha, hb]
  norm_num

/-- Three distinct values, at most five bins. -/
example : ∃ thr, findBinningThresholds (1000 : ℚ) [some 6, none, some 1, some 4] 5 = .ok thr ∧
    nDistinct ([some 6, none, some 1, some 4] : List (Option ℚ)) ≤ 5 ∧ thr.length = 2 := by
  obtain ⟨thr, h1, h2, h3, h4, -⟩ := findBinningThresholds_spec (K := ℚ) 1000 [some 6, none, some 1, some 4] 5 (by norm_num)
  exact ⟨thr, h1, by decide, by rw [h4]; decide⟩

end Verif
