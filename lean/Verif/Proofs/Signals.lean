import Verif.Spec.Signals
import Mathlib.Tactic.FieldSimp
import Mathlib.Tactic.Ring
import Mathlib.Tactic.Linarith
import Mathlib.Tactic.NormNum

/-! Lemmas on the signals. -/
namespace Verif
open Spec

theorem getSignal_inv {x : List ℝ} {s : String} {y : List NanR} (h : getSignal x s = .ok y) :
    ∃ lo hi, lo ∈ x.map (signalOf s) ∧ hi ∈ x.map (signalOf s) ∧ (∀ v ∈ x.map (signalOf s), lo ≤ v ∧ v ≤ hi) ∧
      y = x.map fun t => if hi - lo = 0 then none else some ((signalOf s t - lo) / (hi - lo)) := by
  unfold getSignal at h
  simp only at h
  split at h
  · rename_i lo hi h1 h2
    rw [List.min?_eq_some_iff] at h1
    rw [List.max?_eq_some_iff] at h2
    refine ⟨lo, hi, h1.1, h2.1, fun v hv => ⟨h1.2 v hv, h2.2 v hv⟩, ?_⟩
    cases h
    rw [List.map_map]
    rfl
  · cases h

theorem getSignal_rescaled {x : List ℝ} {s : String} {y : List NanR} (h : getSignal x s = .ok y) (hv : Varies (signalOf s) x) :
    Rescaled (signalOf s) x y := by
  obtain ⟨lo, hi, h1, h2, h3, rfl⟩ := getSignal_inv h
  obtain ⟨p, hp, q, hq, hpq⟩ := hv
  have hlt : 0 < hi - lo := by
    have a := h3 _ (List.mem_map.2 ⟨p, hp, rfl⟩)
    have b := h3 _ (List.mem_map.2 ⟨q, hq, rfl⟩)
    rcases lt_or_gt_of_ne hpq with h | h <;> linarith [a.1, a.2, b.1, b.2]
  simp only [if_neg hlt.ne']
  refine ⟨⟨(hi - lo)⁻¹, -(lo / (hi - lo)), inv_pos.2 hlt, ?_⟩, ?_, ?_, ?_⟩
  · refine List.map_congr_left fun t _ => ?_
    congr 1
    field_simp
    ring
  · intro v hv
    obtain ⟨t, ht, rfl⟩ := List.mem_map.1 hv
    have b := h3 _ (List.mem_map.2 ⟨t, ht, rfl⟩)
    exact ⟨_, rfl, div_nonneg (by linarith) hlt.le, (div_le_one hlt).2 (by linarith)⟩
  · obtain ⟨t, ht, e⟩ := List.mem_map.1 h1
    exact List.mem_map.2 ⟨t, ht, by rw [e]; simp⟩
  · obtain ⟨t, ht, e⟩ := List.mem_map.1 h2
    exact List.mem_map.2 ⟨t, ht, by rw [e, div_self hlt.ne']⟩

theorem getSignal_total {x : List ℝ} (hx : x ≠ []) (s : String) : ∃ y, getSignal x s = .ok y := by
  unfold getSignal
  simp only
  have hne : x.map (signalOf s) ≠ [] := by simpa using hx
  cases h1 : (x.map (signalOf s)).min? with
  | none => exact absurd (List.min?_eq_none_iff.1 h1) hne
  | some lo =>
    cases h2 : (x.map (signalOf s)).max? with
    | none => exact absurd (List.max?_eq_none_iff.1 h2) hne
    | some hi => exact ⟨_, rfl⟩

theorem signR_pos {x : ℝ} (h : 0 < x) : signR x = 1 := by simp [signR, sign_pos h]
theorem signR_neg {x : ℝ} (h : x < 0) : signR x = -1 := by simp [signR, sign_neg h]

theorem signalOf_blocks : signalOf "blocks" = blocks := by
  unfold signalOf
  rw [if_neg (by decide), if_neg (by decide), if_pos rfl]

theorem blocks_zero : blocks 0 = 2 := by
  unfold blocks sigPos
  simp only [List.zip_cons_cons, List.zip_nil_right, List.foldl_cons, List.foldl_nil]
  iterate 11 rw [signR_neg (by norm_num)]
  norm_num

theorem blocks_low : blocks 0.12 = 6 := by
  unfold blocks sigPos
  simp only [List.zip_cons_cons, List.zip_nil_right, List.foldl_cons, List.foldl_nil]
  rw [signR_pos (by norm_num)]
  iterate 10 rw [signR_neg (by norm_num)]
  norm_num

theorem blocks_mid : blocks 0.14 = 1 := by
  unfold blocks sigPos
  simp only [List.zip_cons_cons, List.zip_nil_right, List.foldl_cons, List.foldl_nil]
  rw [signR_pos (x := 0.14 - 0.1) (by norm_num), signR_pos (x := 0.14 - 0.13) (by norm_num)]
  iterate 9 rw [signR_neg (by norm_num)]
  norm_num

theorem blocks_first : getSignal [0, 0.12] "blocks" = .ok [some 0, some 1] := by
  unfold getSignal
  rw [signalOf_blocks]
  simp only [List.map_cons, List.map_nil, blocks_zero, blocks_low, List.min?_cons', List.max?_cons', List.foldl_cons, List.foldl_nil]
  norm_num

theorem blocks_second : getSignal [0, 0.14] "blocks" = .ok [some 1, some 0] := by
  unfold getSignal
  rw [signalOf_blocks]
  simp only [List.map_cons, List.map_nil, blocks_zero, blocks_mid, List.min?_cons', List.max?_cons', List.foldl_cons, List.foldl_nil]
  norm_num

theorem getSignal_single (t : ℝ) (s : String) : getSignal [t] s = .ok [none] := by
  unfold getSignal
  simp

theorem makeRegression_sample {G : Type} {R : GlobalRng G} {n : Nat} {s : String} {noise : ℝ} {rs : Option Int} {g g' : G} {X : List ℝ} {y : List NanR}
    (h : makeRegression R n s noise rs g = .ok ((X, y), g')) : NoisySample R n (signalOf s) noise (rs.elim g R.seed) X y g' := by
  unfold makeRegression at h
  simp only at h
  split at h
  · cases h
  · rename_i w hw
    cases h
    refine ⟨?_, List.mergeSort_perm _ _, ?_, rfl⟩
    · have := List.pairwise_mergeSort (le := fun a b : ℝ => decide (a ≤ b)) (by intro a b c; simp only [decide_eq_true_eq]; exact le_trans)
        (by intro a b; simp only [Bool.or_eq_true, decide_eq_true_eq]; exact le_total a b) (R.uniform n (rs.elim g R.seed)).1
      exact this.imp fun h => by simpa using h
    · intro hv
      obtain ⟨a, b, ha, e⟩ := (getSignal_rescaled hw hv).affine
      refine ⟨a, b, ha, fun i t z h1 h2 => ?_⟩
      rw [List.getElem?_zipWith, e, List.getElem?_map, h1, h2]
      rfl

theorem signR_sub (x p : ℝ) : signR (x - p) = if p < x then 1 else if p = x then 0 else -1 := by
  rcases lt_trichotomy p x with h | h | h
  · rw [signR_pos (by linarith), if_pos h]
  · subst h
    simp [signR]
  · rw [if_neg (by linarith), if_neg h.ne']
    simp [signR, sign_neg (show x - p < 0 by linarith)]

theorem jump_eq (x p h : ℝ) : (1 + signR (x - p)) * (h / 2) = if p < x then h else if p = x then h / 2 else 0 := by
  rw [signR_sub]
  split
  · ring
  · split <;> ring

/-- The code computes the signals of the specification. -/
theorem signalOf_donoho : signalOf = donoho := by
  funext s x
  unfold signalOf donoho
  by_cases h1 : s = "bumps"
  · subst h1
    rw [if_neg (show ¬ "bumps" = "heavisine" by decide), if_pos rfl, if_pos rfl]
    simp only [bumps, sigPos, bumpTable, List.zip_cons_cons, List.zip_nil_right, List.foldl_cons, List.foldl_nil, List.map_cons, List.map_nil, List.sum_cons, List.sum_nil, div_eq_mul_inv]
    ring
  by_cases h2 : s = "blocks"
  · subst h2
    rw [if_neg (show ¬ "blocks" = "heavisine" by decide), if_neg h1, if_pos rfl, if_neg h1, if_pos rfl]
    simp only [blocks, sigPos, jumpTable, List.zip_cons_cons, List.zip_nil_right, List.foldl_cons, List.foldl_nil, jump_eq, List.map_cons, List.map_nil, List.sum_cons, List.sum_nil]
    ring
  by_cases h3 : s = "doppler"
  · subst h3
    rw [if_neg (show ¬ "doppler" = "heavisine" by decide), if_neg h1, if_neg h2, if_pos rfl, if_neg h1, if_neg h2, if_pos rfl]
    unfold doppler
    rw [show 2 * Real.pi * 1.05 = 2.1 * Real.pi by ring]
    ring
  · rw [if_neg h1, if_neg h2, if_neg h3, if_neg h1, if_neg h2, if_neg h3, ite_self]
    unfold heavisine
    rw [signR_sub, signR_sub]
    have e : ∀ p : ℝ, -(if p < x then 1 else if p = x then 0 else -1 : ℝ) = if x < p then 1 else if x = p then 0 else -1 := by
      intro p
      rcases lt_trichotomy p x with h | h | h
      · rw [if_pos h, if_neg (by linarith), if_neg h.ne']
      · subst h; simp
      · rw [if_neg (by linarith), if_neg h.ne', if_pos h]; norm_num
    have e' : ∀ p : ℝ, -(if x < p then 1 else if x = p then 0 else -1 : ℝ) = if x < p then -1 else if x = p then 0 else 1 := by
      intro p
      split
      · rfl
      · split <;> norm_num
    linarith [e 0.3, e 0.72, e' 0.72]

end Verif
