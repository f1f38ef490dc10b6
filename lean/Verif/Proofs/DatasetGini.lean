import Verif.Proofs.Datasets
import Mathlib.Algebra.BigOperators.Group.List.Lemmas
import Mathlib.Tactic.Linarith

/-! The scaled Gini index of the labels. -/
namespace Verif
open Spec

section
variable {C K : Type} [LinearOrder C] [Field K] [LinearOrder K] [IsStrictOrderedRing K]

omit [LinearOrder K] [IsStrictOrderedRing K] in
theorem sum_sub_sq (l : List K) (m : K) : ((l.map fun p => p - m).map fun z => z ^ 2).sum = (l.map fun p => p ^ 2).sum - 2 * m * l.sum + l.length * m ^ 2 := by
  induction l with
  | nil => simp
  | cons a l ih => simp only [List.map_cons, List.sum_cons, ih, List.length_cons]; push_cast; ring

theorem sum_sq_lt {l : List K} (h : ∀ p ∈ l, 0 < p ∧ p < 1) (hne : l ≠ []) : (l.map fun p => p ^ 2).sum < l.sum := by
  induction l with
  | nil => exact absurd rfl hne
  | cons a l ih =>
    have ha := h a List.mem_cons_self
    have h1 : a ^ 2 < a := by nlinarith [ha.1, ha.2]
    simp only [List.map_cons, List.sum_cons]
    by_cases hl : l = []
    · subst hl; simpa using h1
    · have := ih (fun p hp => h p (List.mem_cons_of_mem _ hp)) hl
      linarith

omit [LinearOrder K] [IsStrictOrderedRing K] in
theorem gini_uniform (k : Nat) (hk : (k : K) ≠ 0) : gini ((List.range k).map fun _ => (1 : K) / k) = 1 - 1 / k := by
  unfold gini
  rw [List.map_map]
  have : ((fun p : K => p ^ 2) ∘ fun _ : Nat => (1 : K) / k) = fun _ => (1 : K) / k ^ 2 := by funext x; simp
  rw [this, List.map_const', List.sum_replicate, List.length_range, nsmul_eq_mul]
  field_simp

/-- Probabilities between 0 and 1 with sum 1. -/
theorem scaledGini_spec {l : List K} (h : ∀ p ∈ l, 0 < p ∧ p < 1) (hs : l.sum = 1) :
    ∃ g, scaledGini l = some g ∧ 0 < g ∧ g ≤ 1 ∧ (g = 1 ↔ ∀ p ∈ l, p = 1 / l.length) := by
  have hne : l ≠ [] := by rintro rfl; simp at hs
  have hlen : 0 < l.length := List.length_pos_iff.2 hne
  have hk : (0 : K) < l.length := by exact_mod_cast hlen
  have h0 : 0 ≤ ((l.map fun p => p - 1 / (l.length : K)).map fun z => z ^ 2).sum := by
    refine List.sum_nonneg ?_
    intro y hy
    obtain ⟨x, _, rfl⟩ := List.mem_map.1 hy
    positivity
  have hexp : ((l.map fun p => p - 1 / (l.length : K)).map fun z => z ^ 2).sum = (l.map fun p => p ^ 2).sum - 1 / (l.length : K) := by
    rw [sum_sub_sq, hs]
    field_simp
    ring
  have hlt := sum_sq_lt h hne
  rw [hs] at hlt
  have hge : 1 / (l.length : K) ≤ (l.map fun p => p ^ 2).sum := by linarith
  have hm : (0 : K) < 1 - 1 / l.length := by linarith
  have hg : 0 < gini l := by unfold gini; linarith
  unfold scaledGini
  simp only
  rw [gini_uniform _ hk.ne', if_neg hm.ne']
  refine ⟨_, rfl, div_pos hg hm, (div_le_one hm).2 (by unfold gini; linarith), ?_⟩
  rw [div_eq_one_iff_eq hm.ne']
  constructor
  · intro he p hp
    have hz : ((l.map fun p => p - 1 / (l.length : K)).map fun z => z ^ 2).sum = 0 := by rw [hexp]; unfold gini at he; linarith
    have := sum_sq_eq_zero hz _ (List.mem_map.2 ⟨p, hp, rfl⟩)
    linarith
  · intro hall
    have hz : ((l.map fun p => p - 1 / (l.length : K)).map fun z => z ^ 2).sum = 0 := by
      refine List.sum_eq_zero ?_
      intro y hy
      obtain ⟨x, hx, rfl⟩ := List.mem_map.1 hy
      obtain ⟨p, hp, rfl⟩ := List.mem_map.1 hx
      rw [hall p hp]; simp
    rw [hexp] at hz
    unfold gini
    linarith

theorem sum_counts (y : List C) : ((sortedUnique y).map fun c => y.count c).sum = y.length := by
  have hp : (sortedUnique y).Perm y.dedup := List.perm_insertionSort _ _
  rw [(hp.map _).sum_eq]
  exact List.sum_map_count_dedup_eq_length y

/-- The frequencies of the labels when there are two classes. -/
theorem labelProbs_spec {y : List C} {a b : C} (ha : a ∈ y) (hb : b ∈ y) (hab : a ≠ b) :
    (∀ p ∈ (labelProbs y : List K), 0 < p ∧ p < 1) ∧ (labelProbs y : List K).sum = 1 := by
  have hlen : 0 < y.length := List.length_pos_of_mem ha
  have hk : (0 : K) < y.length := by exact_mod_cast hlen
  constructor
  · intro p hp
    obtain ⟨c, hc, rfl⟩ := List.mem_map.1 hp
    have hc := mem_sortedUnique.1 hc
    have h1 : 0 < y.count c := List.count_pos_iff.2 hc
    have h2 : y.count c < y.length := by
      refine lt_of_le_of_ne List.count_le_length fun h => ?_
      rw [List.count_eq_length] at h
      exact hab ((h a ha).symm.trans (h b hb))
    refine ⟨div_pos (by exact_mod_cast h1) hk, (div_lt_one hk).2 (by exact_mod_cast h2)⟩
  · unfold labelProbs
    have : ((sortedUnique y).map fun c => (y.count c : K) / y.length) = (((sortedUnique y).map fun c => y.count c).map fun m : Nat => (m : K) / y.length) := by
      rw [List.map_map]; rfl
    rw [this]
    have h2 : ∀ l : List Nat, (l.map fun m : Nat => (m : K) / y.length).sum = (l.sum : K) / y.length := by
      intro l
      induction l with
      | nil => simp
      | cons x l ih => simp only [List.map_cons, List.sum_cons, ih]; push_cast; ring
    rw [h2, sum_counts]
    exact div_self hk.ne'

/-- All classes have the same frequency iff all have the mean frequency. -/
theorem labelProbs_uniform {y : List C} {a b : C} (ha : a ∈ y) (hb : b ∈ y) (hab : a ≠ b) :
    (∀ p ∈ (labelProbs y : List K), p = 1 / ((labelProbs y : List K).length : K)) ↔ ∀ c ∈ y, ∀ d ∈ y, y.count c = y.count d := by
  have hlen : 0 < y.length := List.length_pos_of_mem ha
  have hk : (0 : K) < y.length := by exact_mod_cast hlen
  constructor
  · intro h c hc d hd
    have h1 := h _ (List.mem_map.2 ⟨c, mem_sortedUnique.2 hc, rfl⟩)
    have h2 := h _ (List.mem_map.2 ⟨d, mem_sortedUnique.2 hd, rfl⟩)
    have := h1.trans h2.symm
    rw [div_left_inj' hk.ne'] at this
    exact_mod_cast this
  · intro h p hp
    have hall : ∀ q ∈ (labelProbs y : List K), q = p := by
      intro q hq
      obtain ⟨c, hc, rfl⟩ := List.mem_map.1 hp
      obtain ⟨d, hd, rfl⟩ := List.mem_map.1 hq
      rw [h d (mem_sortedUnique.1 hd) c (mem_sortedUnique.1 hc)]
    have hs := (labelProbs_spec (K := K) ha hb hab).2
    have hl := List.length_pos_of_mem hp
    rw [List.sum_eq_card_nsmul _ _ hall, nsmul_eq_mul] at hs
    have : (0 : K) < (labelProbs y : List K).length := by exact_mod_cast hl
    field_simp
    linarith

/-- One class: the index is 0 / 0. -/
theorem scaledGini_single {y : List C} {a : C} (hy : y ≠ []) (h : ∀ b ∈ y, b = a) : scaledGini (labelProbs y : List K) = none := by
  have : sortedUnique y = [a] := by
    have hs : sortedUnique y = sortedUnique [a] := sortedUnique_congr fun l => by
      constructor
      · intro hl; rw [h l hl]; simp
      · intro hl
        obtain ⟨b, hb⟩ := List.exists_mem_of_ne_nil y hy
        rw [List.mem_singleton.1 hl, ← h b hb]; exact hb
    rw [hs]; simp [sortedUnique]
  unfold labelProbs scaledGini
  rw [this]
  simp [gini]

end

end Verif
