import Verif.Proofs.Basic
import Verif.Model.Binning
import Verif.Spec.Binning
import Mathlib.Data.List.Sort
import Mathlib.Algebra.Order.Field.Basic

/-! Lemmas for C03 and C04. -/
set_option linter.unusedSectionVars false

namespace Verif

open Spec

section
variable {K : Type} [LinearOrder K]

theorem binSearch_spec (thr : List K) (hs : thr.Pairwise (· ≤ ·)) (x : K) :
    ∀ (fuel l r : Nat), l ≤ r → r ≤ thr.length → r - l ≤ fuel →
      (∀ j t, j < l → thr[j]? = some t → t < x) →
      (∀ j t, r ≤ j → thr[j]? = some t → x ≤ t) →
      ∃ i, binSearch thr x fuel l r = .ok i ∧ l ≤ i ∧ i ≤ r ∧
        (∀ j t, j < i → thr[j]? = some t → t < x) ∧
        (∀ j t, i ≤ j → thr[j]? = some t → x ≤ t) := by
  have mono : ∀ (i j : Nat) (a b : K), i ≤ j → thr[i]? = some a → thr[j]? = some b → a ≤ b := by
    intro i j a b hij ha hb
    obtain ⟨hi, rfl⟩ := List.getElem?_eq_some_iff.1 ha
    obtain ⟨hj, rfl⟩ := List.getElem?_eq_some_iff.1 hb
    rcases Nat.lt_or_eq_of_le hij with h | h
    · exact List.pairwise_iff_getElem.1 hs i j hi hj h
    · subst h; exact le_rfl
  intro fuel
  induction fuel with
  | zero =>
    intro l r hlr hr hf hlo hhi
    have : l = r := by omega
    subst this
    exact ⟨l, by simp [binSearch], le_rfl, le_rfl, hlo, hhi⟩
  | succ fuel ih =>
    intro l r hlr hr hf hlo hhi
    unfold binSearch
    by_cases h : l < r
    · rw [if_pos h]
      have hm : l + (r - l - 1) / 2 < thr.length := by omega
      have hget : thr[l + (r - l - 1) / 2]? = some thr[l + (r - l - 1) / 2] := List.getElem?_eq_getElem hm
      simp only [rd_of_lt hm, bind_ok]
      by_cases hx : x ≤ thr[l + (r - l - 1) / 2]
      · rw [if_pos hx]
        obtain ⟨i, h1, h2, h3, h4, h5⟩ := ih l (l + (r - l - 1) / 2) (by omega) (by omega) (by omega)
          hlo (fun j t hj ht => hx.trans (mono _ _ _ _ hj hget ht))
        exact ⟨i, h1, h2, by omega, h4, h5⟩
      · rw [if_neg hx]
        obtain ⟨i, h1, h2, h3, h4, h5⟩ := ih (l + (r - l - 1) / 2 + 1) r (by omega) hr (by omega)
          (fun j t hj ht => lt_of_le_of_lt (mono _ _ _ _ (by omega) ht hget) (not_le.1 hx)) hhi
        exact ⟨i, h1, by omega, h3, h4, h5⟩
    · rw [if_neg h]
      have : l = r := by omega
      subst this
      exact ⟨l, rfl, le_rfl, le_rfl, hlo, hhi⟩

theorem isBin_unique (thr : List K) (hs : thr.Pairwise (· ≤ ·)) (x : K) {i j : Nat}
    (hi : IsBin thr x i) (hj : IsBin thr x j) : i = j := by
  by_contra hne
  wlog h : i < j generalizing i j with H
  · exact H hj hi (Ne.symm hne) (by omega)
  obtain ⟨hi1, hi2, hi3⟩ := hi
  obtain ⟨hj1, hj2, hj3⟩ := hj
  have a1 : i < thr.length := by omega
  have a2 : j - 1 < thr.length := by omega
  have := hi2 _ (List.getElem?_eq_getElem a1)
  have h2 := hj3 (j - 1) _ (by omega) (List.getElem?_eq_getElem a2)
  have h3 : thr[i] ≤ thr[j - 1] := by
    rcases Nat.lt_or_eq_of_le (show i ≤ j - 1 by omega) with h | h
    · exact List.pairwise_iff_getElem.1 hs i (j - 1) a1 a2 h
    · exact le_of_eq (by congr 1)
  exact absurd (lt_of_le_of_lt (this.trans h3) h2) (lt_irrefl x)

theorem isBin_mono (thr : List K) (hs : thr.Pairwise (· ≤ ·)) {x y : K} (hxy : x ≤ y) {i j : Nat}
    (hi : IsBin thr x i) (hj : IsBin thr y j) : i ≤ j := by
  by_contra h
  push Not at h
  obtain ⟨hi1, hi2, hi3⟩ := hi
  obtain ⟨hj1, hj2, hj3⟩ := hj
  have a1 : j < thr.length := by omega
  have a2 : i - 1 < thr.length := by omega
  have h1 := hj2 _ (List.getElem?_eq_getElem a1)
  have h2 := hi3 (i - 1) _ (by omega) (List.getElem?_eq_getElem a2)
  have h3 : thr[j] ≤ thr[i - 1] := by
    rcases Nat.lt_or_eq_of_le (show j ≤ i - 1 by omega) with h | h
    · exact List.pairwise_iff_getElem.1 hs j (i - 1) a1 a2 h
    · exact le_of_eq (by congr 1)
  exact absurd (lt_of_le_of_lt (hxy.trans (h1.trans h3)) h2) (lt_irrefl x)

theorem binValue_some (thr : List K) (hs : thr.Pairwise (· ≤ ·)) (mb : Nat) (x : K) :
    ∃ i, binValue thr mb (some x) = .ok i ∧ IsBin thr x i := by
  obtain ⟨i, h1, h2, h3, h4, h5⟩ := binSearch_spec thr hs x thr.length 0 thr.length (by omega) le_rfl
    (by omega) (by intro j t hj; omega)
    (by intro j t hj ht; rw [List.getElem?_eq_none hj] at ht; cases ht)
  exact ⟨i, h1, h3, fun t ht => h5 i t le_rfl ht, fun j t hj ht => h4 j t (by omega) ht⟩

theorem sortAsc_perm (l : List K) : (sortAsc l).Perm l := List.mergeSort_perm _ _

theorem sortAsc_sorted (l : List K) : (sortAsc l).Pairwise (· ≤ ·) := by
  have := List.pairwise_mergeSort (le := fun a b : K => decide (a ≤ b))
    (by intro a b c; simp; exact le_trans) (by intro a b; simp; exact le_total a b) l
  exact this.imp (by simp)

theorem npUnique_sorted (l : List K) : (npUnique l).Pairwise (· < ·) := by
  have h1 := sortAsc_sorted l.dedup
  have h2 : (npUnique l).Nodup := (sortAsc_perm _).nodup_iff.2 (List.nodup_dedup l)
  exact (h1.and h2).imp (fun ⟨a, b⟩ => lt_of_le_of_ne a b)

theorem mem_npUnique (l : List K) (x : K) : x ∈ npUnique l ↔ x ∈ l := by
  unfold npUnique; rw [(sortAsc_perm _).mem_iff, List.mem_dedup]

theorem npUnique_length (l : List K) : (npUnique l).length = l.toFinset.card := by
  unfold npUnique; rw [(sortAsc_perm _).length_eq, List.card_toFinset]

variable [Field K]

theorem middles_length (l : List K) : (middles l).length = l.length - 1 := by
  induction l with
  | nil => rfl
  | cons a l ih =>
    cases l with
    | nil => rfl
    | cons b l => simp [middles, ih]

theorem middles_get (l : List K) (i : Nat) (hi : i + 1 < l.length) :
    (middles l)[i]? = some ((l[i] + l[i + 1]) / 2) := by
  induction l generalizing i with
  | nil => simp at hi
  | cons a l ih =>
    cases l with
    | nil => simp at hi
    | cons b l =>
      cases i with
      | zero => simp [middles]
      | succ i =>
        simp only [middles, List.getElem?_cons_succ]
        rw [ih i (by simpa using hi)]
        simp

variable [IsStrictOrderedRing K]

theorem middles_mem_lt (l : List K) (hl : l.Pairwise (· < ·)) (i : Nat) (hi : i + 1 < l.length) :
    l[i] < (l[i] + l[i + 1]) / 2 ∧ (l[i] + l[i + 1]) / 2 < l[i + 1] := by
  have h := List.pairwise_iff_getElem.1 hl i (i + 1) (by omega) hi (by omega)
  constructor
  · exact left_lt_add_div_two.2 h
  · exact add_div_two_lt_right.2 h

theorem middles_sorted (l : List K) (hl : l.Pairwise (· ≤ ·)) : (middles l).Pairwise (· ≤ ·) := by
  rw [List.pairwise_iff_getElem]
  intro i j hi hj hij
  rw [middles_length] at hi hj
  have e1 := middles_get l i (by omega)
  have e2 := middles_get l j (by omega)
  obtain ⟨_, e1⟩ := List.getElem?_eq_some_iff.1 e1
  obtain ⟨_, e2⟩ := List.getElem?_eq_some_iff.1 e2
  rw [e1, e2]
  have h1 := List.pairwise_iff_getElem.1 hl i j (by omega) (by omega) hij
  have h2 := List.pairwise_iff_getElem.1 hl (i + 1) (j + 1) (by omega) (by omega) (by omega)
  have : (0 : K) ≤ 2 := by norm_num
  exact div_le_div_of_nonneg_right (add_le_add h1 h2) this

/-- Index arithmetic of the percentiles: in range and monotone. -/
theorem perc_idx (n m k : Nat) (hn : 0 < n) (hm : 0 < m) (hk : k ≤ m) :
    (n - 1) * k / m < n ∧ ((n - 1) * k + m - 1) / m < n := by
  have h1 : (n - 1) * k ≤ (n - 1) * m := Nat.mul_le_mul_left _ hk
  constructor
  · rw [Nat.div_lt_iff_lt_mul hm]
    have : n * m = (n - 1) * m + m := by
      obtain ⟨p, rfl⟩ : ∃ p, n = p + 1 := ⟨n - 1, by omega⟩
      simp; ring
    omega
  · rw [Nat.div_lt_iff_lt_mul hm]
    have : n * m = (n - 1) * m + m := by
      obtain ⟨p, rfl⟩ : ∃ p, n = p + 1 := ⟨n - 1, by omega⟩
      simp; ring
    omega

/-- Value of the percentile, when in range. -/
def percVal (s : List K) (m k : Nat) (hs : 0 < s.length) (hm : 0 < m) (hk : k ≤ m) : K :=
  (s[(s.length - 1) * k / m]'((perc_idx s.length m k hs hm hk).1) +
   s[((s.length - 1) * k + m - 1) / m]'((perc_idx s.length m k hs hm hk).2)) / 2

theorem percentileMidpoint_eq (s : List K) (m k : Nat) (hs : 0 < s.length) (hm : 0 < m) (hk : k ≤ m) :
    percentileMidpoint s m k = .ok (percVal s m k hs hm hk) := by
  obtain ⟨h1, h2⟩ := perc_idx s.length m k hs hm hk
  simp [percentileMidpoint, rd_of_lt h1, rd_of_lt h2, percVal]

theorem getElem_mono {s : List K} (hs : s.Pairwise (· ≤ ·)) {i j : Nat} (hi : i < s.length)
    (hj : j < s.length) (hij : i ≤ j) : s[i] ≤ s[j] := by
  rcases Nat.lt_or_eq_of_le hij with h | h
  · exact List.pairwise_iff_getElem.1 hs i j hi hj h
  · subst h; exact le_rfl

theorem percVal_mono (s : List K) (hsort : s.Pairwise (· ≤ ·)) (m k k' : Nat) (hs : 0 < s.length)
    (hm : 0 < m) (hk : k ≤ m) (hk' : k' ≤ m) (h : k ≤ k') :
    percVal s m k hs hm hk ≤ percVal s m k' hs hm hk' := by
  unfold percVal
  have : (0 : K) ≤ 2 := by norm_num
  refine div_le_div_of_nonneg_right (add_le_add ?_ ?_) this
  · apply getElem_mono hsort
    exact Nat.div_le_div_right (Nat.mul_le_mul_left _ h)
  · apply getElem_mono hsort
    apply Nat.div_le_div_right
    have := Nat.mul_le_mul_left (s.length - 1) h
    omega

theorem findBinningThresholds_spec (cap : K) (col : List (Option K)) (m : Nat) (hm : 1 ≤ m) :
    ∃ thr, findBinningThresholds cap col m = .ok thr ∧ thr.Pairwise (· ≤ ·) ∧
      (∀ t ∈ thr, t ≤ cap) ∧
      (thr.length = min m (max 1 (nDistinct col)) - 1) ∧
      (nDistinct col ≤ m → thr = (middles (npUnique (col.filterMap id))).map fun t => min t cap) := by
  have hmin : ∀ a b : K, a ≤ b → min a cap ≤ min b cap := fun a b h => min_le_min h le_rfl
  have hnd : nDistinct col = (npUnique (col.filterMap id)).length := by
    rw [npUnique_length]; rfl
  unfold findBinningThresholds
  by_cases h : (npUnique (col.filterMap id)).length ≤ m
  · refine ⟨(middles (npUnique (col.filterMap id))).map fun t => min t cap, ?_, ?_, ?_, ?_, ?_⟩
    · dsimp only
      rw [if_pos h]; rfl
    · rw [List.pairwise_map]
      exact (middles_sorted _ ((npUnique_sorted _).imp le_of_lt)).imp (hmin _ _)
    · intro t ht
      obtain ⟨a, _, rfl⟩ := List.mem_map.1 ht
      exact min_le_right _ _
    · rw [List.length_map, middles_length, hnd]; omega
    · intro _; rfl
  · have hpos : 0 < (sortAsc (col.filterMap id)).length := by
      rw [(sortAsc_perm _).length_eq]
      by_contra hc
      have : col.filterMap id = [] := by
        apply List.length_eq_zero_iff.1; omega
      rw [this] at h
      simp [npUnique, sortAsc] at h
    have hmap : ((List.range (m - 1)).map (· + 1)).mapM
        (percentileMidpoint (sortAsc (col.filterMap id)) m) = .ok ((List.range (m - 1)).map fun k =>
          if hk : k + 1 ≤ m then percVal (sortAsc (col.filterMap id)) m (k + 1) hpos hm hk else 0) := by
      rw [show (List.range (m - 1)).map (fun k =>
          if hk : k + 1 ≤ m then percVal (sortAsc (col.filterMap id)) m (k + 1) hpos hm hk else 0) =
        ((List.range (m - 1)).map (· + 1)).map (fun k =>
          if hk : k ≤ m then percVal (sortAsc (col.filterMap id)) m k hpos hm hk else 0) by
          rw [List.map_map]; rfl]
      apply mapM_ok_of
      intro k hk
      simp only [List.mem_map, List.mem_range] at hk
      obtain ⟨k', hk', rfl⟩ := hk
      rw [dif_pos (by omega)]
      exact percentileMidpoint_eq _ _ _ hpos hm (by omega)
    refine ⟨_, by simp only [h, if_false]; rw [hmap]; rfl, ?_, ?_, ?_, ?_⟩
    · rw [List.pairwise_map, List.pairwise_map]
      refine List.Pairwise.imp_of_mem ?_ (List.pairwise_lt_range (n := m - 1))
      intro a b ha hb hab
      simp only [List.mem_range] at ha hb
      rw [dif_pos (by omega), dif_pos (by omega)]
      exact hmin _ _ (percVal_mono _ (sortAsc_sorted _) _ _ _ _ _ _ _ (by omega))
    · intro t ht
      obtain ⟨a, _, rfl⟩ := List.mem_map.1 ht
      exact min_le_right _ _
    · simp; omega
    · intro hc; omega

/-- With few distinct values, the bin of a value of the column is its rank. -/
theorem isBin_rank (cap : K) (col : List (Option K)) (x : K) (hx : some x ∈ col)
    (hcap : ∀ y, some y ∈ col → y ≤ cap) :
    IsBin ((middles (npUnique (col.filterMap id))).map fun t => min t cap) x (rank col x) := by
  set u := npUnique (col.filterMap id) with hu
  have hus := npUnique_sorted (col.filterMap id)
  rw [← hu] at hus
  have hmem : ∀ y, y ∈ u ↔ some y ∈ col := by
    intro y; rw [hu, mem_npUnique]; simp
  obtain ⟨i, hi, hxi⟩ := List.getElem_of_mem ((hmem x).2 hx)
  have hrank : rank col x = i := by
    unfold rank
    have : ((col.filterMap id).toFinset.filter (· < x)) = (u.take i).toFinset := by
      ext y
      simp only [Finset.mem_filter, List.mem_toFinset]
      rw [← mem_npUnique, ← hu]
      constructor
      · rintro ⟨hy, hlt⟩
        obtain ⟨j, hj, rfl⟩ := List.getElem_of_mem hy
        have : j < i := by
          by_contra hc
          rcases Nat.lt_or_eq_of_le (not_lt.1 hc) with h | h
          · have := List.pairwise_iff_getElem.1 hus i j hi hj h
            rw [hxi] at this
            exact absurd (lt_trans this hlt) (lt_irrefl _)
          · subst h; rw [hxi] at hlt; exact absurd hlt (lt_irrefl _)
        rw [List.mem_take_iff_getElem]
        exact ⟨j, by omega, rfl⟩
      · intro hy
        rw [List.mem_take_iff_getElem] at hy
        obtain ⟨j, hj, rfl⟩ := hy
        refine ⟨List.getElem_mem _, ?_⟩
        rw [← hxi]
        exact List.pairwise_iff_getElem.1 hus j i (by omega) hi (by omega)
    rw [this, List.card_toFinset, List.Nodup.dedup]
    · simp; omega
    · exact (hus.imp (fun h => ne_of_lt h)).sublist (List.take_sublist _ _)
  rw [hrank]
  refine ⟨by simp [middles_length]; omega, ?_, ?_⟩
  · intro t ht
    rw [List.getElem?_map] at ht
    by_cases hi1 : i + 1 < u.length
    · rw [middles_get u i hi1] at ht
      simp only [Option.map_some, Option.some.injEq] at ht
      rw [← ht]
      apply le_min
      · rw [← hxi]; exact le_of_lt (middles_mem_lt u hus i hi1).1
      · exact hcap x hx
    · rw [List.getElem?_eq_none (by rw [middles_length]; omega)] at ht
      cases ht
  · intro j t hj ht
    subst hj
    rw [List.getElem?_map, middles_get u j hi] at ht
    simp only [Option.map_some, Option.some.injEq] at ht
    rw [← ht]
    apply lt_of_le_of_lt (min_le_left _ _)
    rw [← hxi]; exact (middles_mem_lt u hus j hi).2

end

end Verif
