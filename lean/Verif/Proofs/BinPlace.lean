import Verif.Proofs.Binning
import Verif.Spec.BinPlace

/-! Where the thresholds lie. -/
namespace Verif

open Spec

section
variable {K : Type} [LinearOrder K]

theorem orderStat_sorted {s : List K} (hs : s.Pairwise (· ≤ ·)) {i : Nat} (hi : i < s.length) : OrderStat s i s[i] := by
  have hsplit : ∀ (p : K → Bool) (k : Nat), s.countP p = (s.take k).countP p + (s.drop k).countP p := by
    intro p k
    rw [← List.countP_append, List.take_append_drop]
  refine ⟨List.getElem_mem hi, ?_, ?_⟩
  · rw [hsplit _ i]
    have h0 : (s.drop i).countP (fun x => decide (x < s[i])) = 0 := by
      rw [List.countP_eq_zero]
      intro x hx
      obtain ⟨j, hj, rfl⟩ := List.getElem_of_mem hx
      rw [List.getElem_drop]
      simp only [decide_eq_true_eq, not_lt]
      rcases Nat.eq_zero_or_pos j with rfl | hj0
      · exact le_rfl
      · exact List.pairwise_iff_getElem.1 hs i (i + j) hi _ (by omega)
    rw [h0, Nat.add_zero]
    refine le_trans List.countP_le_length ?_
    rw [List.length_take]; omega
  · rw [hsplit _ (i + 1)]
    have h0 : (s.take (i + 1)).countP (fun x => decide (x ≤ s[i])) = i + 1 := by
      have : (s.take (i + 1)).countP (fun x => decide (x ≤ s[i])) = (s.take (i + 1)).length := by
        rw [List.countP_eq_length]
        intro x hx
        rw [List.mem_take_iff_getElem] at hx
        obtain ⟨j, hj, rfl⟩ := hx
        simp only [decide_eq_true_eq]
        rcases Nat.lt_or_eq_of_le (show j ≤ i by omega) with h | h
        · exact List.pairwise_iff_getElem.1 hs j i (by omega) hi h
        · subst h; exact le_rfl
      rw [this, List.length_take]; omega
    omega

theorem _root_.Verif.Spec.OrderStat.perm {l l' : List K} (h : l.Perm l') {i : Nat} {v : K} (ho : OrderStat l i v) : OrderStat l' i v :=
  ⟨h.mem_iff.1 ho.1, by rw [← h.countP_eq]; exact ho.2.1, by rw [← h.countP_eq]; exact ho.2.2⟩

/-- The values at two places are in order. -/
theorem _root_.Verif.Spec.OrderStat.mono {l : List K} {i j : Nat} {a b : K} (ha : OrderStat l i a) (hb : OrderStat l j b) (hij : i ≤ j) : a ≤ b := by
  by_contra h
  push Not at h
  have : l.countP (fun x => decide (x ≤ b)) ≤ l.countP (fun x => decide (x < a)) := by
    refine List.countP_mono_left fun x _ hx => ?_
    simp only [decide_eq_true_eq] at hx ⊢
    exact lt_of_le_of_lt hx h
  have := ha.2.1
  have := hb.2.2
  omega

theorem rank_npUnique {col : List (Option K)} {i : Nat} (hi : i < (npUnique (col.filterMap id)).length) :
    rank col (npUnique (col.filterMap id))[i] = i := by
  have hus := npUnique_sorted (col.filterMap id)
  unfold rank
  have : ((col.filterMap id).toFinset.filter (· < (npUnique (col.filterMap id))[i])) = ((npUnique (col.filterMap id)).take i).toFinset := by
    ext y
    simp only [Finset.mem_filter, List.mem_toFinset]
    rw [← mem_npUnique]
    constructor
    · rintro ⟨hy, hlt⟩
      obtain ⟨j, hj, rfl⟩ := List.getElem_of_mem hy
      have : j < i := by
        by_contra hc
        rcases Nat.lt_or_eq_of_le (not_lt.1 hc) with h | h
        · exact absurd (lt_trans (List.pairwise_iff_getElem.1 hus i j hi hj h) hlt) (lt_irrefl _)
        · subst h; exact absurd hlt (lt_irrefl _)
      rw [List.mem_take_iff_getElem]
      exact ⟨j, by omega, rfl⟩
    · intro hy
      rw [List.mem_take_iff_getElem] at hy
      obtain ⟨j, hj, rfl⟩ := hy
      exact ⟨List.getElem_mem _, List.pairwise_iff_getElem.1 hus j i (by omega) hi (by omega)⟩
  rw [this, List.card_toFinset, List.Nodup.dedup]
  · rw [List.length_take]; omega
  · exact (hus.imp (fun h => ne_of_lt h)).sublist (List.take_sublist _ _)

variable [Field K] [IsStrictOrderedRing K]

theorem thresholds_few {cap : K} {col : List (Option K)} {m : Nat} {thr : List K} (hm : 1 ≤ m) (h : findBinningThresholds cap col m = .ok thr)
    (hd : nDistinct col ≤ m) {i : Nat} {t : K} (ht : thr[i]? = some t) :
    ∃ a b, some a ∈ col ∧ some b ∈ col ∧ rank col a = i ∧ rank col b = i + 1 ∧ t = min ((a + b) / 2) cap := by
  obtain ⟨thr', h1, -, -, -, h5⟩ := findBinningThresholds_spec cap col m hm
  rw [h] at h1
  injection h1 with h1
  subst h1
  rw [h5 hd, List.getElem?_map] at ht
  obtain ⟨t', ht', rfl⟩ := Option.map_eq_some_iff.1 ht
  have hi : i + 1 < (npUnique (col.filterMap id)).length := by
    obtain ⟨hl, -⟩ := List.getElem?_eq_some_iff.1 ht'
    rw [middles_length] at hl
    omega
  rw [middles_get _ _ hi] at ht'
  injection ht' with ht'
  have hmem : ∀ y, y ∈ npUnique (col.filterMap id) → some y ∈ col := by
    intro y hy
    rw [mem_npUnique] at hy
    simpa using hy
  exact ⟨_, _, hmem _ (List.getElem_mem (by omega)), hmem _ (List.getElem_mem hi), rank_npUnique (by omega), rank_npUnique hi, by rw [ht']⟩

omit [IsStrictOrderedRing K] in
theorem thresholds_many {cap : K} {col : List (Option K)} {m : Nat} {thr : List K} (hm : 1 ≤ m) (h : findBinningThresholds cap col m = .ok thr)
    (hd : m < nDistinct col) {i : Nat} {t : K} (ht : thr[i]? = some t) :
    ∃ lo hi a b, OrderStat (col.filterMap id) lo a ∧ OrderStat (col.filterMap id) hi b ∧
      lo * m ≤ ((col.filterMap id).length - 1) * (i + 1) ∧ ((col.filterMap id).length - 1) * (i + 1) < (lo + 1) * m ∧
      ((col.filterMap id).length - 1) * (i + 1) ≤ hi * m ∧ hi * m < ((col.filterMap id).length - 1) * (i + 1) + m ∧
      t = min ((a + b) / 2) cap := by
  have hnd : nDistinct col = (npUnique (col.filterMap id)).length := by rw [npUnique_length]; rfl
  unfold findBinningThresholds at h
  dsimp only at h
  rw [if_neg (by omega), bind_eq_ok] at h
  obtain ⟨mids, h1, h2⟩ := h
  injection h2 with h2
  subst h2
  rw [List.getElem?_map] at ht
  obtain ⟨t', ht', rfl⟩ := Option.map_eq_some_iff.1 ht
  obtain ⟨hlt, rfl⟩ := List.getElem?_eq_some_iff.1 ht'
  have h1 := mapM_eq_ok.1 h1
  have hlen := h1.length_eq
  simp only [List.length_map, List.length_range] at hlen
  have hx := h1.get (i := i) (by simp; omega) hlt
  simp only [List.get_eq_getElem, List.getElem_map, List.getElem_range] at hx
  unfold percentileMidpoint at hx
  rw [bind_eq_ok] at hx
  obtain ⟨a, ha, hx⟩ := hx
  rw [bind_eq_ok] at hx
  obtain ⟨b, hb, hx⟩ := hx
  injection hx with hx
  rw [rd_ok] at ha hb
  obtain ⟨ha1, rfl⟩ := List.getElem?_eq_some_iff.1 ha
  obtain ⟨hb1, rfl⟩ := List.getElem?_eq_some_iff.1 hb
  have hperm := sortAsc_perm (col.filterMap id)
  have hl := hperm.length_eq
  refine ⟨_, _, _, _, OrderStat.perm hperm (orderStat_sorted (sortAsc_sorted _) ha1), OrderStat.perm hperm (orderStat_sorted (sortAsc_sorted _) hb1), ?_, ?_, ?_, ?_, by rw [hx]⟩
  · rw [hl]; exact Nat.div_mul_le_self _ _
  · rw [hl]
    have := Nat.lt_div_mul_add (a := ((col.filterMap id).length - 1) * (i + 1)) (show 0 < m by omega)
    rw [Nat.add_mul, Nat.one_mul]; exact this
  · rw [hl]
    have := Nat.lt_div_mul_add (a := ((col.filterMap id).length - 1) * (i + 1) + m - 1) (show 0 < m by omega)
    omega
  · rw [hl]
    have := Nat.div_mul_le_self (((col.filterMap id).length - 1) * (i + 1) + m - 1) m
    omega

end

end Verif
