import Verif.Proofs.Binning
import Mathlib.Data.Rat.Defs
import Mathlib.Algebra.Order.Ring.Rat

/-! # C03, C04: binning of continuous columns -/
namespace Verif

open Spec

/-- C03. For every non-decreasing list of thresholds, the search terminates in bounds, the result is the only
bin satisfying the documented rule, and binning preserves order. Missing cells get the missing bin. -/
theorem C03_binning {K : Type} [LinearOrder K] (thr : List K) (hs : thr.Pairwise (· ≤ ·))
    (missing : Nat) (col : List (Option K)) :
    ∃ bins, binContinuousColumn col thr missing = .ok bins ∧ bins.length = col.length ∧
      (∀ r : Nat, col[r]? = some none → bins[r]? = some missing) ∧
      (∀ (r : Nat) x, col[r]? = some (some x) → ∃ i, bins[r]? = some i ∧ IsBin thr x i ∧
        ∀ j, IsBin thr x j → j = i) ∧
      (∀ (r s : Nat) x y i j, col[r]? = some (some x) → col[s]? = some (some y) → x ≤ y →
        bins[r]? = some i → bins[s]? = some j → i ≤ j) := by
  classical
  let g : Option K → Nat := fun c => match c with
    | none => missing
    | some x => (binValue_some thr hs missing x).choose
  have hg : ∀ x, IsBin thr x (g (some x)) := fun x => (binValue_some thr hs missing x).choose_spec.2
  have h : binContinuousColumn col thr missing = .ok (col.map g) := by
    apply mapM_ok_of
    intro c _
    cases c with
    | none => rfl
    | some x => exact (binValue_some thr hs missing x).choose_spec.1
  refine ⟨_, h, by simp, ?_, ?_, ?_⟩
  · intro r hr; rw [List.getElem?_map, hr]; rfl
  · intro r x hr
    refine ⟨g (some x), by rw [List.getElem?_map, hr]; rfl, hg x, fun j hj => isBin_unique thr hs x hj (hg x)⟩
  · intro r s x y i j hr hss hxy hi hj
    rw [List.getElem?_map, hr] at hi
    rw [List.getElem?_map, hss] at hj
    simp only [Option.map_some, Option.some.injEq] at hi hj
    rw [← hi, ← hj]
    exact isBin_mono thr hs hxy (hg x) (hg y)

/-- Hypothesis of C03 with a tie, and what the model computes. -/
example : ([1, 3, 3, 7] : List Nat).Pairwise (· ≤ ·) := by decide
example : binContinuousColumn [some 3, none, some 4, some 9] [1, 3, 3, 7] 5 = .ok [1, 5, 3, 4] := by decide

/-- C04. The learnt thresholds are non-decreasing, at most the clip value, exactly
`min(max_bins, n_distinct) - 1` many. When the column has at most `max_bins` distinct values (none
above the clip), the bin of every value is its rank among the distinct values, so that different values have
different bins and the number of bins is the number of distinct values. -/
theorem C04_thresholds {K : Type} [LinearOrder K] [Field K] [IsStrictOrderedRing K] (cap : K)
    (col : List (Option K)) (maxBins : Nat) (hm : 1 ≤ maxBins) :
    ∃ thr, findBinningThresholds cap col maxBins = .ok thr ∧ thr.Pairwise (· ≤ ·) ∧
      (∀ t ∈ thr, t ≤ cap) ∧
      thr.length = min maxBins (max 1 (nDistinct col)) - 1 ∧
      (nDistinct col ≤ maxBins → (∀ y, some y ∈ col → y ≤ cap) →
        (∀ x, some x ∈ col → binValue thr 0 (some x) = .ok (rank col x)) ∧
        (∀ x y, some x ∈ col → some y ∈ col → x ≠ y →
          binValue thr 0 (some x) ≠ binValue thr 0 (some y))) := by
  obtain ⟨thr, h1, h2, h3, h4, h5⟩ := findBinningThresholds_spec cap col maxBins hm
  refine ⟨thr, h1, h2, h3, h4, ?_⟩
  intro hle hcap
  have key : ∀ x, some x ∈ col → binValue thr 0 (some x) = .ok (rank col x) := by
    intro x hx
    obtain ⟨i, hi, hb⟩ := binValue_some thr h2 0 x
    have hr := isBin_rank cap col x hx hcap
    rw [← h5 hle] at hr
    rw [hi, isBin_unique thr h2 x hb hr]
  refine ⟨key, ?_⟩
  intro x y hx hy hne
  rw [key x hx, key y hy]
  wlog hlt : x < y generalizing x y with H
  · exact Ne.symm (H y x hy hx (Ne.symm hne) (lt_of_le_of_ne (not_lt.1 hlt) (Ne.symm hne)))
  have : rank col x < rank col y := by
    unfold rank
    apply Finset.card_lt_card
    refine ⟨?_, ?_⟩
    · intro z hz
      simp only [Finset.mem_filter] at hz ⊢
      exact ⟨hz.1, hz.2.trans hlt⟩
    · intro hsub
      have hxm : x ∈ (col.filterMap id).toFinset.filter (· < y) := by
        simp [hlt, hx]
      have := hsub hxm
      simp at this
  intro h
  injection h with h
  omega

/-- Hypotheses of C04: a column over `ℚ` with a missing cell, 3 distinct values and 4 bins. -/
example : nDistinct [some (3 : ℚ), none, some 1, some 3, some 2] ≤ 4 ∧
    ∀ y, some y ∈ [some (3 : ℚ), none, some 1, some 3, some 2] → y ≤ 1000 := by
  refine ⟨by decide, ?_⟩
  intro y hy
  simp at hy
  rcases hy with rfl | rfl | rfl | rfl <;> norm_num

/-- C04, effect of the clip: above `cap` two different values can share a bin, so the bound on the
values in `C04_thresholds` is needed. -/
theorem C04_clip_merges : ∃ (col : List (Option ℚ)) (thr : List ℚ),
    findBinningThresholds 10 col 5 = .ok thr ∧ nDistinct col ≤ 5 ∧
    some 20 ∈ col ∧ some 30 ∈ col ∧ binValue thr 0 (some 20) = binValue thr 0 (some 30) := by
  obtain ⟨thr, h1, h2, h3, h4, h5⟩ :=
    findBinningThresholds_spec (K := ℚ) 10 [some 20, some 30] 5 (by norm_num)
  have hlen : thr.length = 1 := by rw [h4]; decide
  refine ⟨[some 20, some 30], thr, h1, by decide, by simp, by simp, ?_⟩
  obtain ⟨i, hi, hbi⟩ := binValue_some thr h2 0 20
  obtain ⟨j, hj, hbj⟩ := binValue_some thr h2 0 30
  have h1' : ∀ x : ℚ, 10 < x → IsBin thr x 1 := by
    intro x hx
    refine ⟨by omega, ?_, ?_⟩
    · intro t ht; rw [List.getElem?_eq_none (by omega)] at ht; cases ht
    · intro j t hj ht
      exact lt_of_le_of_lt (h3 t (List.mem_of_getElem? ht)) hx
  rw [hi, hj, isBin_unique thr h2 20 hbi (h1' 20 (by norm_num)),
    isBin_unique thr h2 30 hbj (h1' 30 (by norm_num))]

end Verif
