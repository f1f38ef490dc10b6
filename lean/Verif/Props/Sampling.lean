import Verif.Proofs.Sampling
import Mathlib.Algebra.Order.Field.Basic
import Mathlib.Algebra.Order.Floor.Semiring
import Mathlib.Tactic.Linarith
import Mathlib.Data.Rat.Floor

/-! # C12-C15: feature subsampling and bootstrap -/
namespace Verif

open Spec

/-- C12. The number of features is in range whenever `fit` gets one, for every value that the setter accepts; otherwise
`fit` raises ValueError, which happens exactly for integers above the number of features and for NaN. -/
theorem C12_max_features {K : Type} [Field K] [LinearOrder K] [IsStrictOrderedRing K] [FloorSemiring K]
    (val mf : MaxFeatures K) (n : Nat) (hn : 1 ≤ n) (hset : setMaxFeatures val = .ok mf) :
    (∃ k, getMaxFeatures mf n = .ok k ∧ 1 ≤ k ∧ k ≤ n) ∨
    (getMaxFeatures mf n = .error .valueError ∧ ((∃ i : Int, val = .int i ∧ n < i) ∨ val = .float none)) := by
  cases val with
  | none =>
    injection hset with h; subst h
    exact Or.inl ⟨n, rfl, hn, le_refl n⟩
  | str s =>
    simp only [setMaxFeatures] at hset
    split at hset
    · rename_i hs
      injection hset with h; subst h
      left
      have hsq : Nat.sqrt n ≤ n := Nat.sqrt_le_self n
      have hlog : Nat.log 2 n ≤ n := Nat.log_le_self 2 n
      rcases hs with rfl | rfl | rfl <;> simp only [getMaxFeatures] <;> simp <;> omega
    · cases hset
  | int i =>
    simp only [setMaxFeatures] at hset
    split at hset
    · cases hset
    · injection hset with h; subst h
      simp only [getMaxFeatures]
      split
      · rename_i h
        right; exact ⟨rfl, Or.inl ⟨i, rfl, h⟩⟩
      · left; exact ⟨_, rfl, by omega, by omega⟩
  | float x =>
    cases x with
    | none =>
      injection hset with h; subst h
      right; exact ⟨rfl, Or.inr rfl⟩
    | some x =>
      simp only [setMaxFeatures] at hset
      split at hset
      · cases hset
      · rename_i h
        injection hset with h'; subst h'
        left
        simp only [getMaxFeatures, if_neg h]
        push Not at h
        refine ⟨_, rfl, le_max_left _ _, max_le hn ?_⟩
        have : x * n ≤ n := by
          have hn0 : (0 : K) ≤ n := Nat.cast_nonneg n
          nlinarith [h.1]
        exact (Nat.floor_le_floor this).trans (by simp)
  | other => cases hset

example : setMaxFeatures (K := ℚ) (.float (some (1 / 3))) = .ok (.float (some (1 / 3))) ∧ 1 ≤ 7 := by
  refine ⟨?_, by norm_num⟩
  simp only [setMaxFeatures]
  rw [if_neg (by norm_num)]

/-- C13, soundness: whatever the generator and the previous content of the arrays, the drawn features are `k` distinct
valid columns. No out-of-bounds access takes place. -/
theorem C13_distinct_features {G : Type} (R : Rng G) (g : G) (pool out : List Nat) (h : out.length ≤ pool.length) :
    ∃ pool' out' g', sampleWithoutReplacement R g pool out = .ok (pool', out', g') ∧
      pool'.length = pool.length ∧ IsSample pool.length out.length out' := by
  obtain ⟨p, o, g', h1, h2⟩ := swr_spec R g h
  exact ⟨p, o, g', h1, h2.1, swrInv_sample h2⟩

example : ([9, 9] : List Nat).length ≤ ([5, 5, 5] : List Nat).length := by decide

/-- C13, completeness: every sample without replacement, in every order, comes out for some draws. -/
theorem C13_every_sample_possible (pool out target : List Nat) (h : out.length ≤ pool.length)
    (ht : IsSample pool.length out.length target) :
    ∃ (G : Type) (R : Rng G) (g : G) (pool' : List Nat) (g' : G),
      sampleWithoutReplacement R g pool out = .ok (pool', target, g') := by
  obtain ⟨draws, p, g', h⟩ := swr_reach h ht
  exact ⟨_, replay, draws, p, g', h⟩

example : IsSample 4 2 [3, 1] := by unfold IsSample; decide

/-- C14. Whenever the bootstrap returns, it returns a partition, for every generator and seed; the training rows are the
rows drawn with some seed, with their multiplicities. -/
theorem C14_bootstrap_partition (n : Nat) (draw : Nat → List Nat) (hd : DrawsOK n draw) (depth seed : Nat) (b : Boot)
    (h : generateTrainValid draw n depth seed = .ok b) :
    IsPartition n b ∧
    ∃ s, (∀ i, i ∈ b.train ↔ i ∈ draw s) ∧ b.trainCount = b.train.map (draw s).count := by
  obtain ⟨h1, s, h2⟩ := genTV_ok hd depth seed b h
  exact ⟨h1, s, fun i => (h2 i).1, (h2 0).2⟩

example : DrawsOK 3 (fun _ => [2, 0, 2]) ∧
    generateTrainValid (fun _ => [2, 0, 2]) 3 5 42 = .ok { train := [0, 2], valid := [1], trainCount := [1, 2] } := by
  refine ⟨?_, by decide⟩
  intro s; simp

/-- C15: the bootstrap returns exactly when one of the seeds that it tries leaves a row out. -/
theorem C15_returns_iff (n : Nat) (draw : Nat → List Nat) (depth seed : Nat) :
    (∃ b, generateTrainValid draw n depth seed = .ok b) ↔
      ∃ k < depth, ∃ i < n, i ∉ draw ((fun s => (s + 1) % (2 ^ 32 - 1))^[k] seed) := by
  induction depth generalizing seed with
  | zero => simp [generateTrainValid]
  | succ depth ih =>
    rw [genTV_step]
    by_cases hall : ∀ i < n, i ∈ draw seed
    · rw [if_pos hall, ih]
      constructor
      · rintro ⟨k, hk, h⟩; exact ⟨k + 1, by omega, by simpa using h⟩
      · rintro ⟨k, hk, i, hi, hn⟩
        cases k with
        | zero => exact absurd (hall i hi) hn
        | succ k => exact ⟨k, by omega, i, hi, by simpa using hn⟩
    · rw [if_neg hall]
      push Not at hall
      constructor
      · intro _
        obtain ⟨i, hi, hn⟩ := hall
        exact ⟨0, by omega, i, hi, hn⟩
      · intro _; exact ⟨_, rfl⟩

/-- C15 for at least two rows: there are draws with which the bootstrap returns at the first call.
Missing (see `C15_violated_one_row`): one row. -/
theorem C15_bootstrap_returns_partial (n : Nat) (hn : 2 ≤ n) :
    ∃ draw, DrawsOK n draw ∧ ∀ depth seed, ∃ b, generateTrainValid draw n (depth + 1) seed = .ok b := by
  refine ⟨fun _ => List.replicate n 0, ?_, ?_⟩
  · intro s; simp; omega
  · intro depth seed
    rw [C15_returns_iff]
    refine ⟨0, by omega, 1, by omega, ?_⟩
    simp

example : 2 ≤ 2 := le_refl 2

/-- C15 is violated for one row: whatever the generator, the seed and the recursion limit, `fit` ends in RecursionError. -/
theorem C15_violated_one_row (draw : Nat → List Nat) (hd : DrawsOK 1 draw) (depth seed : Nat) :
    generateTrainValid draw 1 depth seed = .error .recursionError := by
  induction depth generalizing seed with
  | zero => rfl
  | succ depth ih =>
    rw [genTV_step, if_pos, ih]
    intro i hi
    obtain ⟨h1, h2⟩ := hd seed
    obtain ⟨x, hx⟩ := List.length_eq_one_iff.1 h1
    rw [hx] at h2 ⊢
    have := h2 x (by simp)
    simp; omega

example : DrawsOK 1 (fun _ => [0]) := by intro s; simp

end Verif
