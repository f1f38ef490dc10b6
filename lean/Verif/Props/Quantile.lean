import Verif.Proofs.Quantile
import Verif.Props.Encoder

/-! # C87: the bins of a continuous column are balanced -/
namespace Verif
open Spec

section
variable {K : Type} [LinearOrder K] [Field K] [IsStrictOrderedRing K]

/-- **C87** The bins that are learnt from a column with more than `max_bins` distinct values are balanced in that column. Apart from the repetitions of a
single value, no bin gets more than its share of the `n` rows without missing values, `(n - 1) / max_bins + 1` (rounded down); and when no value is
repeated, every bin gets this number of rows, or one less. -/
theorem C87_bins {cap : K} {col : List (Option K)} {m missing : Nat} (hm : 1 ≤ m) (hd : m < nDistinct col) (hcap : ∀ y, some y ∈ col → y ≤ cap) (hmiss : m ≤ missing) :
    ∃ thr bins, findBinningThresholds cap col m = .ok thr ∧ binContinuousColumn col thr missing = .ok bins ∧ ∀ b < m,
      (∃ v, ((cellsIn col bins b).filter (· ≠ some v)).length ≤ ((col.filterMap id).length - 1) / m + 1) ∧
      ((col.filterMap id).Nodup → ((col.filterMap id).length - 1) / m ≤ (cellsIn col bins b).length ∧
        (cellsIn col bins b).length ≤ ((col.filterMap id).length - 1) / m + 1) := by
  obtain ⟨thr, h, hs, -⟩ := findBinningThresholds_spec cap col m hm
  let g : Option K → Nat := fun c => match c with
    | none => missing
    | some x => (binValue_some thr hs missing x).choose
  have hg : ∀ x, IsBin thr x (g (some x)) := fun x => (binValue_some thr hs missing x).choose_spec.2
  have hbins : binContinuousColumn col thr missing = .ok (col.map g) := by
    apply mapM_ok_of
    intro c _
    cases c with
    | none => rfl
    | some x => exact (binValue_some thr hs missing x).choose_spec.1
  refine ⟨thr, _, h, hbins, fun b hb => ?_⟩
  rw [cellsIn_map]
  obtain ⟨⟨v, h1⟩, h2⟩ := balanced_countP hm hd hcap h (g := g) hmiss (fun x _ => hg x) hb
  refine ⟨⟨v, ?_⟩, fun hn => ?_⟩
  · rw [← List.countP_eq_length_filter, List.countP_filter]
    refine le_trans (le_of_eq (List.countP_congr fun c _ => ?_)) h1
    simp [and_comm]
  · rw [← List.countP_eq_length_filter]
    exact h2 hn

variable {V N : Type} [DecidableEq V] [DecidableEq N] {cv : Conv V K} {cfg : EncCfg K} {enc : List (FitCol V K)}

/-- **C87** An encoder that was fitted on all the rows of a dataframe or a numerical array distributes these rows evenly over the bins of every continuous
column with more than `max_bins` distinct values. -/
theorem C87_encoder {n : Nat} {D : Dataset N V} (hD : GoodInput n D) (hk : ∀ kind X, D = .array kind X → kind = .uif)
    (hfit : encoderFit cv cfg none D = .ok enc) (hm : 1 ≤ cfg.maxBins) (h63 : ∀ fc ∈ enc, fc.nBins < 2 ^ 63) (hn : 0 < n)
    {g : Nat → Word} {B : FBA} (hB : encoderTransform cv cfg enc g n D = .ok B) {j : Nat} {thr : List K} (hj : enc[j]? = some (.num thr))
    (hcap : ∀ y, some y ∈ numbersOf cv.toFloat D n j → y ≤ cfg.cap) (hd : cfg.maxBins < nDistinct (numbersOf cv.toFloat D n j)) :
    ∀ k < cfg.maxBins,
      (∃ v, ((rowsIn B n j k).filter fun i => (numbersOf cv.toFloat D n j)[i]? ≠ some (some v)).length ≤
        (((numbersOf cv.toFloat D n j).filterMap id).length - 1) / cfg.maxBins + 1) ∧
      (((numbersOf cv.toFloat D n j).filterMap id).Nodup →
        (((numbersOf cv.toFloat D n j).filterMap id).length - 1) / cfg.maxBins ≤ (rowsIn B n j k).length ∧
        (rowsIn B n j k).length ≤ (((numbersOf cv.toFloat D n j).filterMap id).length - 1) / cfg.maxBins + 1) := by
  intro k hk'
  have hF : FittedOn cv cfg D enc := by
    refine ⟨none, hfit, ?_⟩
    cases D with
    | frame X => exact ⟨n, hD.2⟩
    | array kind X =>
      have := hk kind X rfl
      subst this
      simp
  obtain ⟨hthr, hc⟩ := numbersOf_fit hD hfit hj
  have hl : cfg.maxBins ≤ thr.length + 1 := (thresholds_length hm hcap hd hthr).ge
  have hnum : numOf cv D = cv.toFloat := by
    cases D with
    | frame X => rfl
    | array kind X =>
      have := hk kind X rfl
      subst this
      rfl
  have hcell := ((C06_transform_correct hF hm h63 hn hD g).2 B hB).2
  have hs : thr.Pairwise (· ≤ ·) := (encoderFit_ok hm hF).2.1 _ (List.mem_of_getElem? hj)
  let γ : Option K → Nat := fun c => match c with
    | none => thr.length + 1
    | some x => (binValue_some thr hs (thr.length + 1) x).choose
  have hγ : ∀ x, IsBin thr x (γ (some x)) := fun x => (binValue_some thr hs (thr.length + 1) x).choose_spec.2
  obtain ⟨⟨v, h1⟩, h2⟩ := balanced_countP hm hd hcap hthr (g := γ) hl (fun x _ => hγ x) hk'
  have hval : ∀ i < n, B.getValue i j = .ok (γ ((cell D i j).join.bind cv.toFloat)) := by
    intro i hi
    obtain ⟨c, hci⟩ := hc i hi
    obtain ⟨fc, w, hfc, hw, he, -⟩ := hcell i j c hci
    rw [hj] at hfc
    cases hfc
    rw [hw, hci]
    congr 1
    rw [hnum] at he
    cases c with
    | none => exact he
    | some v =>
      obtain ⟨x, hx, hb⟩ := he
      show w = γ (cv.toFloat v)
      rw [hx]
      exact isBin_unique thr hs x hb (hγ x)
  refine ⟨⟨v, ?_⟩, fun hnd => ?_⟩
  · refine le_trans (le_of_eq ?_) h1
    rw [rowsIn, ← List.countP_eq_length_filter, List.countP_filter]
    unfold numbersOf
    rw [List.countP_map]
    refine List.countP_congr fun i hi => ?_
    rw [List.mem_range] at hi
    simp [hval i hi, hi, and_comm]
  · rw [rowsIn, ← List.countP_eq_length_filter]
    refine (show (List.range n).countP _ = (numbersOf cv.toFloat D n j).countP (fun c => decide (γ c = k)) from ?_) ▸ h2 hnd
    unfold numbersOf
    rw [List.countP_map]
    refine List.countP_congr fun i hi => ?_
    rw [List.mem_range] at hi
    simp [hval i hi]

end

/-- Eleven values, ten of them distinct, a missing cell, and three bins: the hypotheses of the first theorem hold, and no bin gets more than four cells apart
from the repetitions of one value. -/
example : ∃ thr bins, findBinningThresholds (1000 : ℚ) ([4, 4, 7, 1, 9, 12, 20, 3, 8, 2, 5].map some ++ [none]) 3 = .ok thr ∧
    binContinuousColumn ([4, 4, 7, 1, 9, 12, 20, 3, 8, 2, 5].map some ++ [none]) thr 3 = .ok bins ∧
    ∀ b < 3, ∃ v : ℚ, ((cellsIn ([4, 4, 7, 1, 9, 12, 20, 3, 8, 2, 5].map some ++ [none]) bins b).filter (· ≠ some v)).length ≤ 4 := by
  obtain ⟨thr, bins, h1, h2, h3⟩ := C87_bins (K := ℚ) (cap := 1000) (col := [4, 4, 7, 1, 9, 12, 20, 3, 8, 2, 5].map some ++ [none]) (m := 3) (missing := 3)
    (by norm_num) (by decide +kernel) (by
      intro y hy
      simp at hy
      rcases hy with rfl | rfl | rfl | rfl | rfl | rfl | rfl | rfl | rfl | rfl <;> norm_num) le_rfl
  exact ⟨thr, bins, h1, h2, fun b hb => (h3 b hb).1⟩

/-- An array with one numerical column of eight distinct numbers and a missing cell, on which all the hypotheses of the second theorem hold: with five bins, every bin gets one or two rows. -/
example : ∃ enc B, encoderFit exConv (exCfg (some [false])) none (.array .uif [[some 7, some 1, none, some 30, some 2, some 5, some 9, some 4, some 11]] : Dataset String Nat) = .ok enc ∧
    encoderTransform exConv (exCfg (some [false])) enc (fun _ => 0) 9 (.array .uif [[some 7, some 1, none, some 30, some 2, some 5, some 9, some 4, some 11]] : Dataset String Nat) = .ok B ∧
    ∀ k < 5, 1 ≤ (rowsIn B 9 0 k).length ∧ (rowsIn B 9 0 k).length ≤ 2 := by
  obtain ⟨thr, h1, h2, -⟩ := findBinningThresholds_spec (K := ℚ) 1000 [some 7, some 1, none, some 30, some 2, some 5, some 9, some 4, some 11] 5 (by norm_num)
  have hfit : encoderFit exConv (exCfg (some [false])) none (.array .uif [[some 7, some 1, none, some 30, some 2, some 5, some 9, some 4, some 11]] : Dataset String Nat) = .ok [.num thr] := by
    simp [encoderFit, fitArray, exCfg, List.range_succ, fitArrayCol, declared, rd, arrayColCategorical, exConv, takeSubset, toFloats]
    rw [h1]
    rfl
  have hD : GoodInput 9 (.array .uif [[some 7, some 1, none, some 30, some 2, some 5, some 9, some 4, some 11]] : Dataset String Nat) := by
    simp [GoodInput]
  have hcap : ∀ y, some y ∈ numbersOf exConv.toFloat (.array .uif [[some 7, some 1, none, some 30, some 2, some 5, some 9, some 4, some 11]] : Dataset String Nat) 9 0 → y ≤ (1000 : ℚ) := by
    intro y hy
    simp [numbersOf, List.range_succ, cell, exConv] at hy
    rcases hy with rfl | rfl | rfl | rfl | rfl | rfl | rfl | rfl <;> norm_num
  have hd : 5 < nDistinct (numbersOf exConv.toFloat (.array .uif [[some 7, some 1, none, some 30, some 2, some 5, some 9, some 4, some 11]] : Dataset String Nat) 9 0) := by
    decide +kernel
  have hn : ((numbersOf exConv.toFloat (.array .uif [[some 7, some 1, none, some 30, some 2, some 5, some 9, some 4, some 11]] : Dataset String Nat) 9 0).filterMap id).Nodup := by
    decide +kernel
  have hlen : (((numbersOf exConv.toFloat (.array .uif [[some 7, some 1, none, some 30, some 2, some 5, some 9, some 4, some 11]] : Dataset String Nat) 9 0).filterMap id).length - 1) / 5 = 1 := by
    decide +kernel
  have ht : thr.length + 1 = 5 := thresholds_length (by norm_num) hcap hd (numbersOf_fit hD hfit (j := 0) rfl).1
  have h63 : ∀ fc ∈ [(.num thr : FitCol Nat ℚ)], fc.nBins < 2 ^ 63 := by
    intro fc hfc
    simp at hfc
    subst hfc
    simp [FitCol.nBins]
    omega
  obtain ⟨B, hB⟩ := (C06_transform_correct ⟨none, hfit, by simp⟩ (by simp [exCfg]) h63 (by norm_num) hD (fun _ => 0)).1
    ⟨rfl, by intro i j v thr _ _; rfl, by simp, by simp [exCfg]⟩
  refine ⟨_, B, hfit, hB, fun k hk => ?_⟩
  have := (C87_encoder hD (by intro kind X h; cases h; rfl) hfit (by simp [exCfg]) h63 (by norm_num) hB (j := 0) rfl hcap hd k hk).2 hn
  change _ / 5 ≤ _ ∧ _ ≤ _ / 5 + 1 at this
  rw [hlen] at this
  exact this

end Verif
