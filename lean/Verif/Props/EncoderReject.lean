import Verif.Proofs.EncoderReject
import Verif.Props.Encoder

/-! # C05 and C06, continued: what `transform` accepts, and for which columns it reserves a bin -/
namespace Verif

open Spec

section
variable {V K N N0 : Type} [DecidableEq V] [DecidableEq N] [LinearOrder K] [Field K] [IsStrictOrderedRing K]
variable {cv : Conv V K} {cfg : EncCfg K} {enc : List (FitCol V K)} {D0 : Dataset N0 V}

/-- C06. `transform` succeeds on exactly the acceptable inputs: as many columns as at `fit`, a number in every
non-missing cell of a numerical column, and no unknown category when these are declared an error. In particular a
dataset with more or fewer columns is never encoded. -/
theorem C06_accepts_iff (hfit : FittedOn cv cfg D0 enc) (hm : 1 ≤ cfg.maxBins)
    (h63 : ∀ fc ∈ enc, fc.nBins < 2 ^ 63) {n : Nat} (hn : 0 < n) {D : Dataset N V} (hD : GoodInput n D)
    (g : Nat → Word) :
    (∃ b, encoderTransform cv cfg enc g n D = .ok b) ↔ Acceptable cv cfg enc D := by
  obtain ⟨_, hok, _⟩ := encoderFit_ok hm hfit
  exact ⟨fun ⟨_, hb⟩ => encoderTransform_acceptable hok h63 hn hD hb,
    fun hA => encoderTransform_total g hok h63 hn hD hA⟩

example : FittedOn exConv (exCfg none) exFrame exEnc ∧ 1 ≤ (exCfg none).maxBins ∧ GoodInput 3 exFrame ∧
    Acceptable exConv (exCfg none) exEnc exFrame ∧
    ¬ Acceptable exConv (exCfg none) exEnc
      (.frame [("a", { kind := .bOSU, cells := [some 7, none, some 8] })] : Dataset String Nat) :=
  ⟨exFrame_fitted, by decide, exFrame_ok.1, exFrame_ok.2.2.1, fun h => absurd h.1 (by decide)⟩

/-- C05. The largest bin the encoded dataset has room for in a column: one more than the bins learnt by `fit` when the
column has a missing cell or may take an unknown category, and no more than the learnt bins otherwise. -/
theorem C05_reserved_bin_partial {n : Nat} {D : Dataset N V} (hD : GoodInput n D) {g : Nat → Word} {b : FBA}
    (h : encoderTransform cv cfg enc g n D = .ok b) (j : Nat) (fc : FitCol V K) (hfc : enc[j]? = some fc) :
    ∃ m, b.maxValues[j]? = some m ∧ (NeedsExtraBin D j fc → m = fc.nBins) ∧
      (¬ NeedsExtraBin D j fc → m + 1 = fc.nBins) := by
  obtain ⟨m, h1, h2, h3, _⟩ := encoderTransform_extra hD h j fc hfc
  exact ⟨m, h1, h2, h3⟩

/-- A column that needs the extra bin, and one that does not. -/
example : (∃ b, encoderTransform exConv (exCfg none) exEnc (fun _ => 0) 3 exFrame = .ok b) ∧
    NeedsExtraBin exFrame 0 (.cat [7, 8] : FitCol Nat ℚ) ∧
    ¬ NeedsExtraBin (.array .uif [[some 7, some 8]] : Dataset String Nat) 0 (.cat [7, 8] : FitCol Nat ℚ) := by
  refine ⟨(C06_accepts_iff exFrame_fitted (by decide) exFrame_ok.2.1 (by omega) exFrame_ok.1 _).2 exFrame_ok.2.2.1,
    Or.inl ⟨1, rfl⟩, ?_⟩
  rintro (⟨i, hi⟩ | ⟨cs, v, hc, ⟨c, h1, h2⟩, hn⟩)
  · match i with
    | 0 => simp [cell] at hi
    | 1 => simp [cell] at hi
    | i + 2 => simp [cell] at hi
  · cases hc
    simp at h1
    subst h1
    simp at h2 hn
    omega

end

end Verif
