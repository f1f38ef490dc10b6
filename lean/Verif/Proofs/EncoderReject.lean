import Verif.Spec.EncoderReject
import Verif.Proofs.Encoder

/-! # What a successful `transform` says about its input -/
namespace Verif

open Spec

theorem foldlM_keep {α σ β : Type _} {f : σ → α → M σ} (P : σ → β)
    (hf : ∀ s x s', f s x = .ok s' → P s' = P s) {l : List α} {s s' : σ}
    (h : l.foldlM f s = .ok s') : P s' = P s := by
  induction l generalizing s with
  | nil => cases h; rfl
  | cons x l ih =>
    rw [List.foldlM_cons, bind_eq_ok] at h
    obtain ⟨s1, h1, h2⟩ := h
    rw [ih h2, hf _ _ _ h1]

theorem fillColumn_maxValues {b b' : FBA} {j : Nat} {col : List Nat} (h : b.fillColumn j col = .ok b') :
    b'.maxValues = b.maxValues := by
  unfold FBA.fillColumn at h
  simp only [bind_eq_ok] at h
  obtain ⟨_, _, _, _, _, _, _, _, _, _, _, _, h⟩ := h
  cases h
  rfl

set_option linter.unusedSectionVars false

section
variable {V K : Type} [DecidableEq V] [LinearOrder K] [Field K] [IsStrictOrderedRing K]

/-- The entries of `max_values` after a successful `transform`. -/
theorem encoderTransform_maxValues {N : Type} [DecidableEq N] {cv : Conv V K} {cfg : EncCfg K}
    {enc : List (FitCol V K)} {g : Nat → Word} {n : Nat} {D : Dataset N V} {b : FBA}
    (hD : GoodInput n D) (h : encoderTransform cv cfg enc g n D = .ok b) :
    match D with
    | .frame X => X.length = enc.length ∧ ∀ (j : Nat) fc p, enc[j]? = some fc → X[j]? = some p → ∃ m,
        b.maxValues[j]? = some m ∧
        colMaxValue cfg fc (p.2.cells.any (·.isNone)) (p.2.categories cv) = .ok m
    | .array kind X => kind ≠ .other ∧ X.length = enc.length ∧
        ∀ (j : Nat) fc c, enc[j]? = some fc → X[j]? = some c → ∃ m, b.maxValues[j]? = some m ∧
        colMaxValue cfg fc (c.any (·.isNone)) (cv.catsOf c) = .ok m := by
  cases D with
  | frame X =>
    change transformDataFrame cv cfg enc g n X = .ok b at h
    have hl : X.length = enc.length := by
      by_contra hc
      unfold transformDataFrame at h
      rw [if_pos hc] at h
      cases h
    refine ⟨hl, ?_⟩
    unfold transformDataFrame at h
    rw [if_neg (by simpa using hl), bind_eq_ok] at h
    obtain ⟨mvs, hmvs, h⟩ := h
    obtain ⟨hml, hmv⟩ := mapM_zip_ok hl hmvs
    have hk := foldlM_keep FBA.maxValues (fun s x s' hx => by
      simp only [bind_eq_ok] at hx
      obtain ⟨_, _, _, _, _, _, hx⟩ := hx
      exact fillColumn_maxValues hx) h
    have hk : b.maxValues = mvs := hk
    intro j fc p hfc hp
    obtain ⟨hj, rfl⟩ := List.getElem?_eq_some_iff.1 hfc
    obtain ⟨hj', rfl⟩ := List.getElem?_eq_some_iff.1 hp
    exact ⟨_, by rw [hk, List.getElem?_eq_getElem (by omega)], hmv j hj⟩
  | array kind X =>
    obtain ⟨hX, hmiss⟩ := hD
    change transformArray cv cfg enc g n kind X = .ok b at h
    unfold transformArray at h
    split at h
    · cases h
    rename_i hl
    have hl : X.length = enc.length := by simpa using hl
    split at h
    · cases h
    rename_i hkind
    refine ⟨hkind, hl, ?_⟩
    rw [bind_eq_ok] at h
    obtain ⟨mvs, hmvs, h⟩ := h
    obtain ⟨hml, hmv⟩ := mapM_zip_ok hl hmvs
    have hk := foldlM_keep FBA.maxValues (fun s x s' hx => by
      simp only [bind_eq_ok] at hx
      obtain ⟨_, _, _, _, _, _, hx⟩ := hx
      split at hx
      all_goals
        rw [bind_eq_ok] at hx
        obtain ⟨_, _, hx⟩ := hx
        exact fillColumn_maxValues hx) h
    have hk : b.maxValues = mvs := hk
    intro j fc c hfc hp
    obtain ⟨hj, rfl⟩ := List.getElem?_eq_some_iff.1 hfc
    obtain ⟨hj', rfl⟩ := List.getElem?_eq_some_iff.1 hp
    refine ⟨_, by rw [hk, List.getElem?_eq_getElem (by omega)], ?_⟩
    have hmvj := hmv j hj
    have e : (decide (kind = .uif) && (X[j]).any (·.isNone)) = (X[j]).any (·.isNone) := by
      rcases hmiss with hk | hk
      · simp [hk]
      · have : (X[j]).any (·.isNone) = false := by
          rw [List.any_eq_false]
          intro x hx
          have := hk _ (List.getElem_mem hj')
          cases x with
          | none => exact absurd hx this
          | some v => simp
        rw [this]; simp
    rwa [e] at hmvj

theorem colMaxValue_value {cfg : EncCfg K} {fc : FitCol V K} {hm : Bool} {cats : List V} {m : Nat}
    (h : colMaxValue cfg fc hm cats = .ok m) :
    ((hm = true ∨ ∃ cs v, fc = .cat cs ∧ v ∈ cats ∧ v ∉ cs) → m = fc.nBins) ∧
    (¬ (hm = true ∨ ∃ cs v, fc = .cat cs ∧ v ∈ cats ∧ v ∉ cs) → m + 1 = fc.nBins) ∧
    (cfg.handleUnknownError = true → ∀ cs, fc = .cat cs → ∀ v ∈ cats, v ∈ cs) := by
  cases fc with
  | num thr =>
    simp only [colMaxValue] at h
    have hv := (usub_ok.1 h).2
    refine ⟨?_, ?_, by intro _ cs hc; cases hc⟩
    · rintro (h1 | ⟨cs, v, hc, _⟩)
      · simp [hv, h1, FitCol.nBins]
      · cases hc
    · intro hn
      have : hm = false := by
        cases hm with
        | false => rfl
        | true => exact absurd (Or.inl rfl) hn
      simp [hv, this, FitCol.nBins]
  | cat cs =>
    by_cases hu : ∃ v ∈ cats, v ∉ cs
    · have hany : (cats.any fun v => decide (v ∉ cs)) = true := by
        obtain ⟨v, h1, h2⟩ := hu
        exact List.any_eq_true.2 ⟨v, h1, by simpa using h2⟩
      simp only [colMaxValue, hany, Bool.true_and, Bool.or_true, if_true] at h
      split at h
      · cases h
      rename_i he
      have hv := (usub_ok.1 h).2
      refine ⟨fun _ => by simp [FitCol.nBins, hv], ?_, fun h' => absurd h' (by simpa using he)⟩
      intro hn
      obtain ⟨v, h1, h2⟩ := hu
      exact absurd (Or.inr ⟨cs, v, rfl, h1, h2⟩) hn
    · have hany : (cats.any fun v => decide (v ∉ cs)) = false := by
        rw [List.any_eq_false]
        intro v hv
        simpa using fun hc => hu ⟨v, hv, hc⟩
      simp only [colMaxValue, hany, Bool.false_and, Bool.or_false] at h
      rw [if_neg (by simp)] at h
      obtain ⟨hle, hv⟩ := usub_ok.1 h
      refine ⟨?_, ?_, ?_⟩
      · rintro (h1 | ⟨cs', v, hc, h1, h2⟩)
        · simp [hv, h1, FitCol.nBins]
        · cases hc; exact absurd ⟨v, h1, h2⟩ hu
      · intro hn
        have : hm = false := by
          cases hm with
          | false => rfl
          | true => exact absurd (Or.inl rfl) hn
        subst this
        simp only [Bool.false_eq_true, if_false] at hle hv
        simp only [FitCol.nBins]
        omega
      · intro _ cs' hc v hv
        cases hc
        by_contra hc
        exact hu ⟨v, hv, hc⟩

/-- The extra bin of a column. -/
theorem encoderTransform_extra {N : Type} [DecidableEq N] {cv : Conv V K} {cfg : EncCfg K}
    {enc : List (FitCol V K)} {g : Nat → Word} {n : Nat} {D : Dataset N V} {b : FBA}
    (hD : GoodInput n D) (h : encoderTransform cv cfg enc g n D = .ok b) (j : Nat) (fc : FitCol V K)
    (hfc : enc[j]? = some fc) : ∃ m, b.maxValues[j]? = some m ∧
      (NeedsExtraBin D j fc → m = fc.nBins) ∧ (¬ NeedsExtraBin D j fc → m + 1 = fc.nBins) ∧
      (cfg.handleUnknownError = true → ∀ cs, fc = .cat cs → ∀ v, MayTake D j v → v ∈ cs) := by
  have H := encoderTransform_maxValues hD h
  have hany : ∀ cells : List (Option V),
      (cells.any (·.isNone) = true ↔ ∃ i : Nat, cells[i]? = some none) := by
    intro cells
    rw [List.any_eq_true]
    constructor
    · rintro ⟨x, hx, hn⟩
      obtain ⟨i, hi, rfl⟩ := List.getElem_of_mem hx
      exact ⟨i, by rw [List.getElem?_eq_getElem hi]; simpa using hn⟩
    · rintro ⟨i, hi⟩
      exact ⟨_, List.mem_of_getElem? hi, rfl⟩
  cases D with
  | frame X =>
    obtain ⟨hl, H⟩ := H
    have hj := (List.getElem?_eq_some_iff.1 hfc).1
    have hp : X[j]? = some (X[j]'(by omega)) := List.getElem?_eq_getElem (by omega)
    generalize X[j]'(by omega) = p at hp
    obtain ⟨m, hm, hv⟩ := H j fc p hfc hp
    have htake : ∀ v, MayTake (.frame X) j v ↔ v ∈ p.2.categories cv := by
      intro v
      simp only [MayTake, hp, Option.some.injEq, exists_eq_left', Series.categories]
      split
      · rfl
      · exact (cv.mem_catsOf _ _).symm
    have hneed : NeedsExtraBin (.frame X) j fc ↔
        (p.2.cells.any (·.isNone) = true ∨ ∃ cs v, fc = .cat cs ∧ v ∈ p.2.categories cv ∧ v ∉ cs) := by
      unfold NeedsExtraBin
      simp only [htake, hany, cell, hp, Option.bind_some]
    obtain ⟨h1, h2, h3⟩ := colMaxValue_value hv
    exact ⟨m, hm, fun hc => h1 (hneed.1 hc), fun hc => h2 (fun hc' => hc (hneed.2 hc')),
      fun he cs hcs v hv => h3 he cs hcs v ((htake v).1 hv)⟩
  | array kind X =>
    obtain ⟨_, hl, H⟩ := H
    have hj := (List.getElem?_eq_some_iff.1 hfc).1
    have hp : X[j]? = some (X[j]'(by omega)) := List.getElem?_eq_getElem (by omega)
    generalize X[j]'(by omega) = p at hp
    obtain ⟨m, hm, hv⟩ := H j fc p hfc hp
    have htake : ∀ v, MayTake (.array kind X : Dataset N V) j v ↔ v ∈ cv.catsOf p := by
      intro v
      simp only [MayTake, hp, Option.some.injEq, exists_eq_left']
      exact (cv.mem_catsOf _ _).symm
    have hneed : NeedsExtraBin (.array kind X : Dataset N V) j fc ↔
        (p.any (·.isNone) = true ∨ ∃ cs v, fc = .cat cs ∧ v ∈ cv.catsOf p ∧ v ∉ cs) := by
      unfold NeedsExtraBin
      simp only [htake, hany, cell, hp, Option.bind_some]
    obtain ⟨h1, h2, h3⟩ := colMaxValue_value hv
    exact ⟨m, hm, fun hc => h1 (hneed.1 hc), fun hc => h2 (fun hc' => hc (hneed.2 hc')),
      fun he cs hcs v hv => h3 he cs hcs v ((htake v).1 hv)⟩

/-- `transform` accepts nothing but acceptable input. -/
theorem encoderTransform_acceptable {N : Type} [DecidableEq N] {cv : Conv V K} {cfg : EncCfg K}
    {enc : List (FitCol V K)} {g : Nat → Word} {n : Nat} {D : Dataset N V} {b : FBA}
    (henc : ∀ fc ∈ enc, fc.OK) (h63 : ∀ fc ∈ enc, fc.nBins < 2 ^ 63) (hn : 0 < n)
    (hD : GoodInput n D) (h : encoderTransform cv cfg enc g n D = .ok b) :
    Acceptable cv cfg enc D := by
  obtain ⟨_, _, _, _, hcols, _, hcell⟩ := encoderTransform_ok henc h63 hn hD h
  refine ⟨hcols, ?_, ?_⟩
  · intro i j v thr hj hc
    obtain ⟨_, fc, w, hfc, hb, _⟩ := hcell i j _ hc
    rw [hj] at hfc
    cases hfc
    simp only [cellBin, Option.map_eq_some_iff] at hb
    obtain ⟨x, hx, _⟩ := hb
    rw [hx]; rfl
  · have H := encoderTransform_maxValues hD h
    cases D with
    | frame X =>
      intro he j p cs hp hcs v hv
      obtain ⟨m, _, hm⟩ := H.2 j _ p hcs hp
      exact (colMaxValue_value hm).2.2 he cs rfl v hv
    | array kind X =>
      refine ⟨H.1, ?_⟩
      intro he j c cs hp hcs v hv
      obtain ⟨m, _, hm⟩ := H.2.2 j _ c hcs hp
      exact (colMaxValue_value hm).2.2 he cs rfl v ((cv.mem_catsOf _ _).2 hv)

end

end Verif
