import Verif.Proofs.EstFit

/-! What fitting the encoder does for one column. -/
set_option linter.unusedSectionVars false
namespace Verif

open Spec

section
variable {V K N : Type} [DecidableEq V] [LinearOrder K] [Field K] [IsStrictOrderedRing K]

theorem frame_col {cv : Conv V K} {cfg : EncCfg K} {subset : Option (List Nat)} {X : List (N × Series V)} {enc : List (FitCol V K)}
    (h : encoderFit cv cfg subset (.frame X) = .ok enc) {j : Nat} {p : N × Series V} (hj : X[j]? = some p) :
    ∃ fc, enc[j]? = some fc ∧ fitSeries cv cfg subset j p.2 = .ok fc := by
  have h' : ((List.range (X.map Prod.snd).length).zip (X.map Prod.snd)).mapM
      (fun p => fitSeries cv cfg subset p.1 p.2) = .ok enc := by
    simp only [encoderFit, fitDataFrame] at h
    split at h
    · split at h
      · cases h
      · exact h
    · exact h
  obtain ⟨hl, hf⟩ := fit_mapM h'
  obtain ⟨hjX, rfl⟩ := List.getElem?_eq_some_iff.1 hj
  have hjl : j < (X.map Prod.snd).length := by simpa using hjX
  have := hf j hjl
  rw [List.getElem_map] at this
  exact ⟨_, List.getElem?_eq_getElem (by omega), this⟩

theorem array_col {cv : Conv V K} {cfg : EncCfg K} {subset : Option (List Nat)} {kind : Kind} {X : List (List (Option V))} {enc : List (FitCol V K)}
    (h : encoderFit (N := N) cv cfg subset (.array kind X) = .ok enc) {j : Nat} {c : List (Option V)} (hj : X[j]? = some c) :
    ∃ fc, enc[j]? = some fc ∧ fitArrayCol cv cfg subset kind j c = .ok fc := by
  have h' : ((List.range X.length).zip X).mapM (fun p => fitArrayCol cv cfg subset kind p.1 p.2) = .ok enc := by
    simp only [encoderFit, fitArray] at h
    split at h
    · split at h
      · cases h
      · exact h
    · exact h
  obtain ⟨hl, hf⟩ := fit_mapM h'
  obtain ⟨hjX, rfl⟩ := List.getElem?_eq_some_iff.1 hj
  exact ⟨_, List.getElem?_eq_getElem (by omega), hf j hjX⟩

theorem declared_some {cfg : EncCfg K} {j : Nat} {m : List Bool} {b : Bool} (hc : cfg.isCategorical = some m) (hm : m[j]? = some b) :
    declared cfg j = .ok (some b) := by
  unfold declared
  rw [hc]
  simp only
  rw [rd_ok.2 hm]
  rfl

theorem fitSeries_declared {cv : Conv V K} {cfg : EncCfg K} {subset : Option (List Nat)} {j : Nat} {s : Series V} {fc : FitCol V K}
    (hd : declared cfg j = .ok (some true)) (h : fitSeries cv cfg subset j s = .ok fc) : fc.isCat = true := by
  unfold fitSeries at h
  rw [hd, bind_ok] at h
  rw [bind_eq_ok] at h
  obtain ⟨t, ht, h⟩ := h
  cases t with
  | isCategory => injection h with h; rw [← h]; rfl
  | toCategory => injection h with h; rw [← h]; rfl
  | numerical =>
    exfalso
    unfold isSeriesCategorical at ht
    cases hk : s.kind <;> rw [hk] at ht <;> simp at ht

theorem fitArrayCol_declared {cv : Conv V K} {cfg : EncCfg K} {subset : Option (List Nat)} {kind : Kind} {j : Nat} {c : List (Option V)}
    {fc : FitCol V K} (hd : declared cfg j = .ok (some true)) (h : fitArrayCol cv cfg subset kind j c = .ok fc) : fc.isCat = true := by
  unfold fitArrayCol at h
  rw [hd, bind_ok] at h
  rw [bind_eq_ok] at h
  obtain ⟨t, ht, h⟩ := h
  cases t with
  | true => injection h with h; rw [← h]; rfl
  | false =>
    exfalso
    unfold arrayColCategorical at ht
    cases hk : kind <;> rw [hk] at ht <;> simp at ht

theorem encoderFit_declared {cv : Conv V K} {cfg : EncCfg K} {subset : Option (List Nat)} {X : Dataset N V} {enc : List (FitCol V K)}
    (h : encoderFit cv cfg subset X = .ok enc) {m : List Bool} (hc : cfg.isCategorical = some m) {j : Nat} (hm : m[j]? = some true)
    (hj : j < nCols X) : (enc.map FitCol.isCat)[j]? = some true := by
  cases X with
  | frame X =>
    obtain ⟨fc, h1, h2⟩ := frame_col h (List.getElem?_eq_getElem (by simpa [nCols] using hj))
    rw [List.getElem?_map, h1, Option.map_some, fitSeries_declared (declared_some hc hm) h2]
  | array kind X =>
    obtain ⟨fc, h1, h2⟩ := array_col h (List.getElem?_eq_getElem (by simpa [nCols] using hj))
    rw [List.getElem?_map, h1, Option.map_some, fitArrayCol_declared (declared_some hc hm) h2]

end

end Verif
