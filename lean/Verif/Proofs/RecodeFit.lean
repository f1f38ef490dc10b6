import Verif.Proofs.Recode

/-! # `fit` of the encoder on a transformed dataset -/
namespace Verif

open Spec

set_option linter.unusedSectionVars false

section
variable {V K : Type} [DecidableEq V] [LinearOrder K] [Field K] [IsStrictOrderedRing K]

/-- The last lines of `fitSeries` and `fitArrayCol`. -/
def fitTail (cv : Conv V K) (cfg : EncCfg K) (e : Err) (subset : Option (List Nat)) (cells : List (Option V)) : M (FitCol V K) := do
  let cells ← takeSubset subset cells
  let xs ← toFloats cv.toFloat e cells
  let thr ← findBinningThresholds cfg.cap xs cfg.maxBins
  return .num thr

/-- What the cells of a transformed column satisfy. -/
structure CellsChange (cv : Conv V K) (cap : K) (cells : List (Option V)) (g : V → V) (φ : K → K) : Prop where
  number : ∀ v, some v ∈ cells → ∃ x, cv.toFloat v = some x ∧ x ≤ cap ∧ φ x ≤ cap ∧ cv.toFloat (g v) = some (φ x)
  mono : ∀ v w x y, some v ∈ cells → some w ∈ cells → cv.toFloat v = some x → cv.toFloat w = some y → x < y → φ x < φ y
  inj : ∀ v w, some v ∈ cells → some w ∈ cells → g v = g w → v = w

/-- How the thresholds of a column and of the transformed column compare. -/
def ThrRel (cv : Conv V K) (subset : Option (List Nat)) (cells : List (Option V)) (φ : K → K) (thr thr' : List K) : Prop :=
  (∃ hl : thr'.length = thr.length, subset = none → ∀ v x, some v ∈ cells → cv.toFloat v = some x →
    ∀ i (hi : i < thr.length), (φ x ≤ thr'[i]'(hl ▸ hi) ↔ x ≤ thr[i])) ∧
  ((∀ a b, φ ((a + b) / 2) = (φ a + φ b) / 2) → thr' = thr.map φ)

theorem toFloats_mem {f : V → Option K} {e : Err} {cells : List (Option V)} {xs : List (Option K)} (h : toFloats f e cells = .ok xs) :
    (∀ x, some x ∈ xs → ∃ v, some v ∈ cells ∧ f v = some x) ∧ (∀ v x, some v ∈ cells → f v = some x → some x ∈ xs) := by
  have H := toFloats_ok h
  clear h
  induction H with
  | nil => simp
  | cons hc _ ih =>
    obtain ⟨ih1, ih2⟩ := ih
    refine ⟨?_, ?_⟩
    · intro x hx
      rcases List.mem_cons.1 hx with hx | hx
      · rcases hc with ⟨_, h2⟩ | ⟨v, y, h1, h2, h3⟩
        · rw [h2] at hx; cases hx
        · rw [h2] at hx; cases hx
          exact ⟨v, by simp [h1], h3⟩
      · obtain ⟨v, h1, h2⟩ := ih1 x hx
        exact ⟨v, by simp [h1], h2⟩
    · intro v x hv hf
      rcases List.mem_cons.1 hv with hv | hv
      · rcases hc with ⟨h1, _⟩ | ⟨w, y, h1, h2, h3⟩
        · rw [h1] at hv; cases hv
        · rw [h1] at hv; cases hv
          rw [hf] at h3; cases h3
          simp [h2]
      · exact List.mem_cons_of_mem _ (ih2 v x hv hf)

theorem fitTail_same {cv : Conv V K} {cfg : EncCfg K} {e : Err} {subset : Option (List Nat)} {cells : List (Option V)} {g : V → V} {φ : K → K}
    (hm : 1 ≤ cfg.maxBins) (hc : CellsChange cv cfg.cap cells g φ) {fc : FitCol V K} (h : fitTail cv cfg e subset cells = .ok fc) :
    ∃ thr thr', fc = .num thr ∧ fitTail cv cfg e subset (cells.map (Option.map g)) = .ok (.num thr') ∧ ThrRel cv subset cells φ thr thr' := by
  unfold fitTail at h
  rw [bind_eq_ok] at h
  obtain ⟨cells1, h1, h⟩ := h
  rw [bind_eq_ok] at h
  obtain ⟨xs, h2, h⟩ := h
  rw [bind_eq_ok] at h
  obtain ⟨thr, h3, h⟩ := h
  cases h
  obtain ⟨h1', hsub⟩ := takeSubset_map (g := g) h1
  have h2' := toFloats_map (g := g) (φ := φ) (fun v hv => by
    obtain ⟨x, hx, _, _, hx'⟩ := hc.number v (hsub _ hv)
    rw [hx, hx']; rfl) h2
  obtain ⟨m1, m2⟩ := toFloats_mem h2
  obtain ⟨thr', h3', ⟨hl, hcmp⟩, haff⟩ := thresholds_same hm (φ := φ)
    (fun x y hx hy hxy => by
      obtain ⟨v, hv, hvx⟩ := m1 x hx
      obtain ⟨w, hw, hwy⟩ := m1 y hy
      exact hc.mono v w x y (hsub _ hv) (hsub _ hw) hvx hwy hxy)
    (fun x hx => by
      obtain ⟨v, hv, hvx⟩ := m1 x hx
      obtain ⟨x', hx', h, _⟩ := hc.number v (hsub _ hv)
      rw [hvx] at hx'; cases hx'; exact h)
    (fun x hx => by
      obtain ⟨v, hv, hvx⟩ := m1 x hx
      obtain ⟨x', hx', _, h, _⟩ := hc.number v (hsub _ hv)
      rw [hvx] at hx'; cases hx'; exact h) h3
  refine ⟨thr, thr', rfl, ?_, ⟨hl, ?_⟩, haff⟩
  · unfold fitTail
    rw [h1']; simp only [bind_ok, h2', h3']
    rfl
  · intro hs v x hv hx
    subst hs
    cases h1
    exact hcmp x (m2 v x hv hx)

theorem nunique_same {cells : List (Option V)} {g : V → V} (hg : ∀ v w, some v ∈ cells → some w ∈ cells → g v = g w → v = w) :
    ((cells.map (Option.map g)).filterMap id).dedup.length = (cells.filterMap id).dedup.length ∧
    (cells.map (Option.map g)).dedup.length = cells.dedup.length := by
  constructor
  · have : (cells.map (Option.map g)).filterMap id = (cells.filterMap id).map g := by
      rw [List.filterMap_map, List.map_filterMap]
      congr 1
    rw [this]
    refine dedup_map_length_on fun a ha b hb hab => hg a b ?_ ?_ hab
    · simpa using ha
    · simpa using hb
  · refine dedup_map_length_on fun a ha b hb hab => ?_
    cases a with
    | none => cases b with
      | none => rfl
      | some b => cases hab
    | some a => cases b with
      | none => cases hab
      | some b => simp only [Option.map_some, Option.some.injEq] at hab; rw [hg a b ha hb hab]

theorem fitSeries_same {cv : Conv V K} {cfg : EncCfg K} {subset : Option (List Nat)} {j : Nat} {s : Series V} {g : V → V} {φ : K → K}
    (hm : 1 ≤ cfg.maxBins) (hc : CellsChange cv cfg.cap s.cells g φ) {fc : FitCol V K}
    (hfc : ∀ cs, fc ≠ .cat cs) (h : fitSeries cv cfg subset j s = .ok fc) :
    ∃ thr thr', fc = .num thr ∧ fitSeries cv cfg subset j { s with cells := s.cells.map (Option.map g) } = .ok (.num thr') ∧
      ThrRel cv subset s.cells φ thr thr' := by
  unfold fitSeries at h ⊢
  rw [bind_eq_ok] at h
  obtain ⟨d, hd, h⟩ := h
  rw [bind_eq_ok] at h
  obtain ⟨t, ht, h⟩ := h
  rw [hd]
  simp only [bind_ok, (nunique_same hc.inj).1]
  rw [ht]
  simp only [bind_ok]
  cases t with
  | isCategory => cases h; exact absurd rfl (hfc _)
  | toCategory => cases h; exact absurd rfl (hfc _)
  | numerical => exact fitTail_same (e := .typeError) hm hc h

theorem fitArrayCol_same {cv : Conv V K} {cfg : EncCfg K} {subset : Option (List Nat)} {j : Nat} {cells : List (Option V)} {g : V → V} {φ : K → K}
    (hm : 1 ≤ cfg.maxBins) (hc : CellsChange cv cfg.cap cells g φ) {fc : FitCol V K}
    (hfc : ∀ cs, fc ≠ .cat cs) (h : fitArrayCol cv cfg subset .uif j cells = .ok fc) :
    ∃ thr thr', fc = .num thr ∧ fitArrayCol cv cfg subset .uif j (cells.map (Option.map g)) = .ok (.num thr') ∧
      ThrRel cv subset cells φ thr thr' := by
  unfold fitArrayCol at h ⊢
  rw [bind_eq_ok] at h
  obtain ⟨d, hd, h⟩ := h
  rw [bind_eq_ok] at h
  obtain ⟨t, ht, h⟩ := h
  rw [hd]
  simp only [bind_ok, (nunique_same hc.inj).2]
  have ht' : ∀ c, arrayColCategorical .uif d cells.dedup.length cfg.catMin c = .ok t := by
    intro c; rw [← ht]; rfl
  rw [ht']
  simp only [bind_ok]
  cases t with
  | true => cases h; exact absurd rfl (hfc _)
  | false => exact fitTail_same (e := .valueError) hm hc h


/-- The cells of a column. -/
def colCells {N : Type} (D : Dataset N V) (j : Nat) : List (Option V) :=
  match D with
  | .frame X => match X[j]? with
    | some p => p.2.cells
    | none => []
  | .array _ X => (X[j]?).getD []

theorem inColumn_iff {N : Type} {D : Dataset N V} {j : Nat} {v : V} : InColumn D j v ↔ some v ∈ colCells D j := by
  unfold InColumn cell colCells
  cases D with
  | frame X =>
    cases hX : X[j]? with
    | none => simp [hX]
    | some p => simp [hX, List.mem_iff_getElem?]
  | array kind X =>
    cases hX : X[j]? with
    | none => simp [hX]
    | some p => simp [hX, List.mem_iff_getElem?]

theorem _root_.Verif.Spec.Increasing.cells {N : Type} {cv : Conv V K} {cap : K} {D : Dataset N V} {j : Nat} {f : V → V} {φ : K → K}
    (h : Increasing cv cap D j f φ) : CellsChange cv cap (colCells D j) f φ :=
  ⟨fun v hv => h.number v (inColumn_iff.2 hv), fun v w x y hv hw => h.mono v w x y (inColumn_iff.2 hv) (inColumn_iff.2 hw),
    fun v w hv hw => h.inj v w (inColumn_iff.2 hv) (inColumn_iff.2 hw)⟩

/-- How two fitted columns compare. -/
def ColRel {N : Type} (cv : Conv V K) (subset : Option (List Nat)) (D : Dataset N V) (j : Nat) (g : V → V) (φ : K → K) (fc fc' : FitCol V K) : Prop :=
  (g = id ∧ fc' = fc) ∨ (g ≠ id ∧ ∃ thr thr', fc = .num thr ∧ fc' = .num thr' ∧ ThrRel cv subset (colCells D j) φ thr thr')

theorem encoderFit_same {N : Type} {cv : Conv V K} {cfg : EncCfg K} {subset : Option (List Nat)} {D : Dataset N V} {ch : Nat → V → V}
    {φ : Nat → K → K} {enc : List (FitCol V K)} (hm : 1 ≤ cfg.maxBins) (hch : ∀ j, ch j = id ∨ Increasing cv cfg.cap D j (ch j) (φ j))
    (hnum : ∀ j, ch j ≠ id → ∀ cs, enc[j]? ≠ some (.cat cs)) (h : encoderFit cv cfg subset D = .ok enc) :
    ∃ enc', encoderFit cv cfg subset (recode ch D) = .ok enc' ∧ enc'.length = enc.length ∧
      ∀ (j : Nat) fc fc', enc[j]? = some fc → enc'[j]? = some fc' → ColRel cv subset D j (ch j) (φ j) fc fc' := by
  cases D with
  | frame X =>
    simp only [encoderFit, recode] at h ⊢
    have h' : ((List.range (X.map Prod.snd).length).zip (X.map Prod.snd)).mapM (fun p => fitSeries cv cfg subset p.1 p.2) = .ok enc := by
      simp only [fitDataFrame] at h
      split at h
      · split at h
        · cases h
        · exact h
      · exact h
    obtain ⟨hl, hf⟩ := fit_mapM h'
    have hlX : enc.length = X.length := by simpa using hl
    set X' := (X.mapIdx fun j p => (p.1, { p.2 with cells := p.2.cells.map (Option.map (ch j)) })).map Prod.snd with hX'
    have hX'l : X'.length = X.length := by simp [hX']
    have hcol : ∀ j (hj : j < X.length), ∃ fc', fitSeries cv cfg subset j (X'[j]'(by omega)) = .ok fc' ∧
        ColRel cv subset (.frame X) j (ch j) (φ j) (enc[j]'(by omega)) fc' := by
      intro j hj
      have hfj := hf j (by simpa using hj)
      simp only [List.getElem_map] at hfj
      have e : X'[j]'(by omega) = { X[j].2 with cells := X[j].2.cells.map (Option.map (ch j)) } := by simp [hX']
      rw [e]
      have hcc : colCells (.frame X : Dataset N V) j = X[j].2.cells := by simp [colCells, hj]
      rcases hch j with hid | hinc
      · refine ⟨enc[j], ?_, Or.inl ⟨hid, rfl⟩⟩
        rw [hid]
        simpa using hfj
      · by_cases hid : ch j = id
        · refine ⟨enc[j], ?_, Or.inl ⟨hid, rfl⟩⟩
          rw [hid]
          simpa using hfj
        · have hcells := hinc.cells
          rw [hcc] at hcells
          obtain ⟨thr, thr', h1, h2, h3⟩ := fitSeries_same hm hcells
            (fun cs hcs => hnum j hid cs (by rw [List.getElem?_eq_getElem (by omega), hcs])) hfj
          exact ⟨_, h2, Or.inr ⟨hid, thr, thr', h1, rfl, by rw [hcc]; exact h3⟩⟩
    obtain ⟨enc', henc'⟩ := mapM_total (f := fun p : Nat × Series V => fitSeries cv cfg subset p.1 p.2) (l := (List.range X'.length).zip X') (by
      intro p hp
      obtain ⟨j, hj, rfl⟩ := List.getElem_of_mem hp
      have hj' : j < X.length := by simp at hj; omega
      obtain ⟨fc', h1, _⟩ := hcol j hj'
      exact ⟨fc', by simpa using h1⟩)
    obtain ⟨hl', hf'⟩ := fit_mapM henc'
    refine ⟨enc', ?_, by omega, ?_⟩
    · simp only [fitDataFrame] at h ⊢
      split at h
      · rename_i m hcat
        split at h
        · cases h
        · rename_i hmX
          rw [if_neg (by rw [hX'l]; simpa using hmX)]
          simpa using henc'
      · simpa using henc'
    · intro j fc fc' hfc hfc'
      obtain ⟨hj, rfl⟩ := List.getElem?_eq_some_iff.1 hfc
      obtain ⟨hj', rfl⟩ := List.getElem?_eq_some_iff.1 hfc'
      obtain ⟨fc'', h1, h2⟩ := hcol j (by omega)
      have := hf' j (by omega)
      rw [this] at h1
      cases h1
      exact h2
  | array kind X =>
    simp only [encoderFit, recode] at h ⊢
    have h' : ((List.range X.length).zip X).mapM (fun p => fitArrayCol cv cfg subset kind p.1 p.2) = .ok enc := by
      simp only [fitArray] at h
      split at h
      · split at h
        · cases h
        · exact h
      · exact h
    obtain ⟨hlX, hf⟩ := fit_mapM h'
    set X' := X.mapIdx fun j c => c.map (Option.map (ch j)) with hX'
    have hX'l : X'.length = X.length := by simp [hX']
    have hcol : ∀ j (hj : j < X.length), ∃ fc', fitArrayCol cv cfg subset kind j (X'[j]'(by omega)) = .ok fc' ∧
        ColRel cv subset (.array kind X : Dataset N V) j (ch j) (φ j) (enc[j]'(by omega)) fc' := by
      intro j hj
      have hfj := hf j hj
      have e : X'[j]'(by omega) = X[j].map (Option.map (ch j)) := by simp [hX']
      rw [e]
      have hcc : colCells (.array kind X : Dataset N V) j = X[j] := by simp [colCells, hj]
      by_cases hid : ch j = id
      · refine ⟨enc[j], ?_, Or.inl ⟨hid, rfl⟩⟩
        rw [hid]
        simpa using hfj
      · have hinc := (hch j).resolve_left hid
        have hcells := hinc.cells
        rw [hcc] at hcells
        have hk : kind = .uif := hinc.dtype
        subst hk
        obtain ⟨thr, thr', h1, h2, h3⟩ := fitArrayCol_same hm hcells
          (fun cs hcs => hnum j hid cs (by rw [List.getElem?_eq_getElem (by omega), hcs])) hfj
        exact ⟨_, h2, Or.inr ⟨hid, thr, thr', h1, rfl, by rw [hcc]; exact h3⟩⟩
    obtain ⟨enc', henc'⟩ := mapM_total (f := fun p : Nat × List (Option V) => fitArrayCol cv cfg subset kind p.1 p.2)
      (l := (List.range X'.length).zip X') (by
        intro p hp
        obtain ⟨j, hj, rfl⟩ := List.getElem_of_mem hp
        have hj' : j < X.length := by simp at hj; omega
        obtain ⟨fc', h1, _⟩ := hcol j hj'
        exact ⟨fc', by simpa using h1⟩)
    obtain ⟨hl', hf'⟩ := fit_mapM henc'
    refine ⟨enc', ?_, by omega, ?_⟩
    · simp only [fitArray] at h ⊢
      split at h
      · rename_i m hcat
        split at h
        · cases h
        · rename_i hmX
          rw [if_neg (by rw [hX'l]; simpa using hmX)]
          simpa using henc'
      · simpa using henc'
    · intro j fc fc' hfc hfc'
      obtain ⟨hj, rfl⟩ := List.getElem?_eq_some_iff.1 hfc
      obtain ⟨hj', rfl⟩ := List.getElem?_eq_some_iff.1 hfc'
      obtain ⟨fc'', h1, h2⟩ := hcol j (by omega)
      have := hf' j (by omega)
      rw [this] at h1
      cases h1
      exact h2

end

end Verif
