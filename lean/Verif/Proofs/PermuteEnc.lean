import Verif.Proofs.Rename
import Verif.Proofs.PermuteEst

set_option linter.unusedSectionVars false

/-! Encodings of the same data with the categories of the encoder listed in another order. -/
namespace Verif.Bins

open Spec

section
variable {V K : Type} [DecidableEq V] [LinearOrder K]

theorem perm_lift {g : V → V} (hg : Function.Injective g) {cs cs' : List V} (h : cs'.Perm (cs.map g)) :
    ∃ cs'' : List V, cs''.Perm cs ∧ cs' = cs''.map g := by
  rcases isEmpty_or_nonempty V with hV | hV
  · obtain rfl : cs = [] := List.eq_nil_iff_forall_not_mem.2 fun v _ => hV.elim v
    obtain rfl : cs' = [] := List.eq_nil_iff_forall_not_mem.2 fun v _ => hV.elim v
    exact ⟨[], .refl _, rfl⟩
  · refine ⟨cs'.map (Function.invFun g), ?_, ?_⟩
    · have := h.map (Function.invFun g)
      rw [List.map_map, Function.invFun_comp hg, List.map_id] at this
      exact this
    · rw [List.map_map]
      conv_lhs => rw [← List.map_id cs']
      refine List.map_congr_left fun v hv => ?_
      obtain ⟨u, -, rfl⟩ := List.mem_map.1 (h.mem_iff.1 hv)
      show g u = g (Function.invFun g (g u))
      rw [Function.leftInverse_invFun hg u]

/-- The same column, up to the order of the categories. -/
def PermCol (fc fc' : FitCol V K) : Prop := fc' = fc ∨ ∃ cs cs', fc = .cat cs ∧ fc' = .cat cs' ∧ cs'.Perm cs

theorem PermCol.isCat {fc fc' : FitCol V K} (h : PermCol fc fc') : fc'.isCat = fc.isCat := by
  rcases h with rfl | ⟨cs, cs', rfl, rfl, -⟩ <;> rfl

theorem PermCol.nBins {fc fc' : FitCol V K} (h : PermCol fc fc') : fc'.nBins = fc.nBins := by
  rcases h with rfl | ⟨cs, cs', rfl, rfl, h⟩
  · rfl
  · exact h.length_eq

theorem PermCol.colMaxValue {fc fc' : FitCol V K} (h : PermCol fc fc') (cfg : EncCfg K) (hm : Bool) (cats : List V) :
    Verif.colMaxValue cfg fc' hm cats = Verif.colMaxValue cfg fc hm cats := by
  rcases h with rfl | ⟨cs, cs', rfl, rfl, h⟩
  · rfl
  · simp only [Verif.colMaxValue, h.mem_iff, h.length_eq]

variable [Field K]

theorem PermCol.ok {fc fc' : FitCol V K} (h : PermCol fc fc') (hfc : fc.OK) : fc'.OK := by
  rcases h with rfl | ⟨cs, cs', rfl, rfl, h⟩
  · exact hfc
  · exact h.nodup_iff.2 hfc

theorem PermCol.binnedCol {fc fc' : FitCol V K} (h : PermCol fc fc') (f : V → Option K) (e : Err) (mv : Nat) (cells : List (Option V)) :
    SameResult (fun _ _ => True) (Verif.binnedCol f e fc mv cells) (Verif.binnedCol f e fc' mv cells) := by
  rcases h with rfl | ⟨cs, cs', rfl, rfl, h⟩
  · exact SameResult.same.mono fun _ _ _ => trivial
  · exact SameResult.ok trivial

/-- The permutation of the bins. -/
theorem PermCol.exists_perm {fc fc' : FitCol V K} (h : PermCol fc fc') (hfc : fc.OK) : ∃ σ : Equiv.Perm Nat,
    (fc.isCat = false → σ = 1) ∧ (∀ N, fc.nBins ≤ N → ∀ b, σ b < N ↔ b < N) ∧
    ∀ (f : V → Option K) c v, cellBin f fc c = some v → cellBin f fc' c = some (σ v) := by
  rcases h with rfl | ⟨cs, cs', rfl, rfl, h⟩
  · exact ⟨1, fun _ => rfl, fun _ _ _ => Iff.rfl, fun _ _ _ h => h⟩
  · have hcs : cs.Nodup := hfc
    have hcs' : cs'.Nodup := h.nodup_iff.2 hcs
    have hl := h.length_eq
    -- place in the second list of the entry at a place of the first list
    have key : ∀ (a b : List V), a.Nodup → b.Nodup → b.Perm a → ∀ i, (if hi : i < a.length then b.idxOf a[i] else i) < a.length ↔ i < a.length := by
      intro a b ha hb hab i
      split
      · rename_i hi
        refine ⟨fun _ => hi, fun _ => ?_⟩
        rw [← hab.length_eq]
        exact List.idxOf_lt_length_iff.2 (hab.mem_iff.2 (List.getElem_mem hi))
      · exact Iff.rfl
    have inv : ∀ (a b : List V), a.Nodup → b.Nodup → b.Perm a → ∀ i,
        (if hi : (if hi : i < a.length then b.idxOf a[i] else i) < b.length then a.idxOf b[if hi : i < a.length then b.idxOf a[i] else i] else
          (if hi : i < a.length then b.idxOf a[i] else i)) = i := by
      intro a b ha hb hab i
      by_cases hi : i < a.length
      · have hm : b.idxOf a[i] < b.length := List.idxOf_lt_length_iff.2 (hab.mem_iff.2 (List.getElem_mem hi))
        simp only [dif_pos hi, dif_pos hm, List.getElem_idxOf]
        exact ha.idxOf_getElem i hi
      · have hi' : ¬i < b.length := by rw [hab.length_eq]; exact hi
        simp only [dif_neg hi, dif_neg hi']
    refine ⟨⟨fun i => if hi : i < cs.length then cs'.idxOf cs[i] else i, fun i => if hi : i < cs'.length then cs.idxOf cs'[i] else i,
      inv cs cs' hcs hcs' h, inv cs' cs hcs' hcs h.symm⟩, fun h' => absurd h' (by simp [FitCol.isCat]), ?_, ?_⟩
    · intro N hN b
      have hN : cs.length ≤ N := hN
      have := key cs cs' hcs hcs' h b
      simp only [Equiv.coe_fn_mk]
      by_cases hb : b < cs.length
      · have := this.2 hb
        constructor <;> intro <;> omega
      · rw [dif_neg hb]
    · intro f c v hv
      cases c with
      | none =>
        simp only [cellBin, Option.some.injEq] at hv ⊢
        simp only [Equiv.coe_fn_mk]
        rw [dif_neg (by omega)]
        omega
      | some x =>
        simp only [cellBin, Option.some.injEq] at hv ⊢
        simp only [Equiv.coe_fn_mk]
        by_cases hx : x ∈ cs
        · rw [if_pos hx] at hv
          subst hv
          rw [if_pos (h.mem_iff.2 hx), dif_pos (List.idxOf_lt_length_iff.2 hx), List.getElem_idxOf]
        · rw [if_neg hx] at hv
          subst hv
          rw [if_neg (fun h' => hx (h.mem_iff.1 h')), dif_neg (by omega), hl]

/-- The same columns, up to the order of the categories. -/
structure PermCols (enc enc' : List (FitCol V K)) : Prop where
  len : enc'.length = enc.length
  col : ∀ (j : Nat) fc fc', enc[j]? = some fc → enc'[j]? = some fc' → PermCol fc fc'

theorem PermCols.get {enc enc' : List (FitCol V K)} (h : PermCols enc enc') {j : Nat} (hj : j < enc.length) : PermCol enc[j] (enc'[j]'(h.len ▸ hj)) :=
  h.col j _ _ (List.getElem?_eq_getElem _) (List.getElem?_eq_getElem _)

theorem PermCols.ok {enc enc' : List (FitCol V K)} (h : PermCols enc enc') (ho : ∀ fc ∈ enc, fc.OK) : ∀ fc ∈ enc', fc.OK := by
  intro fc hfc
  obtain ⟨j, hj, rfl⟩ := List.getElem_of_mem hfc
  have hj' : j < enc.length := by rw [← h.len]; exact hj
  exact (h.get hj').ok (ho _ (List.getElem_mem hj'))

theorem PermCols.nBins {enc enc' : List (FitCol V K)} (h : PermCols enc enc') {m : Nat} (ho : ∀ fc ∈ enc, fc.nBins < m) : ∀ fc ∈ enc', fc.nBins < m := by
  intro fc hfc
  obtain ⟨j, hj, rfl⟩ := List.getElem_of_mem hfc
  have hj' : j < enc.length := by rw [← h.len]; exact hj
  rw [(h.get hj').nBins]
  exact ho _ (List.getElem_mem hj')

theorem PermCols.isCat {enc enc' : List (FitCol V K)} (h : PermCols enc enc') : enc'.map FitCol.isCat = enc.map FitCol.isCat := by
  refine List.ext_getElem (by simp [h.len]) fun j h1 h2 => ?_
  rw [List.length_map] at h2
  simp only [List.getElem_map]
  exact (h.get h2).isCat

theorem mapM_zip_perm {α γ : Type} {enc enc' : List (FitCol V K)} (h : PermCols enc enc') {B : List α} {f : FitCol V K → α → M γ}
    (hf : ∀ fc fc' b, PermCol fc fc' → f fc' b = f fc b) : (enc'.zip B).mapM (fun p => f p.1 p.2) = (enc.zip B).mapM (fun p => f p.1 p.2) := by
  obtain ⟨hl, hc⟩ := h
  induction enc generalizing enc' B with
  | nil =>
    obtain rfl := List.length_eq_zero_iff.1 (show enc'.length = 0 from hl)
    rfl
  | cons fc enc ih =>
    cases enc' with
    | nil => simp at hl
    | cons fc' enc' =>
      cases B with
      | nil => rfl
      | cons b B =>
        simp only [List.zip_cons_cons, List.mapM_cons]
        rw [hf fc fc' b (hc 0 _ _ rfl rfl), ih (by simpa using hl) fun j a b ha hb => hc (j + 1) a b (by simpa using ha) (by simpa using hb)]

/-- Filling in lockstep. -/
theorem fillLoop_perm {f : V → Option K} {e : Err} {enc enc' : List (FitCol V K)} (h : PermCols enc enc') (henc : ∀ fc ∈ enc, fc.OK) {mvs : List Nat}
    {cells : List (List (Option V))} (g : Nat → Word) {n : Nat} (hn : 0 < n) (hml : mvs.length = enc.length) (hcl : cells.length = enc.length)
    (hm63 : ∀ m ∈ mvs, m < 2 ^ 63) (hlen : ∀ c ∈ cells, c.length = n) {cfg : EncCfg K} {cats : List (List V)} (hcc : cats.length = enc.length)
    (hcats : ∀ j (hj : j < enc.length) v, some v ∈ cells[j] → v ∈ cats[j])
    (hmv : ∀ j (hj : j < enc.length), Verif.colMaxValue cfg enc[j] (cells[j].any (·.isNone)) cats[j] = .ok mvs[j]) :
    SameResult (fun b b' => Layout n mvs b ∧ Layout n mvs b') (fillLoop f e enc mvs cells (FBA.init g n mvs)) (fillLoop f e enc' mvs cells (FBA.init g n mvs)) := by
  unfold fillLoop
  rw [h.len]
  refine SameResult.foldlM_mem (fun b b' j hj hb => ?_) ⟨init_layout g n mvs, init_layout g n mvs⟩
  obtain ⟨hb, hb'⟩ := hb
  have hj : j < enc.length := List.mem_range.1 hj
  have hjm : j < mvs.length := by omega
  have hjc : j < cells.length := by omega
  have hj' : j < enc'.length := by rw [h.len]; exact hj
  simp only [rd_of_lt hj, rd_of_lt hjm, rd_of_lt hjc, rd_of_lt hj', bind_ok]
  have hbin := (h.get hj).binnedCol f e mvs[j] cells[j]
  have fits : ∀ {fc : FitCol V K} {col} {b : FBA}, fc.OK → Verif.colMaxValue cfg fc (cells[j].any (·.isNone)) cats[j] = .ok mvs[j] →
      Verif.binnedCol f e fc mvs[j] cells[j] = .ok col → Layout n mvs b → ∃ b2, b.fillColumn j col = .ok b2 ∧ Layout n mvs b2 := by
    intro fc col b hfc hmv hcol hb
    have hs := binnedCol_spec hfc (hcats j hj) hmv hcol
    have hl : cells[j].length = col.length := hs.length_eq
    obtain ⟨b2, h1, h2, -⟩ := fillColumn_spec hb hn j hjm (hm63 _ (List.getElem_mem _)) col (by rw [← hl]; exact hlen _ (List.getElem_mem _)) (by
      intro x hx
      obtain ⟨i, hi, rfl⟩ := List.getElem_of_mem hx
      exact (hs.get (by omega) hi).2)
    exact ⟨b2, h1, h2⟩
  have hOK := henc _ (List.getElem_mem hj)
  cases h1 : Verif.binnedCol f e enc[j] mvs[j] cells[j] with
  | error e1 =>
    cases h2 : Verif.binnedCol f e enc'[j] mvs[j] cells[j] with
    | error e2 => rw [h1, h2] at hbin; exact hbin
    | ok c2 => rw [h1, h2] at hbin; exact hbin.elim
  | ok c1 =>
    cases h2 : Verif.binnedCol f e enc'[j] mvs[j] cells[j] with
    | error e2 => rw [h1, h2] at hbin; exact hbin.elim
    | ok c2 =>
      obtain ⟨b2, g1, g2⟩ := fits hOK (hmv j hj) h1 hb
      obtain ⟨b3, g3, g4⟩ := fits ((h.get hj).ok hOK) (((h.get hj).colMaxValue cfg _ _).trans (hmv j hj)) h2 hb'
      simp only [bind_ok, g1, g3]
      exact SameResult.ok ⟨g2, g4⟩

theorem nBins_le_mv {cfg : EncCfg K} {fc : FitCol V K} {hm : Bool} {cats : List V} {mv : Nat} (h : Verif.colMaxValue cfg fc hm cats = .ok mv) :
    fc.nBins ≤ mv + 1 := by
  cases fc with
  | cat cs =>
    simp only [Verif.colMaxValue] at h
    split at h
    · cases h
    · rw [usub_ok] at h
      simp only [FitCol.nBins]
      obtain ⟨h1, h2⟩ := h
      split at h1 <;> split at h2 <;> omega
  | num thr =>
    simp only [Verif.colMaxValue] at h
    rw [usub_ok] at h
    simp only [FitCol.nBins]
    obtain ⟨h1, h2⟩ := h
    split at h1 <;> split at h2 <;> omega

/-- Encoding in lockstep. -/
theorem transform_layout {N : Type} [DecidableEq N] {cv : Conv V K} {cfg : EncCfg K} {enc enc' : List (FitCol V K)} (h : PermCols enc enc')
    (henc : ∀ fc ∈ enc, fc.OK) (h63 : ∀ fc ∈ enc, fc.nBins < 2 ^ 63) (g : Nat → Word) {n : Nat} (hn : 0 < n) {D : Dataset N V} (hD : GoodInput n D) :
    SameResult (fun b b' => ∃ mvs, Layout n mvs b ∧ Layout n mvs b' ∧ ∀ (j : Nat) fc m, enc[j]? = some fc → mvs[j]? = some m → fc.nBins ≤ m + 1)
      (encoderTransform cv cfg enc g n D) (encoderTransform cv cfg enc' g n D) := by
  cases D with
  | frame X =>
    obtain ⟨hN, hX⟩ := hD
    simp only [encoderTransform]
    by_cases hl : X.length = enc.length
    swap
    · unfold transformDataFrame
      rw [if_pos (by simpa using hl), if_pos (by rw [h.len]; simpa using hl)]
      rfl
    rw [transformDataFrame_eq cv cfg enc g n X hl hN, transformDataFrame_eq cv cfg enc' g n X (by rw [h.len]; exact hl) hN]
    rw [mapM_zip_perm h (f := fun fc (p : N × Series V) => Verif.colMaxValue cfg fc (p.2.cells.any (·.isNone)) (p.2.categories cv)) fun fc fc' b hc => hc.colMaxValue _ _ _]
    cases hmvs : (enc.zip X).mapM (fun p => Verif.colMaxValue cfg p.1 (p.2.2.cells.any (·.isNone)) (p.2.2.categories cv)) with
    | error e => rfl
    | ok mvs =>
      simp only [bind_ok]
      obtain ⟨hml, hmv⟩ := mapM_zip_ok hl hmvs
      refine (fillLoop_perm h henc g hn hml (cells := X.map fun p => p.2.cells) (cats := X.map fun p => p.2.categories cv) (cfg := cfg)
        (by simpa using hl) ?_ ?_ (by simpa using hl) ?_ ?_).mono ?_
      · intro m hm
        obtain ⟨j, hj, rfl⟩ := List.getElem_of_mem hm
        exact lt_of_le_of_lt (colMaxValue_le (hmv j (by omega))) (h63 _ (List.getElem_mem _))
      · intro c hc
        obtain ⟨p, hp, rfl⟩ := List.mem_map.1 hc
        exact (hX p hp).1
      · intro j hj v hv
        have hjX : j < X.length := by omega
        simp only [List.getElem_map] at hv ⊢
        exact mem_categories cv (hX _ (List.getElem_mem hjX)) v hv
      · intro j hj
        simp only [List.getElem_map]
        exact hmv j hj
      · rintro b b' ⟨h1, h2⟩
        refine ⟨mvs, h1, h2, fun j fc m hfc hm => ?_⟩
        obtain ⟨hj, rfl⟩ := List.getElem?_eq_some_iff.1 hfc
        obtain ⟨hj', rfl⟩ := List.getElem?_eq_some_iff.1 hm
        exact nBins_le_mv (hmv j hj)
  | array kind X =>
    obtain ⟨hX, hmiss⟩ := hD
    have hmiss' : ∀ c ∈ X, kind = .uif ∨ none ∉ c := by
      intro c hc; rcases hmiss with h | h
      · left; exact h
      · right; exact h c hc
    simp only [encoderTransform]
    unfold transformArray
    by_cases hl : X.length = enc.length
    swap
    · rw [if_pos (by simpa using hl), if_pos (by rw [h.len]; simpa using hl)]
      rfl
    have hl' : ¬X.length ≠ enc'.length := by rw [h.len]; simpa using hl
    rw [if_neg (not_not.2 hl), if_neg hl']
    by_cases hk : kind = .other
    · rw [if_pos hk, if_pos hk]; rfl
    rw [if_neg hk, if_neg hk]
    rw [mapM_zip_perm h (f := fun fc (c : List (Option V)) => Verif.colMaxValue cfg fc (decide (kind = .uif) && c.any (·.isNone)) (cv.catsOf c)) fun fc fc' b hc => hc.colMaxValue _ _ _]
    cases hmvs : (enc.zip X).mapM (fun p => Verif.colMaxValue cfg p.1 (decide (kind = .uif) && p.2.any (·.isNone)) (cv.catsOf p.2)) with
    | error e => rfl
    | ok mvs =>
      simp only [bind_ok]
      obtain ⟨hml, hmv⟩ := mapM_zip_ok hl hmvs
      have hmv' : ∀ j (hj : j < enc.length), Verif.colMaxValue cfg enc[j] (X[j].any (·.isNone)) (cv.catsOf X[j]) = .ok mvs[j] := by
        intro j hj
        have hjX : j < X.length := by omega
        have := hmv j hj
        simp only [hasMissing_eq (hmiss' _ (List.getElem_mem hjX))] at this
        exact this
      refine SameResult.mono (S := fun b b' => Layout n mvs b ∧ Layout n mvs b') ?_ ?_
      · have := fillLoop_perm (f := if kind = .uif then cv.toFloat else cv.toFloat32) (e := .valueError) h henc g hn hml (cells := X)
          (cats := X.map cv.catsOf) (cfg := cfg) hl (by
            intro m hm
            obtain ⟨j, hj, rfl⟩ := List.getElem_of_mem hm
            exact lt_of_le_of_lt (colMaxValue_le (hmv j (by omega))) (h63 _ (List.getElem_mem _))) hX (by simpa using hl) (by
            intro j hj v hv
            simp only [List.getElem_map]
            exact (cv.mem_catsOf _ v).2 hv) (by
            intro j hj
            simp only [List.getElem_map]
            exact hmv' j hj)
        convert this using 2
        all_goals
          unfold fillLoop
          apply foldlM_congr_mem
          intro j _ s
          split <;> rfl
      · rintro b b' ⟨h1, h2⟩
        refine ⟨mvs, h1, h2, fun j fc m hfc hm => ?_⟩
        obtain ⟨hj, rfl⟩ := List.getElem?_eq_some_iff.1 hfc
        obtain ⟨hj', rfl⟩ := List.getElem?_eq_some_iff.1 hm
        exact nBins_le_mv (hmv' j hj)

/-- The permutations of the bins, and the encodings of all data. -/
theorem transform_perm {cv : Conv V K} {cfg : EncCfg K} {enc enc' : List (FitCol V K)} (h : PermCols enc enc')
    (henc : ∀ fc ∈ enc, fc.OK) (h63 : ∀ fc ∈ enc, fc.nBins < 2 ^ 63) : ∃ π : Nat → Equiv.Perm Nat,
    (∀ j : Nat, (enc.map FitCol.isCat)[j]? = some false → π j = 1) ∧
    ∀ (N : Type) [DecidableEq N] (g : Nat → Word) (n : Nat) (D : Dataset N V), 0 < n → GoodInput n D →
      SameResult (fun b b' => FbaP π b b' ∧ ∀ j b0, π j b0 < colMax b.maxValues + 1 ↔ b0 < colMax b.maxValues + 1)
        (encoderTransform cv cfg enc g n D) (encoderTransform cv cfg enc' g n D) := by
  have hσ : ∀ j, ∃ σ : Equiv.Perm Nat, (∀ hj : j < enc.length, (enc[j].isCat = false → σ = 1) ∧ (∀ N, enc[j].nBins ≤ N → ∀ b, σ b < N ↔ b < N) ∧
      ∀ (f : V → Option K) c v, cellBin f enc[j] c = some v → cellBin f (enc'[j]'(h.len ▸ hj)) c = some (σ v)) ∧ (¬j < enc.length → σ = 1) := by
    intro j
    by_cases hj : j < enc.length
    · obtain ⟨σ, h1⟩ := (h.get hj).exists_perm (henc _ (List.getElem_mem hj))
      exact ⟨σ, fun _ => h1, fun h => absurd hj h⟩
    · exact ⟨1, fun h => absurd h hj, fun _ => rfl⟩
  choose π hπ hπ1 using hσ
  refine ⟨π, fun j hj => ?_, fun N _ g n D hn hD => ?_⟩
  · simp only [List.getElem?_map, Option.map_eq_some_iff] at hj
    obtain ⟨fc, hfc, hc⟩ := hj
    obtain ⟨hj, rfl⟩ := List.getElem?_eq_some_iff.1 hfc
    exact (hπ j hj).1 hc
  · have hL := transform_layout (cv := cv) (cfg := cfg) h henc h63 g hn hD
    cases hb : encoderTransform cv cfg enc g n D with
    | error e =>
      rw [hb] at hL
      cases hb' : encoderTransform cv cfg enc' g n D with
      | error e' => rw [hb'] at hL; exact hL
      | ok b' => rw [hb'] at hL; exact hL.elim
    | ok b =>
      rw [hb] at hL
      cases hb' : encoderTransform cv cfg enc' g n D with
      | error e' => rw [hb'] at hL; exact hL.elim
      | ok b' =>
        rw [hb'] at hL
        obtain ⟨mvs, l1, l2, hmv⟩ := hL
        obtain ⟨k1, k2, k3, k4, k5, k6, k7⟩ := encoderTransform_ok henc h63 hn hD hb
        obtain ⟨m1, m2, m3, m4, m5, m6, m7⟩ := encoderTransform_ok (h.ok henc) (h.nBins h63) hn hD hb'
        have hml : mvs.length = enc.length := by rw [← l1.maxv]; exact k2
        refine SameResult.ok ⟨⟨m1.trans k1.symm, l2.maxv.trans l1.maxv.symm, fun i j hi => ?_⟩, fun j b0 => ?_⟩
        · by_cases hj : j < enc.length
          · obtain ⟨c, hc⟩ := k6 i j hj (by omega)
            obtain ⟨-, fc, v, p1, p2, p3, -⟩ := k7 i j c hc
            obtain ⟨-, fc', v', q1, q2, q3, -⟩ := m7 i j c hc
            rw [p3, q3]
            rw [List.getElem?_eq_getElem hj] at p1
            rw [List.getElem?_eq_getElem (h.len ▸ hj)] at q1
            obtain rfl := Option.some.inj p1
            obtain rfl := Option.some.inj q1
            have := (hπ j hj).2.2 _ _ _ p2
            exact SameResult.ok (Option.some.inj (q2.symm.trans this))
          · rw [getValue_oob l1 i j (by omega), getValue_oob l2 i j (by omega)]
            rfl
        · by_cases hj : j < enc.length
          · refine (hπ j hj).2.1 _ ?_ b0
            have := hmv j _ _ (List.getElem?_eq_getElem hj) (List.getElem?_eq_getElem (hml ▸ hj))
            have h2 := le_colMax mvs _ (List.getElem_mem (hml ▸ hj : j < mvs.length))
            rw [l1.maxv]
            omega
          · rw [hπ1 j hj]
            exact Iff.rfl

/-! ### `fit` -/

variable [IsStrictOrderedRing K]

theorem catsOf_perm (cv : Conv V K) {g : V → V} (hg : Function.Injective g) (cells : List (Option V)) :
    (cv.catsOf (cells.map (Option.map g))).Perm ((cv.catsOf cells).map g) := by
  refine (List.perm_ext_iff_of_nodup (cv.catsOf_nodup _) ((cv.catsOf_nodup _).map hg)).2 fun v => ?_
  rw [mem_catsOf_map, List.mem_map]

theorem fitSeries_perm {cv : Conv V K} {cfg : EncCfg K} {subset : Option (List Nat)} {j : Nat} {s : Series V} {g : V → V}
    (hg : Function.Injective g) {cs : List V} (h : fitSeries cv cfg subset j s = .ok (.cat cs)) :
    ∃ cs'' : List V, cs''.Perm cs ∧
      fitSeries cv cfg subset j { kind := s.kind, cells := s.cells.map (Option.map g), dtypeCats := s.dtypeCats.map g } = .ok (.cat (cs''.map g)) := by
  unfold fitSeries at h ⊢
  rw [bind_eq_ok] at h
  obtain ⟨d, hd, h⟩ := h
  rw [bind_eq_ok] at h
  obtain ⟨t, ht, h⟩ := h
  rw [hd]
  simp only [bind_ok, (nunique_same (cells := s.cells) fun v w _ _ => @hg v w).1]
  rw [ht]
  simp only [bind_ok]
  cases t with
  | isCategory => injection h with h; injection h with h; subst h; exact ⟨_, .refl _, rfl⟩
  | toCategory =>
    injection h with h; injection h with h; subst h
    obtain ⟨cs'', h1, h2⟩ := perm_lift hg (catsOf_perm cv hg s.cells)
    exact ⟨cs'', h1, by simp only [h2]; rfl⟩
  | numerical =>
    exfalso
    obtain ⟨x, -, h⟩ := bind_eq_ok.1 h
    obtain ⟨x, -, h⟩ := bind_eq_ok.1 h
    obtain ⟨x, -, h⟩ := bind_eq_ok.1 h
    injection h with h; cases h

theorem fitArrayCol_perm {cv : Conv V K} {cfg : EncCfg K} {subset : Option (List Nat)} {kind : Kind} {j : Nat} {cells : List (Option V)} {g : V → V}
    (hg : Function.Injective g) (hn : ∀ v, some v ∈ cells → (cv.toFloat32 (g v)).isSome = (cv.toFloat32 v).isSome) {cs : List V}
    (h : fitArrayCol cv cfg subset kind j cells = .ok (.cat cs)) :
    ∃ cs'' : List V, cs''.Perm cs ∧ fitArrayCol cv cfg subset kind j (cells.map (Option.map g)) = .ok (.cat (cs''.map g)) := by
  have hc : ((cells.map (Option.map g)).all fun c => match c with
      | none => true
      | some v => (cv.toFloat32 v).isSome) = cells.all fun c => match c with
      | none => true
      | some v => (cv.toFloat32 v).isSome := by
    rw [List.all_map, Bool.eq_iff_iff]
    simp only [List.all_eq_true]
    refine forall_congr' fun c => forall_congr' fun hc => ?_
    cases c with
    | none => rfl
    | some v => simp only [Function.comp, Option.map_some, hn v hc]
  unfold fitArrayCol at h ⊢
  rw [bind_eq_ok] at h
  obtain ⟨d, hd, h⟩ := h
  rw [hd]
  simp only [bind_ok] at h ⊢
  rw [(nunique_same (cells := cells) fun v w _ _ => @hg v w).2]
  rw [bind_eq_ok] at h
  obtain ⟨t, ht, h⟩ := h
  obtain ⟨cs'', h1, h2⟩ := perm_lift hg (catsOf_perm cv hg cells)
  cases t with
  | true =>
    injection h with h; injection h with h; subst h
    refine ⟨cs'', h1, bind_eq_ok.2 ⟨true, (congrArg _ hc).trans ht, ?_⟩⟩
    simp only [h2]; rfl
  | false =>
    exfalso
    simp only [Bool.false_eq_true, if_false] at h
    obtain ⟨x, -, h⟩ := bind_eq_ok.1 h
    obtain ⟨x, -, h⟩ := bind_eq_ok.1 h
    obtain ⟨x, -, h⟩ := bind_eq_ok.1 h
    injection h with h; cases h

theorem mapM_perm_mapIdx {α γ : Type} {F' : Nat → α → M (FitCol V K)} {G : Nat → α → γ} {H : Nat → γ → M (FitCol V K)} {ch : Nat → V → V} {l : List α}
    {r : List (FitCol V K)} (h : ((List.range l.length).zip l).mapM (fun p => F' p.1 p.2) = .ok r)
    (hs : ∀ j (hj : j < l.length) b, r[j]? = some b → F' j l[j] = .ok b → ∃ b', PermCol b b' ∧ H j (G j l[j]) = .ok (b'.rename (ch j))) :
    ∃ r', PermCols r r' ∧ ((List.range (l.mapIdx G).length).zip (l.mapIdx G)).mapM (fun p => H p.1 p.2) = .ok (r'.mapIdx fun j fc => fc.rename (ch j)) := by
  rw [mapM_eq_ok, List.forall₂_iff_get] at h
  obtain ⟨h1, h2⟩ := h
  have hl : l.length = r.length := by simpa using h1
  have hs' : ∀ j : Fin r.length, ∃ b', PermCol r[j] b' ∧ H j (G j (l[j.1]'(by have := j.2; omega))) = .ok (b'.rename (ch j)) := by
    rintro ⟨j, hj⟩
    have := h2 j (by simpa using (show j < l.length by omega)) hj
    simp only [List.get_eq_getElem, List.getElem_zip, List.getElem_range] at this
    exact hs j (by omega) _ (List.getElem?_eq_getElem hj) this
  choose b' hb1 hb2 using hs'
  refine ⟨List.ofFn b', ⟨by simp, fun j fc fc' hf hf' => ?_⟩, ?_⟩
  · obtain ⟨hj, rfl⟩ := List.getElem?_eq_some_iff.1 hf
    rw [List.getElem?_ofFn, dif_pos hj] at hf'
    obtain rfl := Option.some.inj hf'
    exact hb1 ⟨j, hj⟩
  · rw [mapM_eq_ok, List.forall₂_iff_get]
    refine ⟨by simp [hl], fun i hi hi' => ?_⟩
    have hi1 : i < r.length := by simpa using hi'
    simp only [List.get_eq_getElem, List.getElem_zip, List.getElem_range, List.getElem_mapIdx, List.getElem_ofFn]
    exact hb2 ⟨i, hi1⟩

theorem encoderFit_perm {N : Type} {cv : Conv V K} {cfg : EncCfg K} {subset : Option (List Nat)} {D : Dataset N V} {ch : Nat → V → V}
    {enc : List (FitCol V K)} (h : encoderFit cv cfg subset D = .ok enc)
    (hch : ∀ j fc, enc[j]? = some fc → ch j = id ∨ (∃ cs, fc = .cat cs) ∧ NewNames cv D j (ch j)) :
    ∃ enc', PermCols enc enc' ∧ encoderFit cv cfg subset (rename ch D) = .ok (enc'.mapIdx fun j fc => fc.rename (ch j)) := by
  cases D with
  | frame X =>
    simp only [encoderFit, rename] at h ⊢
    have hX : ((X.mapIdx fun j p => ((p.1, { kind := p.2.kind, cells := p.2.cells.map (Option.map (ch j)), dtypeCats := p.2.dtypeCats.map (ch j) }) :
        N × Series V)).map Prod.snd) = (X.map Prod.snd).mapIdx fun j s =>
          ({ kind := s.kind, cells := s.cells.map (Option.map (ch j)), dtypeCats := s.dtypeCats.map (ch j) } : Series V) := by
      refine List.ext_getElem (by simp) fun i h1 h2 => by simp
    rw [hX]
    obtain ⟨hu, h⟩ := fitDataFrame_ok.1 h
    obtain ⟨enc', h1, h2⟩ := mapM_perm_mapIdx (ch := ch) (F' := fun j s => fitSeries cv cfg subset j s) (H := fun j s => fitSeries cv cfg subset j s)
      (G := fun j s => ({ kind := s.kind, cells := s.cells.map (Option.map (ch j)), dtypeCats := s.dtypeCats.map (ch j) } : Series V)) h fun j hj b hb hf => by
        rcases hch j b hb with hid | ⟨⟨cs, rfl⟩, hr⟩
        · refine ⟨b, .inl rfl, ?_⟩
          rw [hid, FitCol.rename_id]
          simpa using hf
        · obtain ⟨cs'', g1, g2⟩ := fitSeries_perm hr.inj hf
          exact ⟨.cat cs'', .inr ⟨cs, cs'', rfl, rfl, g1⟩, g2⟩
    exact ⟨enc', h1, fitDataFrame_ok.2 ⟨by simpa using hu, h2⟩⟩
  | array kind X =>
    simp only [encoderFit, rename] at h ⊢
    obtain ⟨hu, h⟩ := fitArray_ok.1 h
    obtain ⟨enc', h1, h2⟩ := mapM_perm_mapIdx (ch := ch) (F' := fun j s => fitArrayCol cv cfg subset kind j s) (H := fun j s => fitArrayCol cv cfg subset kind j s)
      (G := fun j (c : List (Option V)) => c.map (Option.map (ch j))) h fun j hj b hb hf => by
        rcases hch j b hb with hid | ⟨⟨cs, rfl⟩, hr⟩
        · refine ⟨b, .inl rfl, ?_⟩
          rw [hid, FitCol.rename_id]
          simpa using hf
        · obtain ⟨cs'', g1, g2⟩ := fitArrayCol_perm hr.inj (fun v hv => by
            refine hr.number v ?_
            obtain ⟨i, hi, e⟩ := List.getElem_of_mem hv
            exact ⟨i, by simp [cell, List.getElem?_eq_getElem hj, List.getElem?_eq_getElem hi, e]⟩) hf
          exact ⟨.cat cs'', .inr ⟨cs, cs'', rfl, rfl, g1⟩, g2⟩
    exact ⟨enc', h1, fitArray_ok.2 ⟨by simpa using hu, h2⟩⟩

end
end Verif.Bins
