import Verif.Proofs.ExtraGrow
import Verif.Proofs.PermuteEst
import Verif.Proofs.EncoderReject
import Verif.Proofs.EstEnd
import Verif.Proofs.Rename
import Verif.Spec.Extra

/-! # An additional last column that brings nothing new: encoding, forests and predictions -/
set_option linter.unusedSectionVars false
namespace Verif.Extra

open Spec

/-! ### Encoding -/

section
variable {N V K : Type} [DecidableEq V] [DecidableEq N] [LinearOrder K] [Field K] [IsStrictOrderedRing K] [FloorSemiring K]

theorem sameColumn_cell {X X' : Dataset N V} {j j' : Nat} (h : SameColumn X j X' j') (i : Nat) : cell X' i j' = cell X i j := by
  unfold SameColumn at h
  cases X <;> cases X' <;> simp only at h
  · obtain ⟨p, p', h1, h2, h3⟩ := h
    simp [cell, h1, h2, h3]
  · obtain ⟨-, c, h1, h2⟩ := h
    simp [cell, h1, h2]

theorem sameColumn_num {X X' : Dataset N V} {j j' : Nat} (cv : Conv V K) (h : SameColumn X j X' j') : numOf cv X' = numOf cv X := by
  unfold SameColumn at h
  cases X <;> cases X' <;> simp only at h
  · rfl
  · obtain ⟨rfl, -⟩ := h
    rfl

theorem AddsColumn.same {X X' : Dataset N V} (h : AddsColumn X X') {f : Nat} (hf : f < nCols X) : SameColumn X f X' f := by
  unfold SameColumn
  unfold AddsColumn at h
  cases X <;> cases X' <;> simp only [nCols] at h hf ⊢
  · obtain ⟨p, rfl⟩ := h
    exact ⟨_, _, List.getElem?_eq_getElem hf, by rw [List.getElem?_append_left hf, List.getElem?_eq_getElem hf], rfl⟩
  · obtain ⟨rfl, c, rfl⟩ := h
    exact ⟨rfl, _, List.getElem?_eq_getElem hf, by rw [List.getElem?_append_left hf, List.getElem?_eq_getElem hf]⟩

theorem AddsColumn.cols {X X' : Dataset N V} (h : AddsColumn X X') : nCols X' = nCols X + 1 := by
  unfold AddsColumn at h
  cases X <;> cases X' <;> simp only [nCols] at h ⊢
  · obtain ⟨p, rfl⟩ := h
    simp
  · obtain ⟨rfl, c, rfl⟩ := h
    simp

theorem fit_same {cv : Conv V K} {cfg cfg' : EncCfg K} {sub : Option (List Nat)} {X X' : Dataset N V} {enc enc' : List (FitCol V K)}
    (hc : cfg'.catMin = cfg.catMin ∧ cfg'.maxBins = cfg.maxBins ∧ cfg'.cap = cfg.cap) (h : encoderFit cv cfg sub X = .ok enc)
    (h' : encoderFit cv cfg' sub X' = .ok enc') {j j' : Nat} (hs : SameColumn X j X' j') (hd : declared cfg' j' = declared cfg j) :
    enc'[j']? = enc[j]? := by
  unfold SameColumn at hs
  cases X <;> cases X' <;> simp only at hs
  · rename_i X X'
    obtain ⟨p, p', h1, h2, h3⟩ := hs
    obtain ⟨hl, hf⟩ := fit_mapM (fitDataFrame_ok.1 h).2
    obtain ⟨hl', hf'⟩ := fit_mapM (fitDataFrame_ok.1 h').2
    obtain ⟨hj, rfl⟩ := List.getElem?_eq_some_iff.1 h1
    obtain ⟨hj', rfl⟩ := List.getElem?_eq_some_iff.1 h2
    have e1 := hf j (by simpa using hj)
    have e2 := hf' j' (by simpa using hj')
    rw [List.getElem_map] at e1 e2
    rw [List.getElem?_eq_getElem (by simpa [hl'] using hj'), List.getElem?_eq_getElem (by simpa [hl] using hj)]
    unfold fitSeries at e1 e2
    rw [hd, h3, hc.1, hc.2.1, hc.2.2, e1] at e2
    injection e2 with e2
    rw [e2]
  · rename_i k X k' X'
    obtain ⟨rfl, c, h1, h2⟩ := hs
    obtain ⟨hl, hf⟩ := fit_mapM (fitArray_ok.1 h).2
    obtain ⟨hl', hf'⟩ := fit_mapM (fitArray_ok.1 h').2
    obtain ⟨hj, rfl⟩ := List.getElem?_eq_some_iff.1 h1
    obtain ⟨hj', h3⟩ := List.getElem?_eq_some_iff.1 h2
    have e1 := hf j hj
    have e2 := hf' j' hj'
    rw [List.getElem?_eq_getElem (by omega), List.getElem?_eq_getElem (by omega)]
    unfold fitArrayCol at e1 e2
    rw [hd, h3, hc.1, hc.2.1, hc.2.2, e1] at e2
    injection e2 with e2
    rw [e2]

theorem max_same {cv : Conv V K} {cfg cfg' : EncCfg K} {enc enc' : List (FitCol V K)} {g : Nat → Word} {n : Nat} {X X' : Dataset N V} {b b' : FBA}
    (hu : cfg'.handleUnknownError = cfg.handleUnknownError) (hX : GoodInput n X) (hX' : GoodInput n X')
    (h : encoderTransform cv cfg enc g n X = .ok b) (h' : encoderTransform cv cfg' enc' g n X' = .ok b') {j j' : Nat}
    (hs : SameColumn X j X' j') (he : enc'[j']? = enc[j]?) : ∃ m, b.maxValues[j]? = some m ∧ b'.maxValues[j']? = some m := by
  have k1 := encoderTransform_maxValues hX h
  have k2 := encoderTransform_maxValues hX' h'
  have hcfg : ∀ (fc : FitCol V K) hm cats, colMaxValue cfg' fc hm cats = colMaxValue cfg fc hm cats := by
    intro fc hm cats
    unfold colMaxValue
    cases fc <;> simp only [hu]
  unfold SameColumn at hs
  cases X <;> cases X' <;> simp only at hs k1 k2
  · obtain ⟨p, p', h1, h2, h3⟩ := hs
    obtain ⟨hl, k1⟩ := k1
    obtain ⟨-, k2⟩ := k2
    have hj : j < enc.length := by rw [← hl]; exact (List.getElem?_eq_some_iff.1 h1).1
    obtain ⟨m, m1, m2⟩ := k1 j _ p (List.getElem?_eq_getElem hj) h1
    obtain ⟨m', m3, m4⟩ := k2 j' _ p' (he.trans (List.getElem?_eq_getElem hj)) h2
    rw [hcfg, h3, m2] at m4
    injection m4 with m4
    exact ⟨m, m1, m4 ▸ m3⟩
  · obtain ⟨-, c, h1, h2⟩ := hs
    obtain ⟨-, hl, k1⟩ := k1
    obtain ⟨-, -, k2⟩ := k2
    have hj : j < enc.length := by rw [← hl]; exact (List.getElem?_eq_some_iff.1 h1).1
    obtain ⟨m, m1, m2⟩ := k1 j _ c (List.getElem?_eq_getElem hj) h1
    obtain ⟨m', m3, m4⟩ := k2 j' _ c (he.trans (List.getElem?_eq_getElem hj)) h2
    rw [hcfg, m2] at m4
    injection m4 with m4
    exact ⟨m, m1, m4 ▸ m3⟩

/-- The encoded tables agree on the first `d` columns, and the first one has no other columns. -/
structure FbaX (d : Nat) (b b' : FBA) : Prop where
  rows : b'.nSamples = b.nSamples
  val : ∀ i < b.nSamples, ∀ f, f < d → RelM (fun x y => x = y) (b.getValue i f) (b'.getValue i f)
  inside : ∀ i f v, b.getValue i f = .ok v → f < d

/-- The encoder knows what is needed to encode. -/
def EncGood (enc : List (FitCol V K)) : Prop := (∀ fc ∈ enc, fc.OK) ∧ ∀ fc ∈ enc, fc.nBins < 2 ^ 63

theorem value_same {cv : Conv V K} {cfg cfg' : EncCfg K} {enc enc' : List (FitCol V K)} {g : Nat → Word} {n : Nat} {X X' : Dataset N V} {b b' : FBA}
    (hE : EncGood enc) (hE' : EncGood enc') (hn : 0 < n) (hX : GoodInput n X) (hX' : GoodInput n X')
    (h : encoderTransform cv cfg enc g n X = .ok b) (h' : encoderTransform cv cfg' enc' g n X' = .ok b') {j j' : Nat}
    (hs : SameColumn X j X' j') (he : enc'[j']? = enc[j]?) {i : Nat} (hi : i < n) : RelM (· = ·) (b.getValue i j) (b'.getValue i j') := by
  intro x y hx hy
  obtain ⟨-, -, -, -, hcol, hc, hv⟩ := encoderTransform_ok hE.1 hE.2 hn hX h
  obtain ⟨-, -, -, -, -, -, hv'⟩ := encoderTransform_ok hE'.1 hE'.2 hn hX' h'
  have hj : j < enc.length := by
    rw [← hcol]
    unfold SameColumn at hs
    cases X <;> cases X' <;> simp only [nCols] at hs ⊢
    · obtain ⟨p, p', h1, -⟩ := hs
      exact (List.getElem?_eq_some_iff.1 h1).1
    · obtain ⟨-, c, h1, -⟩ := hs
      exact (List.getElem?_eq_some_iff.1 h1).1
  obtain ⟨c, hc⟩ := hc i j hj hi
  obtain ⟨-, fc, v, h1, h2, h3, -⟩ := hv i j c hc
  obtain ⟨-, fc', v', h4, h5, h6, -⟩ := hv' i j' c ((sameColumn_cell hs i).trans hc)
  rw [he, h1] at h4
  injection h4 with h4
  subst h4
  rw [sameColumn_num cv hs, h2] at h5
  injection h5 with h5
  rw [h3] at hx
  rw [h6] at hy
  injection hx with hx
  injection hy with hy
  rw [← hx, ← hy, h5]

theorem layout_inside {n : Nat} {b : FBA} (h : Layout n b.maxValues b) {i f v : Nat} (hv : b.getValue i f = .ok v) : f < b.maxValues.length := by
  unfold FBA.getValue at hv
  rw [bind_eq_ok] at hv
  obtain ⟨x, hx, -⟩ := hv
  rw [rd_ok, h.nvals] at hx
  simpa using (List.getElem?_eq_some_iff.1 hx).1

theorem encode_x {cv : Conv V K} {cfg cfg' : EncCfg K} {enc enc' : List (FitCol V K)} {g : Nat → Word} {n : Nat} {X X' : Dataset N V} {b b' : FBA}
    (hE : EncGood enc) (hE' : EncGood enc') (he : ∀ f < enc.length, enc'[f]? = enc[f]?) (hn : 0 < n) (hX : GoodInput n X) (hX' : GoodInput n X')
    (ha : AddsColumn X X') (h : encoderTransform cv cfg enc g n X = .ok b) (h' : encoderTransform cv cfg' enc' g n X' = .ok b') :
    FbaX enc.length b b' := by
  obtain ⟨h1, h2, h3, -, hcol, -, -⟩ := encoderTransform_ok hE.1 hE.2 hn hX h
  obtain ⟨h1', -⟩ := encoderTransform_ok hE'.1 hE'.2 hn hX' h'
  refine ⟨by rw [h1, h1'], fun i hi f hf => ?_, fun i f v hv => ?_⟩
  · exact value_same hE hE' hn hX hX' h h' (AddsColumn.same ha (hcol ▸ hf)) (he f hf) (h1 ▸ hi)
  · rw [← h2]
    exact layout_inside h3 hv

/-! ### Constant columns -/

theorem catsOf_const (cv : Conv V K) {cells : List (Option V)} {v : V} (hn : cells ≠ []) (h : ∀ c ∈ cells, c = some v) : cv.catsOf cells = [v] := by
  have hm : ∀ u, u ∈ cv.catsOf cells ↔ u = v := by
    intro u
    rw [cv.mem_catsOf]
    constructor
    · intro hu
      simpa using h _ hu
    · rintro rfl
      obtain ⟨c, hc⟩ := List.exists_mem_of_ne_nil _ hn
      rw [← h c hc]
      exact hc
  have hnd := cv.catsOf_nodup cells
  generalize cv.catsOf cells = l at hm hnd
  match l, hm, hnd with
  | [], hm, _ => exact absurd ((hm v).2 rfl) (by simp)
  | [u], hm, _ => rw [(hm u).1 (by simp)]
  | u :: w :: l, hm, hnd =>
    have h1 := (hm u).1 (by simp)
    have h2 := (hm w).1 (by simp)
    rw [List.nodup_cons] at hnd
    exact absurd (by rw [h1, h2]; simp) hnd.1

theorem thresholds_const {cv : Conv V K} {cfg : EncCfg K} (hm : 1 ≤ cfg.maxBins) {e : Err} {sub : Option (List Nat)} {cells : List (Option V)} {v : V}
    (h : ∀ c ∈ cells, c = some v) {cs : List (Option V)} (h1 : takeSubset sub cells = .ok cs) {xs : List (Option K)}
    (h2 : toFloats cv.toFloat e cs = .ok xs) {thr : List K} (h3 : findBinningThresholds cfg.cap xs cfg.maxBins = .ok thr) : thr = [] := by
  have hcs : ∀ c ∈ cs, c = some v := by
    unfold takeSubset at h1
    cases sub with
    | none => injection h1 with h1; exact h1 ▸ h
    | some idx =>
      intro c hc
      obtain ⟨i, -, hi⟩ := mapM_mem_inv h1 hc
      rw [rd_ok] at hi
      exact h c (List.mem_of_getElem? hi)
  have hxs : ∃ x, ∀ c ∈ xs, c = some x := by
    cases hv : cv.toFloat v with
    | none =>
      refine ⟨0, fun c hc => ?_⟩
      obtain ⟨u, hu, hi⟩ := mapM_mem_inv h2 hc
      rw [hcs u hu] at hi
      simp [hv] at hi
    | some x =>
      refine ⟨x, fun c hc => ?_⟩
      obtain ⟨u, hu, hi⟩ := mapM_mem_inv h2 hc
      rw [hcs u hu] at hi
      simp only [hv] at hi
      injection hi with hi
      exact hi.symm
  obtain ⟨x, hx⟩ := hxs
  obtain ⟨thr', e1, -, -, hlen, -⟩ := findBinningThresholds_spec cfg.cap xs cfg.maxBins hm
  rw [h3] at e1
  injection e1 with e1
  subst e1
  have hnd : nDistinct xs ≤ 1 := by
    unfold nDistinct
    refine Finset.card_le_one.2 fun a ha b hb => ?_
    simp only [List.mem_toFinset, List.mem_filterMap, id] at ha hb
    obtain ⟨a', ha', rfl⟩ := ha
    obtain ⟨b', hb', rfl⟩ := hb
    have h1 := hx _ ha'
    have h2 := hx _ hb'
    simp_all
  exact List.length_eq_zero_iff.1 (by rw [hlen]; omega)

theorem colMax_const {cfg : EncCfg K} {fc : FitCol V K} {v : V} (h : fc = .cat [v] ∨ fc = .num []) {m : Nat}
    (hm : colMaxValue cfg fc false [v] = .ok m) : m = 0 := by
  rcases h with rfl | rfl
  · simp [colMaxValue, usub] at hm
    omega
  · simp [colMaxValue, usub] at hm
    omega

theorem max_const {cv : Conv V K} {cfg : EncCfg K} (hb : 1 ≤ cfg.maxBins) {sub : Option (List Nat)} {X : Dataset N V} {enc : List (FitCol V K)} {n : Nat}
    (hn : 0 < n) (hX : GoodInput n X) {j : Nat} (hc : ConstantColumn X n j) (h : encoderFit cv cfg sub X = .ok enc) {g : Nat → Word} {b : FBA}
    (h' : encoderTransform cv cfg enc g n X = .ok b) : b.maxValues[j]? = some 0 := by
  obtain ⟨hk, v, hv⟩ := hc
  have k := encoderTransform_maxValues hX h'
  cases X with
  | frame X =>
    simp only at k
    obtain ⟨hl, k⟩ := k
    have h0 := hv 0 hn
    simp only [cell, Option.bind_eq_some_iff] at h0
    obtain ⟨p, hp, -⟩ := h0
    obtain ⟨hj, hpj⟩ := List.getElem?_eq_some_iff.1 hp
    have hlen : p.2.cells.length = n := (hX.2 p (List.mem_of_getElem? hp)).1
    have hcells : ∀ c ∈ p.2.cells, c = some v := by
      intro c hc
      obtain ⟨i, hi, rfl⟩ := List.getElem_of_mem hc
      have := hv i (hlen ▸ hi)
      simpa [cell, hp, List.getElem?_eq_getElem hi] using this
    have hne : p.2.cells ≠ [] := by intro h0; rw [h0] at hlen; simp at hlen; omega
    have hcat : p.2.kind ≠ .category := fun h0 => hk ⟨p, hp, h0⟩
    have hcats := catsOf_const cv hne hcells
    have hmiss : p.2.cells.any (·.isNone) = false := by
      rw [List.any_eq_false]
      intro c hc
      rw [hcells c hc]
      simp
    obtain ⟨hl2, hf⟩ := fit_mapM (fitDataFrame_ok.1 h).2
    have e1 := hf j (by simpa using hj)
    rw [List.getElem_map, hpj] at e1
    obtain ⟨m, m1, m2⟩ := k j _ p (List.getElem?_eq_getElem (by omega)) hp
    rw [hmiss] at m2
    unfold Series.categories at m2
    rw [if_neg hcat, hcats] at m2
    rw [m1, colMax_const ?_ m2]
    unfold fitSeries at e1
    simp only [bind_eq_ok] at e1
    obtain ⟨d, -, t, ht, e1⟩ := e1
    cases t with
    | isCategory =>
      exfalso
      unfold isSeriesCategorical at ht
      split at ht
      · cases d with
        | none => simp [hcat] at ht
        | some d => cases d <;> simp [hcat] at ht
      · split at ht
        · cases d with
          | none => simp only at ht; split at ht <;> cases ht
          | some d => cases d <;> cases ht
        · cases ht
    | toCategory =>
      left
      injection e1 with e1
      rw [← e1, hcats]
    | numerical =>
      right
      simp only [bind_eq_ok] at e1
      obtain ⟨cs, h1, xs, h2, thr, h3, e1⟩ := e1
      injection e1 with e1
      rw [← e1, thresholds_const hb hcells h1 h2 h3]
  | array kd X =>
    simp only at k
    obtain ⟨-, hl, k⟩ := k
    have h0 := hv 0 hn
    simp only [cell, Option.bind_eq_some_iff] at h0
    obtain ⟨p, hp, -⟩ := h0
    obtain ⟨hj, hpj⟩ := List.getElem?_eq_some_iff.1 hp
    have hlen : p.length = n := hX.1 p (List.mem_of_getElem? hp)
    have hcells : ∀ c ∈ p, c = some v := by
      intro c hc
      obtain ⟨i, hi, rfl⟩ := List.getElem_of_mem hc
      have := hv i (hlen ▸ hi)
      simpa [cell, hp, List.getElem?_eq_getElem hi] using this
    have hne : p ≠ [] := by intro h0; rw [h0] at hlen; simp at hlen; omega
    have hcats := catsOf_const cv hne hcells
    have hmiss : p.any (·.isNone) = false := by
      rw [List.any_eq_false]
      intro c hc
      rw [hcells c hc]
      simp
    obtain ⟨hl2, hf⟩ := fit_mapM (fitArray_ok.1 h).2
    have e1 := hf j hj
    rw [hpj] at e1
    obtain ⟨m, m1, m2⟩ := k j _ p (List.getElem?_eq_getElem (by omega)) hp
    rw [hmiss, hcats] at m2
    rw [m1, colMax_const ?_ m2]
    unfold fitArrayCol at e1
    simp only [bind_eq_ok] at e1
    obtain ⟨d, -, t, ht, e1⟩ := e1
    cases t with
    | true =>
      left
      simp only [if_true] at e1
      injection e1 with e1
      rw [← e1, hcats]
    | false =>
      right
      simp only [Bool.false_eq_true, if_false, bind_eq_ok] at e1
      obtain ⟨cs, h1, xs, h2, thr, h3, e1⟩ := e1
      injection e1 with e1
      rw [← e1, thresholds_const hb hcells h1 h2 h3]

theorem value_const {cv : Conv V K} {cfg : EncCfg K} {enc : List (FitCol V K)} {g : Nat → Word} {n : Nat} {X : Dataset N V} {b : FBA}
    (hE : EncGood enc) (hn : 0 < n) (hX : GoodInput n X) (h : encoderTransform cv cfg enc g n X = .ok b) {j : Nat} (hc : ConstantColumn X n j) :
    ∃ v, ∀ i < n, b.getValue i j = .ok v := by
  obtain ⟨-, u, hu⟩ := hc
  obtain ⟨-, -, -, -, -, -, hv⟩ := encoderTransform_ok hE.1 hE.2 hn hX h
  obtain ⟨-, fc, v, h1, h2, h3, -⟩ := hv 0 j _ (hu 0 hn)
  refine ⟨v, fun i hi => ?_⟩
  obtain ⟨-, fc', v', h4, h5, h6, -⟩ := hv i j _ (hu i hi)
  rw [h1] at h4
  injection h4 with h4
  subst h4
  rw [h2] at h5
  injection h5 with h5
  rw [h5, h6]

end

/-! ### Declarations -/

theorem declared_in {K : Type} {cf : CatFeatures} {d : Nat} {ic : Option (List Bool)} (h : getIsCategorical cf d = .ok ic) (cfg : EncCfg K)
    (hc : cfg.isCategorical = ic) {j : Nat} (hj : j < d) : declared cfg j = .ok (declaredIn cf j) := by
  unfold declared
  rw [hc]
  cases cf with
  | none => injection h with h; subst h; rfl
  | ints l =>
    cases l with
    | nil => injection h with h; subst h; rfl
    | cons i0 l =>
      simp only [getIsCategorical, List.length_cons, Nat.add_eq_zero_iff, one_ne_zero, and_false, if_false] at h
      split at h
      · cases h
      rename_i hb
      rw [bind_eq_ok] at h
      obtain ⟨mask, hm, h⟩ := h
      injection h with h
      subst h
      have hbd : ∀ i ∈ i0 :: l, 0 ≤ i ∧ i < (d : Int) := by
        intro i hi
        simp only [Bool.or_eq_true, List.any_eq_true, decide_eq_true_eq, not_or, not_exists, not_and] at hb
        have h1 := hb.1 i hi
        have h2 := hb.2 i hi
        omega
      have key : ∀ (l : List Int) (m0 m : List Bool), m0.length = d → (∀ i ∈ l, 0 ≤ i ∧ i < (d : Int)) →
          l.foldlM (fun (m : List Bool) i => wr m i.toNat true) m0 = Except.ok m →
          m[j]? = some (decide ((j : Int) ∈ l) || m0.getD j false) := by
        intro l
        induction l with
        | nil =>
          intro m0 m h0 _ hm
          injection hm with hm
          subst hm
          simp [h0, hj]
        | cons i l ih =>
          intro m0 m h0 hl hm
          rw [List.foldlM_cons, bind_eq_ok] at hm
          obtain ⟨m1, h1, hm⟩ := hm
          have hi := hl i (by simp)
          have h1' : m1 = m0.set i.toNat true := by
            unfold wr at h1
            rw [if_pos (by omega)] at h1
            injection h1 with h1
            exact h1.symm
          subst h1'
          rw [ih _ _ (by simpa using h0) (fun i hi => hl i (by simp [hi])) hm]
          by_cases hij : (j : Int) = i
          · subst hij
            simp [h0, hj]
          · have : i.toNat ≠ j := by omega
            simp [List.getElem?_set, this, hij]
      have := key (i0 :: l) _ _ (by simp) hbd hm
      show (rd mask j >>= fun b => Pure.pure (some b) : M _) = _
      rw [rd_ok.2 this]
      simp only [bind_ok, declaredIn]
      simp [hj, Pure.pure, Except.pure]
  | bools l =>
    cases l with
    | nil => injection h with h; subst h; rfl
    | cons b0 l =>
      simp only [getIsCategorical, List.length_cons, Nat.add_eq_zero_iff, one_ne_zero, and_false, if_false] at h
      split at h
      · cases h
      rename_i hb
      injection h with h
      subst h
      have hlt : j < (b0 :: l).length := by simp only [List.length_cons]; omega
      show (rd (b0 :: l) j >>= fun b => Pure.pure (some b) : M _) = _
      rw [rd_ok.2 (List.getElem?_eq_getElem hlt)]
      simp only [bind_ok, declaredIn]
      rw [List.getElem?_eq_getElem hlt]
      rfl
  | other n =>
    simp only [getIsCategorical] at h
    split at h
    · injection h with h; subst h; rfl
    · cases h

end Verif.Extra
