import Verif.Proofs.Encoder
import Mathlib.Data.Rat.Defs
import Mathlib.Algebra.Order.Ring.Rat
import Mathlib.Algebra.Field.Rat

/-! # C05-C09: the encoder

In all theorems `enc` is any state that `fit` can produce (`FittedOn`), `g` any content of the
uninitialised buffers, `D`, `D1`, `D2` any inputs of `transform`. -/
namespace Verif

open Spec

section
variable {V K N N0 : Type} [DecidableEq V] [DecidableEq N] [LinearOrder K] [Field K] [IsStrictOrderedRing K]
variable {cv : Conv V K} {cfg : EncCfg K} {enc : List (FitCol V K)} {D0 : Dataset N0 V}

/-- The encoder meets its specification cell by cell (used by C05-C09 below, and a property in its own
right): every cell of the packed dataset is the only right bin for the cell, and `transform` succeeds on
every acceptable input. -/
theorem C06_transform_correct (hfit : FittedOn cv cfg D0 enc) (hm : 1 ≤ cfg.maxBins)
    (h63 : ∀ fc ∈ enc, fc.nBins < 2 ^ 63) {n : Nat} (hn : 0 < n) {D : Dataset N V} (hD : GoodInput n D)
    (g : Nat → Word) :
    (Acceptable cv cfg enc D → ∃ b, encoderTransform cv cfg enc g n D = .ok b) ∧
    ∀ b, encoderTransform cv cfg enc g n D = .ok b → b.nSamples = n ∧
      ∀ i j c, cell D i j = some c → ∃ fc v, enc[j]? = some fc ∧ b.getValue i j = .ok v ∧
        EncodesTo (numOf cv D) fc c v ∧ ∀ w, EncodesTo (numOf cv D) fc c w → w = v := by
  obtain ⟨_, hok, _⟩ := encoderFit_ok hm hfit
  refine ⟨fun hA => encoderTransform_total g hok h63 hn hD hA, ?_⟩
  intro b hb
  obtain ⟨h1, _, _, _, _, _, h2⟩ := encoderTransform_ok hok h63 hn hD hb
  refine ⟨h1, ?_⟩
  intro i j c hc
  obtain ⟨_, fc, v, hj, hv, hg, _⟩ := h2 i j c hc
  have hfc := hok fc (List.mem_of_getElem? hj)
  exact ⟨fc, v, hj, hg, cellBin_encodes hfc hv,
    fun w hw => encodesTo_unique hfc hw (cellBin_encodes hfc hv)⟩

/-- C05 for well-formed inputs: in a column, missing cells of all datasets share one bin, and it is larger than the
bin of every known non-missing cell of every dataset. Missing (see `C05_violated_object_array`): object arrays that
contain missing cells. -/
theorem C05_missing_bin_partial (hfit : FittedOn cv cfg D0 enc) (hm : 1 ≤ cfg.maxBins)
    (h63 : ∀ fc ∈ enc, fc.nBins < 2 ^ 63) {n1 n2 : Nat} (hn1 : 0 < n1) (hn2 : 0 < n2)
    {D1 D2 : Dataset N V} (hD1 : GoodInput n1 D1) (hD2 : GoodInput n2 D2) {g1 g2 : Nat → Word} {b1 b2 : FBA}
    (h1 : encoderTransform cv cfg enc g1 n1 D1 = .ok b1)
    (h2 : encoderTransform cv cfg enc g2 n2 D2 = .ok b2)
    (i1 j : Nat) (hmiss : cell D1 i1 j = some none) :
    ∃ m fc, b1.getValue i1 j = .ok m ∧ enc[j]? = some fc ∧
      (∀ i2, cell D2 i2 j = some none → b2.getValue i2 j = .ok m) ∧
      (∀ i2 v, cell D2 i2 j = some (some v) → KnownCell fc v →
        ∃ k, b2.getValue i2 j = .ok k ∧ k < m) := by
  obtain ⟨_, hok, _⟩ := encoderFit_ok hm hfit
  obtain ⟨_, c1⟩ := (C06_transform_correct hfit hm h63 hn1 hD1 g1).2 b1 h1
  obtain ⟨_, c2⟩ := (C06_transform_correct hfit hm h63 hn2 hD2 g2).2 b2 h2
  obtain ⟨fc, m, hj, hg, he, _⟩ := c1 i1 j none hmiss
  refine ⟨m, fc, hg, hj, ?_, ?_⟩
  · intro i2 hc
    obtain ⟨fc', m', hj', hg', he', _⟩ := c2 i2 j none hc
    rw [hj] at hj'; cases hj'
    have : m' = m := by
      cases fc with
      | cat cs => exact he'.trans he.symm
      | num thr => exact he'.trans he.symm
    rw [hg', this]
  · intro i2 v hc hk
    obtain ⟨fc', m', hj', hg', he', _⟩ := c2 i2 j (some v) hc
    rw [hj] at hj'; cases hj'
    refine ⟨m', hg', ?_⟩
    cases fc with
    | cat cs =>
      rcases he' with ⟨_, h⟩ | ⟨h, _⟩
      · have := (List.getElem?_eq_some_iff.1 h).1
        have he : m = cs.length := he
        omega
      · exact absurd hk h
    | num thr =>
      obtain ⟨x, _, hb⟩ := he'
      have := hb.1
      have he : m = thr.length + 1 := he
      omega

/-- C06, known categories. The categories of a categorical column contain every value seen by `fit`; two known cells of
any two datasets have the same bin exactly when they have the same value, and the bin indexes the category. -/
theorem C06_known_categories (hfit : FittedOn cv cfg D0 enc) (hm : 1 ≤ cfg.maxBins)
    (h63 : ∀ fc ∈ enc, fc.nBins < 2 ^ 63) {n1 n2 : Nat} (hn1 : 0 < n1) (hn2 : 0 < n2)
    {D1 D2 : Dataset N V} (hD1 : GoodInput n1 D1) (hD2 : GoodInput n2 D2) {g1 g2 : Nat → Word} {b1 b2 : FBA}
    (h1 : encoderTransform cv cfg enc g1 n1 D1 = .ok b1)
    (h2 : encoderTransform cv cfg enc g2 n2 D2 = .ok b2)
    (j : Nat) (cs : List V) (hj : enc[j]? = some (.cat cs)) :
    (∀ i v, cell D0 i j = some (some v) → v ∈ cs) ∧
    ∀ i1 i2 v w, cell D1 i1 j = some (some v) → cell D2 i2 j = some (some w) → v ∈ cs → w ∈ cs →
      ∃ k l, b1.getValue i1 j = .ok k ∧ b2.getValue i2 j = .ok l ∧
        cs[k]? = some v ∧ cs[l]? = some w ∧ (k = l ↔ v = w) := by
  obtain ⟨_, hok, hseen⟩ := encoderFit_ok hm hfit
  refine ⟨fun i v hc => hseen i j cs v hj hc, ?_⟩
  intro i1 i2 v w hv hw hvc hwc
  obtain ⟨_, c1⟩ := (C06_transform_correct hfit hm h63 hn1 hD1 g1).2 b1 h1
  obtain ⟨_, c2⟩ := (C06_transform_correct hfit hm h63 hn2 hD2 g2).2 b2 h2
  obtain ⟨fc, k, hj1, hg1, he1, _⟩ := c1 i1 j _ hv
  rw [hj] at hj1; cases hj1
  obtain ⟨fc, l, hj2, hg2, he2, _⟩ := c2 i2 j _ hw
  rw [hj] at hj2; cases hj2
  have hk : cs[k]? = some v := by
    rcases he1 with ⟨_, h⟩ | ⟨h, _⟩
    · exact h
    · exact absurd hvc h
  have hl : cs[l]? = some w := by
    rcases he2 with ⟨_, h⟩ | ⟨h, _⟩
    · exact h
    · exact absurd hwc h
  refine ⟨k, l, hg1, hg2, hk, hl, ?_, ?_⟩
  · rintro rfl; rw [hk] at hl; cases hl; rfl
  · rintro rfl
    exact (List.getElem?_inj (List.getElem?_eq_some_iff.1 hk).1 (hok _ (List.mem_of_getElem? hj))).1
      (hk.trans hl.symm)

/-- C06, unknown categories with `handle_unknown="consider_missing"`: the cell gets the bin of missing cells. -/
theorem C06_unknown_as_missing (hfit : FittedOn cv cfg D0 enc) (hm : 1 ≤ cfg.maxBins)
    (h63 : ∀ fc ∈ enc, fc.nBins < 2 ^ 63) {n1 n2 : Nat} (hn1 : 0 < n1) (hn2 : 0 < n2)
    {D1 D2 : Dataset N V} (hD1 : GoodInput n1 D1) (hD2 : GoodInput n2 D2) {g1 g2 : Nat → Word} {b1 b2 : FBA}
    (h1 : encoderTransform cv cfg enc g1 n1 D1 = .ok b1)
    (h2 : encoderTransform cv cfg enc g2 n2 D2 = .ok b2)
    (j : Nat) (cs : List V) (hj : enc[j]? = some (.cat cs))
    (i1 i2 : Nat) (v : V) (hv : cell D1 i1 j = some (some v)) (hunk : v ∉ cs)
    (hmiss : cell D2 i2 j = some none) :
    b1.getValue i1 j = b2.getValue i2 j := by
  obtain ⟨_, c1⟩ := (C06_transform_correct hfit hm h63 hn1 hD1 g1).2 b1 h1
  obtain ⟨_, c2⟩ := (C06_transform_correct hfit hm h63 hn2 hD2 g2).2 b2 h2
  obtain ⟨fc, k, hj1, hg1, he1, _⟩ := c1 i1 j _ hv
  rw [hj] at hj1; cases hj1
  obtain ⟨fc, l, hj2, hg2, he2, _⟩ := c2 i2 j _ hmiss
  rw [hj] at hj2; cases hj2
  have hk : k = cs.length := by
    rcases he1 with ⟨h, _⟩ | ⟨_, h⟩
    · exact absurd h hunk
    · exact h
  have hl : l = cs.length := he2
  rw [hg1, hg2, hk, hl]

omit [IsStrictOrderedRing K] in
/-- C06, unknown categories with `handle_unknown="error"`: `transform` raises ValueError. -/
theorem C06_unknown_raises {n : Nat} (hn : 0 < n) {D : Dataset N V} (hD : GoodInput n D) (g : Nat → Word)
    (herr : cfg.handleUnknownError = true) (i j : Nat) (cs : List V) (v : V)
    (hj : enc[j]? = some (.cat cs)) (hv : cell D i j = some (some v)) (hunk : v ∉ cs) :
    encoderTransform cv cfg enc g n D = .error .valueError := by
  cases D with
  | frame X =>
    simp only [encoderTransform, transformDataFrame]
    by_cases hl : X.length = enc.length
    · rw [if_neg (by simpa using hl)]
      rw [mapM_error_of (e := .valueError)]
      · rfl
      · intro p hp
        obtain ⟨k, hk, rfl⟩ := List.getElem_of_mem hp
        have hkX : k < X.length := by simp at hk; omega
        simp only [List.getElem_zip]
        have hs := hD.2 _ (List.getElem_mem hkX)
        exact colMaxValue_dichotomy (by rw [hs.1]; exact hn) (mem_categories cv hs)
      · simp only [cell, Option.bind_eq_some_iff] at hv
        obtain ⟨p, hp, hv⟩ := hv
        obtain ⟨hjX, rfl⟩ := List.getElem?_eq_some_iff.1 hp
        obtain ⟨hje, he⟩ := List.getElem?_eq_some_iff.1 hj
        refine ⟨(enc[j], X[j]), List.mem_iff_getElem.2 ⟨j, by simp; omega, by simp⟩, ?_⟩
        simp only [he]
        exact colMaxValue_unknown herr
          (mem_categories cv (hD.2 _ (List.getElem_mem hjX)) v (List.mem_of_getElem? hv)) hunk
    · rw [if_pos hl]
  | array kind X =>
    simp only [encoderTransform, transformArray]
    by_cases hl : X.length = enc.length
    · rw [if_neg (by simpa using hl)]
      split
      · rfl
      rw [mapM_error_of (e := .valueError)]
      · rfl
      · intro p hp
        obtain ⟨k, hk, rfl⟩ := List.getElem_of_mem hp
        have hkX : k < X.length := by simp at hk; omega
        simp only [List.getElem_zip]
        rw [hasMissing_eq (by
          rcases hD.2 with h | h
          · left; exact h
          · right; exact h _ (List.getElem_mem hkX))]
        exact colMaxValue_dichotomy (by rw [hD.1 _ (List.getElem_mem hkX)]; exact hn)
          (fun v hv => (cv.mem_catsOf _ v).2 hv)
      · simp only [cell, Option.bind_eq_some_iff] at hv
        obtain ⟨p, hp, hv⟩ := hv
        obtain ⟨hjX, rfl⟩ := List.getElem?_eq_some_iff.1 hp
        obtain ⟨hje, he⟩ := List.getElem?_eq_some_iff.1 hj
        refine ⟨(enc[j], X[j]), List.mem_iff_getElem.2 ⟨j, by simp; omega, by simp⟩, ?_⟩
        simp only [he]
        exact colMaxValue_unknown herr ((cv.mem_catsOf _ v).2 (List.mem_of_getElem? hv)) hunk
    · rw [if_pos hl]

/-- C07 for well-formed inputs: the bins of a row only depend on the row. `i1` and `i2` are the positions of the same
row in two batches. Missing (see `C07_violated_object_array`): object arrays that contain missing cells. -/
theorem C07_row_independent_partial (hfit : FittedOn cv cfg D0 enc) (hm : 1 ≤ cfg.maxBins)
    (h63 : ∀ fc ∈ enc, fc.nBins < 2 ^ 63) {n1 n2 : Nat} (hn1 : 0 < n1) (hn2 : 0 < n2)
    {D1 D2 : Dataset N V} (hD1 : GoodInput n1 D1) (hD2 : GoodInput n2 D2) {g1 g2 : Nat → Word} {b1 b2 : FBA}
    (h1 : encoderTransform cv cfg enc g1 n1 D1 = .ok b1)
    (h2 : encoderTransform cv cfg enc g2 n2 D2 = .ok b2)
    (hconv : numOf cv D1 = numOf cv D2) (i1 i2 : Nat) (hi1 : i1 < n1)
    (hrow : ∀ j, cell D1 i1 j = cell D2 i2 j) :
    ∀ j < enc.length, ∃ v, b1.getValue i1 j = .ok v ∧ b2.getValue i2 j = .ok v := by
  intro j hj
  obtain ⟨_, hok, _⟩ := encoderFit_ok hm hfit
  obtain ⟨_, _, _, _, _, hex, _⟩ := encoderTransform_ok hok h63 hn1 hD1 h1
  obtain ⟨c, hc⟩ := hex i1 j hj hi1
  obtain ⟨_, c1⟩ := (C06_transform_correct hfit hm h63 hn1 hD1 g1).2 b1 h1
  obtain ⟨_, c2⟩ := (C06_transform_correct hfit hm h63 hn2 hD2 g2).2 b2 h2
  obtain ⟨fc, v, hj1, hg1, he1, _⟩ := c1 i1 j c hc
  obtain ⟨fc', w, hj2, hg2, he2, hu⟩ := c2 i2 j c (hrow j ▸ hc)
  rw [hj1] at hj2; cases hj2
  rw [hconv] at he1
  refine ⟨v, hg1, ?_⟩
  rw [hg2, hu v he1]

/-- C08. `inverse_transform` after `transform`: known categories come back, missing and unknown cells are
missing, numbers lie in the interval shown. Every categorical column must have a category. -/
theorem C08_inverse_transform (hfit : FittedOn cv cfg D0 enc) (hm : 1 ≤ cfg.maxBins)
    (h63 : ∀ fc ∈ enc, fc.nBins < 2 ^ 63) (hne : enc ≠ []) (hcats : ∀ cs, FitCol.cat cs ∈ enc → cs ≠ [])
    {n : Nat} (hn : 0 < n) {D : Dataset N V} (hD : GoodInput n D) {g : Nat → Word} {b : FBA}
    (h : encoderTransform cv cfg enc g n D = .ok b) :
    ∃ R, inverseTransform enc b = .ok R ∧ R.length = enc.length ∧
      ∀ i j c, cell D i j = some c → ∃ col fc d, R[j]? = some col ∧ enc[j]? = some fc ∧ col[i]? = some d ∧
        DecodesTo (numOf cv D) fc c d := by
  obtain ⟨_, hok, _⟩ := encoderFit_ok hm hfit
  obtain ⟨hns, hml, hlay, hm63, hnc, hex, hcell⟩ := encoderTransform_ok hok h63 hn hD h
  have hval : ∀ i j, j < enc.length → i < n → ∃ fc c v, enc[j]? = some fc ∧ cell D i j = some c ∧
      EncodesTo (numOf cv D) fc c v ∧ b.getValue i j = .ok v ∧
      (∀ m, b.maxValues[j]? = some m → v ≤ m) := by
    intro i j hj hi
    obtain ⟨c, hc⟩ := hex i j hj hi
    obtain ⟨_, fc, v, h1, h2, h3, h4⟩ := hcell i j c hc
    exact ⟨fc, c, v, h1, hc, cellBin_encodes (hok fc (List.mem_of_getElem? h1)) h2, h3, h4⟩
  obtain ⟨w, cols, harr, hcl, hcg⟩ := toArray_of hlay (by
      intro hc; rw [hc] at hml; simp at hml; exact hne (List.length_eq_zero_iff.1 hml.symm)) hm63
    (by
      intro i j hj hi
      obtain ⟨_, _, v, _, _, _, h5, h6⟩ := hval i j (by omega) hi
      exact ⟨v, h5, h6 _ (List.getElem?_eq_getElem hj)⟩)
  have hcl' : cols.length = enc.length := by omega
  unfold inverseTransform
  rw [harr]
  simp only [bind_ok]
  -- each column decodes
  have hcol : ∀ j (hj : j < enc.length), ∃ ds, inverseCol enc[j] (cols[j]'(by omega)) = .ok ds ∧
      ∀ i c, cell D i j = some c → ∃ d, ds[i]? = some d ∧ DecodesTo (numOf cv D) enc[j] c d := by
    intro j hj
    have hlen : (cols[j]'(by omega)).length = n := (hcg j (by omega)).1
    have hdec : ∀ i (hi : i < n), ∃ d c, decodeBin enc[j] ((cols[j]'(by omega))[i]'(by omega)) = .ok d ∧
        cell D i j = some c ∧ DecodesTo (numOf cv D) enc[j] c d := by
      intro i hi
      obtain ⟨fc, c, v, hj1, hc, he, hg, _⟩ := hval i j hj hi
      rw [List.getElem?_eq_getElem hj] at hj1; cases hj1
      have := (hcg j (by omega)).2 i hi
      rw [hg] at this
      injection this with this
      rw [← this]
      obtain ⟨d, hd1, hd2⟩ := decodeBin_spec (by
        intro cs hcs; exact hcats cs (hcs ▸ List.getElem_mem hj)) he
      exact ⟨d, c, hd1, hc, hd2⟩
    obtain ⟨ds, hds⟩ := mapM_total (f := decodeBin enc[j]) (l := cols[j]'(by omega)) (by
      intro x hx
      obtain ⟨i, hi, rfl⟩ := List.getElem_of_mem hx
      obtain ⟨d, _, h1, _⟩ := hdec i (by omega)
      exact ⟨d, h1⟩)
    refine ⟨ds, by rw [inverseCol_eq]; exact hds, ?_⟩
    intro i c hc
    have hi : i < n := (hcell i j c hc).1
    obtain ⟨d, c', h1, h2, h3⟩ := hdec i hi
    rw [hc] at h2; cases h2
    rw [mapM_eq_ok] at hds
    have hil : i < ds.length := by rw [← hds.length_eq]; omega
    have := hds.get (i := i) (by omega) hil
    simp only [List.get_eq_getElem] at this
    rw [h1] at this
    injection this with this
    exact ⟨d, by rw [List.getElem?_eq_getElem hil, this], h3⟩
  obtain ⟨R, hR⟩ := mapM_total (l := (List.range enc.length).zip enc)
    (f := fun p => do let c ← rd cols p.1; inverseCol p.2 c) (by
      intro p hp
      obtain ⟨j, hj, rfl⟩ := List.getElem_of_mem hp
      have hj : j < enc.length := by simpa using hj
      obtain ⟨ds, hds, _⟩ := hcol j hj
      refine ⟨ds, ?_⟩
      simp only [List.getElem_zip, List.getElem_range, rd_of_lt (show j < cols.length by omega), bind_ok]
      exact hds)
  refine ⟨R, hR, ?_, ?_⟩
  · rw [mapM_eq_ok] at hR
    rw [← hR.length_eq]; simp
  · intro i j c hc
    obtain ⟨_, fc, _, hj1, _⟩ := hcell i j c hc
    obtain ⟨hj, rfl⟩ := List.getElem?_eq_some_iff.1 hj1
    obtain ⟨ds, hds, hds2⟩ := hcol j hj
    obtain ⟨d, hd1, hd2⟩ := hds2 i c hc
    obtain ⟨hRl, hRg⟩ := mapM_zip_ok (A := List.range enc.length) (B := enc) (by simp) hR
    have := hRg j (by simpa using hj)
    simp only [List.getElem_range, rd_of_lt (show j < cols.length by omega), bind_ok, hds] at this
    injection this with this
    refine ⟨ds, _, d, ?_, hj1, hd1, hd2⟩
    rw [List.getElem?_eq_getElem (by simp at hRl; omega), this]

/-- C09 for distinct column names: the `k`-th packed column holds the bins of the `k`-th column of the dataframe.
Missing (see `C09_violated_duplicate_names`): dataframes with repeated column names. -/
theorem C09_columns_encoded_partial (hfit : FittedOn cv cfg D0 enc) (hm : 1 ≤ cfg.maxBins)
    (h63 : ∀ fc ∈ enc, fc.nBins < 2 ^ 63) {n : Nat} (hn : 0 < n) (X : List (N × Series V))
    (hX : ∀ p ∈ X, GoodSeries n p.2) (hnames : (X.map Prod.fst).Nodup) {g : Nat → Word} {b : FBA}
    (h : encoderTransform cv cfg enc g n (.frame X) = .ok b) (k : Nat) (name : N) (s : Series V)
    (hk : X[k]? = some (name, s)) :
    ∃ fc, enc[k]? = some fc ∧ ∀ i c, s.cells[i]? = some c →
      ∃ v, b.getValue i k = .ok v ∧ EncodesTo cv.toFloat fc c v := by
  have hD : GoodInput n (Dataset.frame X) := ⟨hnames, hX⟩
  obtain ⟨_, hc⟩ := (C06_transform_correct hfit hm h63 hn hD g).2 b h
  have hcell : ∀ i c, s.cells[i]? = some c → cell (Dataset.frame X) i k = some c := by
    intro i c hi; simp [cell, hk, hi]
  have hs := hX _ (List.mem_of_getElem? hk)
  have h0 : 0 < s.cells.length := by have := hs.1; simp only at this; omega
  obtain ⟨fc, _, hfc, _⟩ := hc 0 k _ (hcell 0 _ (List.getElem?_eq_getElem h0))
  refine ⟨fc, hfc, ?_⟩
  intro i c hi
  obtain ⟨fc', v, hj', hg, he, _⟩ := hc i k c (hcell i c hi)
  rw [hfc] at hj'; cases hj'
  exact ⟨v, hg, he⟩

end

/-! ## Concrete cases and violations -/

/-- Values are natural numbers, as text or as numbers. -/
def exConv : Conv Nat ℚ where
  catsOf c := (c.filterMap id).dedup
  toFloat v := some v
  toFloat32 v := some v
  catsOf_nodup c := List.nodup_dedup _
  mem_catsOf c v := by simp

def exCfg (isCat : Option (List Bool)) : EncCfg ℚ :=
  { maxBins := 5, catMin := 0, isCategorical := isCat, handleUnknownError := false, cap := 1000 }

/-- A dataframe with a categorical and a numerical column, on which all the hypotheses of the theorems above hold. -/
def exFrame : Dataset String Nat :=
  .frame [("a", { kind := .bOSU, cells := [some 7, none, some 8] }),
          ("b", { kind := .uif, cells := [some 1, some 2, none] })]

def exEnc : List (FitCol Nat ℚ) := [.cat [7, 8], .num [3 / 2]]

theorem exThresholds : (middles (npUnique [1, 2])).map (fun t => min t (1000 : ℚ)) = [3 / 2] := by
  have h1 : ([1, 2] : List ℚ).dedup = [1, 2] := by decide
  have h2 : ([1, 2] : List ℚ).mergeSort (fun a b => decide (a ≤ b)) = [1, 2] :=
    List.mergeSort_of_pairwise (by norm_num)
  simp only [npUnique, sortAsc, h1, h2, middles]
  norm_num

theorem exFrame_fitted : FittedOn exConv (exCfg none) exFrame exEnc := by
  refine ⟨none, ?_, 3, ?_⟩
  · obtain ⟨thr, h1, h2, h3, h4, h5⟩ :=
      findBinningThresholds_spec (K := ℚ) 1000 [some 1, some 2, none] 5 (by norm_num)
    have : thr = [3 / 2] := by
      rw [h5 (by decide)]
      exact exThresholds
    subst this
    simp only [encoderFit, fitDataFrame, exFrame, exCfg]
    simp [List.range_succ, fitSeries, declared, isSeriesCategorical, takeSubset, toFloats, exConv]
    rw [h1]
    simp [exEnc]
  · intro p hp
    simp at hp
    rcases hp with rfl | rfl <;> simp [GoodSeries]

theorem exFrame_ok : GoodInput 3 exFrame ∧ (∀ fc ∈ exEnc, fc.nBins < 2 ^ 63) ∧
    Acceptable exConv (exCfg none) exEnc exFrame ∧ cell exFrame 1 0 = some none ∧
    cell exFrame 0 0 = some (some 7) ∧ (∀ cs, FitCol.cat cs ∈ exEnc → cs ≠ []) := by
  refine ⟨⟨by decide, ?_⟩, ?_, ⟨rfl, ?_, ?_⟩, rfl, rfl, ?_⟩
  · intro p hp
    simp at hp
    rcases hp with rfl | rfl <;> simp [GoodSeries]
  · intro fc hfc
    simp [exEnc] at hfc
    rcases hfc with rfl | rfl <;> simp [FitCol.nBins]
  · intro i j v thr _ _; rfl
  · intro h; cases h
  · intro cs hcs
    simp [exEnc] at hcs
    subst hcs; simp

example : GoodInput 3 exFrame ∧ (∀ fc ∈ exEnc, fc.nBins < 2 ^ 63) ∧ Acceptable exConv (exCfg none) exEnc exFrame ∧
    cell exFrame 1 0 = some none ∧ cell exFrame 0 0 = some (some 7) ∧ (∀ cs, FitCol.cat cs ∈ exEnc → cs ≠ []) := exFrame_ok

/-- C05 is violated for an object array with a missing cell in a numerical column: `transform` does not look for missing
values in object arrays, so the missing cell is encoded in the last regular bin. -/
theorem C05_violated_object_array : ∃ b,
    FittedOn exConv (exCfg (some [false])) (.array .bOSU [[some 1, some 2]] : Dataset String Nat)
      [.num [3 / 2]] ∧
    encoderTransform exConv (exCfg (some [false])) [.num [3 / 2]] (fun _ => 0) 2
      (.array .bOSU [[some 2, none]] : Dataset String Nat) = .ok b ∧
    b.getValue 0 0 = .ok 1 ∧ b.getValue 1 0 = .ok 1 := by
  have hfit : FittedOn exConv (exCfg (some [false])) (.array .bOSU [[some 1, some 2]] : Dataset String Nat)
      [.num [3 / 2]] := by
    refine ⟨none, ?_, by decide⟩
    obtain ⟨thr, h1, h2, h3, h4, h5⟩ :=
      findBinningThresholds_spec (K := ℚ) 1000 [some 1, some 2] 5 (by norm_num)
    have : thr = [3 / 2] := by
      rw [h5 (by decide)]
      exact exThresholds
    subst this
    simp [encoderFit, fitArray, exCfg, List.range_succ, fitArrayCol, declared, rd, arrayColCategorical, exConv,
      takeSubset, toFloats]
    rw [h1]
    rfl
  have hcol : binnedCol exConv.toFloat32 .valueError (.num [3 / 2]) 1 [some 2, none] = .ok [1, 1] := by
    decide +kernel
  obtain ⟨b, hb, _, hg, _⟩ := fillColumn_spec (init_layout (fun _ => 0) 2 [1]) (by norm_num) 0 (by simp)
    (by simp) [1, 1] rfl (by simp)
  refine ⟨b, hfit, ?_, hg 0 (by norm_num), hg 1 (by norm_num)⟩
  have hmv : colMaxValue (exCfg (some [false])) (.num [3 / 2] : FitCol Nat ℚ) false [2] = .ok 1 := by
    simp [colMaxValue, usub]
  simp only [encoderTransform, transformArray]
  simp [exConv] at hcol ⊢
  simp [hmv, rd, hcol]
  have hb' : (FBA.init (fun _ => 0#64) 2 [1]).fillColumn 0 [1, 1] = .ok b := hb
  rw [hb']; rfl

/-- C07 is violated for an object array with a missing cell in a categorical column: the code of the missing cell is
written although it does not fit in the bits of the column, and changes the bin of the row before it. Row 0 (category
`7`) has bin 0 alone, and bin 1 (category `8`) when it is followed by a row with a missing cell. -/
theorem C07_violated_object_array : ∃ b1 b2,
    FittedOn exConv (exCfg (some [true])) (.array .bOSU [[some 7, some 8]] : Dataset String Nat)
      [.cat [7, 8]] ∧
    encoderTransform exConv (exCfg (some [true])) [.cat [7, 8]] (fun _ => 0) 1
      (.array .bOSU [[some 7]] : Dataset String Nat) = .ok b1 ∧
    encoderTransform exConv (exCfg (some [true])) [.cat [7, 8]] (fun _ => 0) 2
      (.array .bOSU [[some 7, none]] : Dataset String Nat) = .ok b2 ∧
    b1.getValue 0 0 = .ok 0 ∧ b2.getValue 0 0 = .ok 1 ∧ b2.getValue 1 0 = .ok 0 := by
  have h1 : (do
      let b1 ← encoderTransform exConv (exCfg (some [true])) [.cat [7, 8]] (fun _ => 0) 1
        (.array .bOSU [[some 7]] : Dataset String Nat)
      b1.getValue 0 0) = .ok 0 := by decide +kernel
  have h2 : (do
      let b2 ← encoderTransform exConv (exCfg (some [true])) [.cat [7, 8]] (fun _ => 0) 2
        (.array .bOSU [[some 7, none]] : Dataset String Nat)
      let x ← b2.getValue 0 0
      let y ← b2.getValue 1 0
      return (x, y)) = .ok (1, 0) := by decide +kernel
  rw [bind_eq_ok] at h1 h2
  obtain ⟨b1, e1, g1⟩ := h1
  obtain ⟨b2, e2, h2⟩ := h2
  rw [bind_eq_ok] at h2
  obtain ⟨x, hx, h2⟩ := h2
  rw [bind_eq_ok] at h2
  obtain ⟨y, hy, h2⟩ := h2
  simp at h2
  obtain ⟨rfl, rfl⟩ := h2
  refine ⟨b1, b2, ⟨none, rfl, by decide⟩, e1, e2, g1, hx, hy⟩

/-- C08 is violated for a categorical column without categories (all cells were missing in `fit`):
`inverse_transform` raises IndexError. -/
theorem C08_violated_no_category :
    FittedOn exConv (exCfg (some [true])) (.frame [("a", { kind := .bOSU, cells := [none] })] : Dataset String Nat)
      [.cat []] ∧
    (do
      let b ← encoderTransform exConv (exCfg (some [true])) [.cat []] (fun _ => 0) 1
        (.frame [("a", { kind := .bOSU, cells := [none] })] : Dataset String Nat)
      let _ ← inverseTransform ([.cat []] : List (FitCol Nat ℚ)) b) = .error .indexError := by
  refine ⟨⟨none, rfl, 1, ?_⟩, by decide +kernel⟩
  intro p hp
  simp at hp
  subst hp; simp [GoodSeries]

/-- C09 is violated for a dataframe with two columns of the same name: the second packed column is never written, so
that its cells are whatever was in the uninitialised buffer (here all ones or all zeros), and the first packed column holds the cells of the second column (here
`8, 7` instead of `7, 8`). -/
theorem C09_violated_duplicate_names : ∃ b b',
    FittedOn exConv (exCfg (some [true, true])) (.frame [("a", { kind := .bOSU, cells := [some 7, some 8] }),
      ("a", { kind := .bOSU, cells := [some 5, some 6] })] : Dataset String Nat) [.cat [7, 8], .cat [5, 6]] ∧
    encoderTransform exConv (exCfg (some [true, true])) [.cat [7, 8], .cat [5, 6]] (fun _ => 0) 2
      (.frame [("a", { kind := .bOSU, cells := [some 7, some 8] }),
        ("a", { kind := .bOSU, cells := [some 8, some 7] })] : Dataset String Nat) = .ok b ∧
    encoderTransform exConv (exCfg (some [true, true])) [.cat [7, 8], .cat [5, 6]] (fun _ => BitVec.allOnes 64) 2
      (.frame [("a", { kind := .bOSU, cells := [some 7, some 8] }),
        ("a", { kind := .bOSU, cells := [some 8, some 7] })] : Dataset String Nat) = .ok b' ∧
    b.getValue 0 1 = .ok 0 ∧ b'.getValue 0 1 = .ok 3 ∧ b.getValue 0 0 = .ok 1 ∧ b.getValue 1 0 = .ok 0 := by
  have h1 : (do
      let b ← encoderTransform exConv (exCfg (some [true, true])) [.cat [7, 8], .cat [5, 6]] (fun _ => 0) 2
        (.frame [("a", { kind := .bOSU, cells := [some 7, some 8] }),
          ("a", { kind := .bOSU, cells := [some 8, some 7] })] : Dataset String Nat)
      return (← b.getValue 0 1, ← b.getValue 0 0, ← b.getValue 1 0)) = .ok (0, 1, 0) := by decide +kernel
  have h2 : (do
      let b ← encoderTransform exConv (exCfg (some [true, true])) [.cat [7, 8], .cat [5, 6]]
        (fun _ => BitVec.allOnes 64) 2
        (.frame [("a", { kind := .bOSU, cells := [some 7, some 8] }),
          ("a", { kind := .bOSU, cells := [some 8, some 7] })] : Dataset String Nat)
      b.getValue 0 1) = .ok 3 := by decide +kernel
  rw [bind_eq_ok] at h1 h2
  obtain ⟨b, e1, g1⟩ := h1
  obtain ⟨b', e2, g2⟩ := h2
  rw [bind_eq_ok] at g1
  obtain ⟨x0, f0, g1⟩ := g1
  rw [bind_eq_ok] at g1
  obtain ⟨x1, f1, g1⟩ := g1
  rw [bind_eq_ok] at g1
  obtain ⟨x2, f2, g1⟩ := g1
  cases g1
  refine ⟨b, b', ⟨none, rfl, 2, ?_⟩, e1, e2, f0, g2, f1, f2⟩
  intro p hp
  simp at hp
  rcases hp with rfl | rfl <;> simp [GoodSeries]

end Verif
