import Verif.Spec.Recode
import Verif.Proofs.BinPlace
import Verif.Proofs.EncoderReject

/-! # Thresholds and bins of a column transformed by an increasing function -/
namespace Verif

open Spec

section
variable {K : Type} [LinearOrder K]

/-- Two increasing lists with the same elements are equal. -/
theorem eq_of_sorted_mem {l l' : List K} (h : l.Pairwise (· < ·)) (h' : l'.Pairwise (· < ·)) (hm : ∀ x, x ∈ l ↔ x ∈ l') : l = l' := by
  have hp : l.Perm l' := (List.perm_ext_iff_of_nodup (h.imp ne_of_lt) (h'.imp ne_of_lt)).2 hm
  exact hp.eq_of_pairwise (le := (· ≤ ·)) (fun a b _ _ h1 h2 => le_antisymm h1 h2) (h.imp le_of_lt) (h'.imp le_of_lt)

theorem npUnique_map {φ : K → K} {l : List K} (hφ : ∀ x ∈ l, ∀ y ∈ l, x < y → φ x < φ y) :
    npUnique (l.map φ) = (npUnique l).map φ := by
  refine eq_of_sorted_mem (npUnique_sorted _) ?_ ?_
  · rw [List.pairwise_map]
    refine (npUnique_sorted l).imp_of_mem ?_
    intro a b ha hb hab
    exact hφ a ((mem_npUnique _ _).1 ha) b ((mem_npUnique _ _).1 hb) hab
  · intro x
    rw [mem_npUnique]
    simp only [List.mem_map, mem_npUnique]

theorem sortAsc_map {φ : K → K} {l : List K} (hφ : ∀ x ∈ l, ∀ y ∈ l, x < y → φ x < φ y) :
    sortAsc (l.map φ) = (sortAsc l).map φ := by
  have hp : (sortAsc (l.map φ)).Perm ((sortAsc l).map φ) := (sortAsc_perm _).trans ((sortAsc_perm l).map φ).symm
  refine hp.eq_of_pairwise (le := (· ≤ ·)) (fun a b _ _ h1 h2 => le_antisymm h1 h2) (sortAsc_sorted _) ?_
  rw [List.pairwise_map]
  refine (sortAsc_sorted l).imp_of_mem ?_
  intro a b ha hb hab
  rcases lt_or_eq_of_le hab with h | h
  · exact (hφ a ((sortAsc_perm _).mem_iff.1 ha) b ((sortAsc_perm _).mem_iff.1 hb) h).le
  · rw [h]

variable [Field K]

omit [LinearOrder K] in
theorem middles_map (φ : K → K) (l : List K) :
    middles (l.map φ) = (l.zip l.tail).map fun p => (φ p.1 + φ p.2) / 2 := by
  induction l with
  | nil => rfl
  | cons a l ih =>
    cases l with
    | nil => rfl
    | cons b l =>
      simp only [List.map_cons, middles, List.tail_cons, List.zip_cons_cons]
      refine congrArg _ ?_
      simpa using ih

variable [IsStrictOrderedRing K]

/-- The thresholds are half way between pairs of neighbouring values, and the pairs depend on the order of the values only. -/
theorem thresholds_pairs (cap : K) (col : List (Option K)) (m : Nat) (hm : 1 ≤ m) :
    ∃ ps : List (K × K),
      (∀ p ∈ ps, p.1 ≤ p.2 ∧ some p.1 ∈ col ∧ some p.2 ∈ col ∧ ∀ x, some x ∈ col → x ≤ p.1 ∨ p.2 ≤ x) ∧
      ∀ φ : K → K, (∀ x y, some x ∈ col → some y ∈ col → x < y → φ x < φ y) → (∀ x, some x ∈ col → φ x ≤ cap) →
        findBinningThresholds cap (col.map (Option.map φ)) m = .ok (ps.map fun p => (φ p.1 + φ p.2) / 2) := by
  have hfm : ∀ φ : K → K, (col.map (Option.map φ)).filterMap id = (col.filterMap id).map φ := by
    intro φ
    rw [List.filterMap_map, List.map_filterMap]
    congr 1
  have hmem : ∀ x, x ∈ col.filterMap id ↔ some x ∈ col := by intro x; simp
  have hclip : ∀ (φ : K → K) (ps : List (K × K)), (∀ x, some x ∈ col → φ x ≤ cap) → (∀ p ∈ ps, some p.1 ∈ col ∧ some p.2 ∈ col) →
      (ps.map fun p => (φ p.1 + φ p.2) / 2).map (fun t => min t cap) = ps.map fun p => (φ p.1 + φ p.2) / 2 := by
    intro φ ps hc hp
    rw [List.map_map]
    refine List.map_congr_left fun p hp' => ?_
    have h1 := hc _ (hp p hp').1
    have h2 := hc _ (hp p hp').2
    simp only [Function.comp]
    exact min_eq_left (by linarith)
  set vals := col.filterMap id with hvals
  set u := npUnique vals with hu
  by_cases hd : u.length ≤ m
  · refine ⟨u.zip u.tail, ?_, ?_⟩
    · intro p hp
      obtain ⟨i, hi, rfl⟩ := List.getElem_of_mem hp
      rw [List.length_zip, List.length_tail] at hi
      have hs := npUnique_sorted vals
      rw [← hu] at hs
      have hsp := List.pairwise_iff_getElem.1 hs
      have h1 : i < u.length := by omega
      have h2 : i + 1 < u.length := by omega
      have e : (u.zip u.tail)[i]'(by simp; omega) = (u[i], u[i + 1]) := by simp
      rw [e]
      refine ⟨(hsp i (i + 1) h1 h2 (by omega)).le, ?_, ?_, ?_⟩
      · rw [← hmem, ← mem_npUnique]; exact List.getElem_mem h1
      · rw [← hmem, ← mem_npUnique]; exact List.getElem_mem h2
      · intro x hx
        rw [← hmem, ← mem_npUnique] at hx
        obtain ⟨k, hk, rfl⟩ := List.getElem_of_mem hx
        rcases Nat.lt_or_ge i k with h | h
        · right
          rcases Nat.lt_or_eq_of_le h with h' | h'
          · exact (hsp (i + 1) k h2 hk h').le
          · have : i + 1 = k := h'
            subst this; exact le_rfl
        · left
          rcases Nat.lt_or_eq_of_le h with h' | h'
          · exact (hsp k i hk h1 h').le
          · subst h'; exact le_rfl
    · intro φ hφ hcap
      have hφ' : ∀ x ∈ vals, ∀ y ∈ vals, x < y → φ x < φ y := fun x hx y hy => hφ x y ((hmem x).1 hx) ((hmem y).1 hy)
      unfold findBinningThresholds
      simp only [hfm, npUnique_map hφ', ← hu, List.length_map]
      rw [if_pos hd]
      simp only [bind_ok, middles_map]
      refine congrArg Except.ok (hclip φ _ hcap ?_)
      intro p hp
      have := List.of_mem_zip hp
      exact ⟨(hmem _).1 ((mem_npUnique _ _).1 this.1), (hmem _).1 ((mem_npUnique _ _).1 (List.mem_of_mem_tail this.2))⟩
  · set s := sortAsc vals with hs
    have hpos : 0 < s.length := by
      rw [hs, (sortAsc_perm vals).length_eq]
      have : 0 < u.length := by omega
      obtain ⟨x, hx⟩ := List.exists_mem_of_length_pos this
      exact List.length_pos_of_mem ((mem_npUnique _ _).1 hx)
    have hsort := sortAsc_sorted vals
    rw [← hs] at hsort
    have hin : ∀ i (hi : i < s.length), some s[i] ∈ col := by
      intro i hi
      rw [← hmem]
      exact (sortAsc_perm vals).mem_iff.1 (List.getElem_mem hi)
    have hidx : ∀ k, k < m - 1 → (s.length - 1) * (k + 1) / m < s.length ∧ ((s.length - 1) * (k + 1) + m - 1) / m < s.length :=
      fun k hk => perc_idx s.length m (k + 1) hpos (by omega) (by omega)
    let ps : List (K × K) := (List.range (m - 1)).attach.map fun k =>
      (s[(s.length - 1) * (k.1 + 1) / m]'((hidx k.1 (List.mem_range.1 k.2)).1),
        s[((s.length - 1) * (k.1 + 1) + m - 1) / m]'((hidx k.1 (List.mem_range.1 k.2)).2))
    refine ⟨ps, ?_, ?_⟩
    · intro p hp
      obtain ⟨⟨k, hk⟩, _, rfl⟩ := List.mem_map.1 hp
      have hk' := List.mem_range.1 hk
      obtain ⟨h1, h2⟩ := hidx k hk'
      have hle : (s.length - 1) * (k + 1) / m ≤ ((s.length - 1) * (k + 1) + m - 1) / m := Nat.div_le_div_right (by omega)
      have hle1 : ((s.length - 1) * (k + 1) + m - 1) / m ≤ (s.length - 1) * (k + 1) / m + 1 := by
        rw [← Nat.add_div_right _ (by omega)]
        exact Nat.div_le_div_right (by omega)
      refine ⟨getElem_mono hsort h1 h2 hle, hin _ h1, hin _ h2, ?_⟩
      intro x hx
      rw [← hmem, ← (sortAsc_perm vals).mem_iff, ← hs] at hx
      obtain ⟨i, hi, rfl⟩ := List.getElem_of_mem hx
      rcases Nat.lt_or_ge ((s.length - 1) * (k + 1) / m) i with h | h
      · exact Or.inr (getElem_mono hsort h2 hi (by omega))
      · exact Or.inl (getElem_mono hsort hi h1 h)
    · intro φ hφ hcap
      have hφ' : ∀ x ∈ vals, ∀ y ∈ vals, x < y → φ x < φ y := fun x hx y hy => hφ x y ((hmem x).1 hx) ((hmem y).1 hy)
      unfold findBinningThresholds
      simp only [hfm, npUnique_map hφ', ← hu, List.length_map, sortAsc_map hφ', ← hs]
      rw [if_neg hd]
      have hmap : ((List.range (m - 1)).map (· + 1)).mapM (percentileMidpoint (s.map φ) m) = .ok (ps.map fun p => (φ p.1 + φ p.2) / 2) := by
        rw [mapM_eq_ok, List.forall₂_iff_get]
        refine ⟨by simp [ps], ?_⟩
        intro i h1 h2
        have hi : i < m - 1 := by simpa using h1
        obtain ⟨g1, g2⟩ := hidx i hi
        have g1' : (s.length - 1) * (i + 1) / m < (s.map φ).length := by simpa using g1
        have g2' : ((s.length - 1) * (i + 1) + m - 1) / m < (s.map φ).length := by simpa using g2
        simp only [List.get_eq_getElem, List.getElem_map, List.getElem_range, percentileMidpoint, List.length_map]
        rw [rd_of_lt g1', rd_of_lt g2']
        simp [ps]
      rw [hmap]
      simp only [bind_ok]
      refine congrArg Except.ok (hclip φ _ hcap ?_)
      intro p hp
      obtain ⟨⟨k, hk⟩, _, rfl⟩ := List.mem_map.1 hp
      obtain ⟨h1, h2⟩ := hidx k (List.mem_range.1 hk)
      exact ⟨hin _ h1, hin _ h2⟩

/-- For a value of the column, being above a threshold means being above the lower value of its pair. -/
theorem le_mid_iff {a b x : K} (hab : a ≤ b) (hx : x ≤ a ∨ b ≤ x) : x ≤ (a + b) / 2 ↔ x ≤ a := by
  constructor
  · intro h
    rcases hx with hx | hx
    · exact hx
    · have : b ≤ (a + b) / 2 := hx.trans h
      have : b ≤ a := by linarith
      have := le_antisymm hab this
      subst this
      linarith
  · intro h; linarith

omit [Field K] [IsStrictOrderedRing K] in
/-- The search for the bin looks at comparisons only. -/
theorem binSearch_congr {thr thr' : List K} {x x' : K} (hl : thr'.length = thr.length)
    (hc : ∀ i (h : i < thr.length), (x' ≤ thr'[i]'(hl ▸ h) ↔ x ≤ thr[i])) :
    ∀ fuel l r, binSearch thr' x' fuel l r = binSearch thr x fuel l r := by
  intro fuel
  induction fuel with
  | zero => intro l r; rfl
  | succ fuel ih =>
    intro l r
    simp only [binSearch]
    split
    · by_cases hm : l + (r - l - 1) / 2 < thr.length
      · have hm' : l + (r - l - 1) / 2 < thr'.length := by omega
        rw [rd_of_lt hm, rd_of_lt hm']
        simp only [bind_ok]
        by_cases hx : x ≤ thr[l + (r - l - 1) / 2]
        · rw [if_pos hx, if_pos ((hc _ hm).2 hx)]; exact ih _ _
        · rw [if_neg hx, if_neg (fun h => hx ((hc _ hm).1 h))]; exact ih _ _
      · have hm' : ¬ l + (r - l - 1) / 2 < thr'.length := by omega
        simp [rd, List.getElem?_eq_none (not_lt.1 hm), List.getElem?_eq_none (not_lt.1 hm')]
    · rfl

end

/-! ## Columns -/

section
variable {V K : Type} [DecidableEq V] [LinearOrder K]

/-- Encoding the cells changed by `g` with `fc'` gives the same as encoding the cells with `fc`. -/
def SameEffect (f : V → Option K) (fc fc' : FitCol V K) (g : V → V) (cells : List (Option V)) : Prop :=
  (fc' = fc ∧ g = id) ∨
  ∃ thr thr', fc = .num thr ∧ fc' = .num thr' ∧ ∃ hl : thr'.length = thr.length,
    ∀ v, some v ∈ cells → (f v = none ∧ f (g v) = none) ∨
      ∃ x x', f v = some x ∧ f (g v) = some x' ∧ ∀ i (h : i < thr.length), (x' ≤ thr'[i]'(hl ▸ h) ↔ x ≤ thr[i])

omit [LinearOrder K] [DecidableEq V] in
theorem toFloats_rel {f : V → Option K} {e : Err} {g : V → V} {R : K → K → Prop} {cells : List (Option V)}
    (h : ∀ v, some v ∈ cells → (f v = none ∧ f (g v) = none) ∨ ∃ x x', f v = some x ∧ f (g v) = some x' ∧ R x x') :
    (toFloats f e (cells.map (Option.map g)) = .error e ∧ toFloats f e cells = .error e) ∨
    ∃ xs xs', toFloats f e (cells.map (Option.map g)) = .ok xs' ∧ toFloats f e cells = .ok xs ∧
      List.Forall₂ (fun x x' => (x = none ∧ x' = none) ∨ ∃ y y', x = some y ∧ x' = some y' ∧ R y y') xs xs' := by
  induction cells with
  | nil => exact Or.inr ⟨[], [], rfl, rfl, .nil⟩
  | cons c cells ih =>
    have ih := ih fun v hv => h v (by simp [hv])
    unfold toFloats at ih ⊢
    simp only [List.map_cons, List.mapM_cons]
    cases c with
    | none =>
      simp only [Option.map_none, bind_ok]
      rcases ih with ⟨h1, h2⟩ | ⟨xs, xs', h1, h2, h3⟩
      · left; rw [h1, h2]; exact ⟨rfl, rfl⟩
      · right; rw [h1, h2]
        exact ⟨none :: xs, none :: xs', rfl, rfl, .cons (Or.inl ⟨rfl, rfl⟩) h3⟩
    | some v =>
      simp only [Option.map_some]
      rcases h v (by simp) with ⟨h1, h2⟩ | ⟨x, x', h1, h2, hR⟩
      · left; rw [h1, h2]; exact ⟨rfl, rfl⟩
      · rw [h1, h2]
        simp only [bind_ok]
        rcases ih with ⟨h1, h2⟩ | ⟨xs, xs', h1, h2, h3⟩
        · left; rw [h1, h2]; exact ⟨rfl, rfl⟩
        · right; rw [h1, h2]
          exact ⟨some x :: xs, some x' :: xs', rfl, rfl, .cons (Or.inr ⟨x, x', rfl, rfl, hR⟩) h3⟩

theorem binnedCol_same {f : V → Option K} (e : Err) {fc fc' : FitCol V K} {g : V → V} {cells : List (Option V)}
    (h : SameEffect f fc fc' g cells) (mv : Nat) :
    binnedCol f e fc' mv (cells.map (Option.map g)) = binnedCol f e fc mv cells := by
  rcases h with ⟨rfl, rfl⟩ | ⟨thr, thr', rfl, rfl, hl, h⟩
  · simp
  · simp only [binnedCol]
    rcases toFloats_rel (e := e) h with ⟨h1, h2⟩ | ⟨xs, xs', h1, h2, h3⟩
    · rw [h1, h2]; rfl
    · rw [h1, h2]
      simp only [bind_ok]
      unfold binContinuousColumn
      clear h1 h2 h
      induction h3 with
      | nil => rfl
      | cons hx _ ih =>
        rw [List.mapM_cons, List.mapM_cons, ih]
        congr 1
        rcases hx with ⟨rfl, rfl⟩ | ⟨y, y', rfl, rfl, hR⟩
        · rfl
        · simp only [binValue, hl]
          exact binSearch_congr hl hR _ _ _

omit [LinearOrder K] [DecidableEq V] in
theorem any_isNone_map (g : V → V) (cells : List (Option V)) :
    (cells.map (Option.map g)).any (·.isNone) = cells.any (·.isNone) := by
  rw [List.any_map]
  congr 1
  funext c
  cases c <;> rfl

theorem colMaxValue_same {f : V → Option K} {cfg : EncCfg K} {fc fc' : FitCol V K} {g : V → V} {cells : List (Option V)}
    (h : SameEffect f fc fc' g cells) (hm : Bool) {cats cats' : List V} (hc : g = id → cats' = cats) :
    colMaxValue cfg fc' hm cats' = colMaxValue cfg fc hm cats := by
  rcases h with ⟨rfl, rfl⟩ | ⟨thr, thr', rfl, rfl, hl, h⟩
  · rw [hc rfl]
  · simp only [colMaxValue, hl]

theorem mapM_congr_mem {α β : Type _} {f f' : α → M β} {l : List α} (h : ∀ x ∈ l, f x = f' x) : l.mapM f = l.mapM f' := by
  induction l with
  | nil => rfl
  | cons x l ih => rw [List.mapM_cons, List.mapM_cons, h x (by simp), ih fun y hy => h y (by simp [hy])]

theorem mapM_zip_range {α β γ : Type _} (A : List α) (B : List β) (hl : B.length = A.length) (F : α × β → M γ) :
    (A.zip B).mapM F = ((List.range A.length).mapM fun j => do
      let a ← rd A j
      let b ← rd B j
      F (a, b)) := by
  have e : A.zip B = (List.range A.length).attach.map fun j =>
      (A[j.1]'(List.mem_range.1 j.2), B[j.1]'(by have := List.mem_range.1 j.2; omega)) := by
    refine List.ext_getElem (by simp [hl]) ?_
    intro i h1 h2
    simp
  rw [e, List.mapM_map]
  conv_rhs => rw [← List.attach_map_subtype_val (List.range A.length), List.mapM_map]
  refine mapM_congr_mem ?_
  rintro ⟨j, hj⟩ _
  have h1 : j < A.length := List.mem_range.1 hj
  have h2 : j < B.length := by omega
  simp only [Function.comp, rd_of_lt h1, rd_of_lt h2, bind_ok]

/-! ## Datasets -/

theorem fillLoop_same {f : V → Option K} {e : Err} {enc enc' : List (FitCol V K)} {mvs : List Nat} {cells : List (List (Option V))}
    {ch : Nat → V → V} (hl : enc'.length = enc.length) (hcl : cells.length = enc.length)
    (hR : ∀ j (h : j < enc.length), SameEffect f enc[j] (enc'[j]'(hl ▸ h)) (ch j) (cells[j]'(hcl ▸ h))) (b : FBA) :
    fillLoop f e enc' mvs (cells.mapIdx fun j c => c.map (Option.map (ch j))) b = fillLoop f e enc mvs cells b := by
  unfold fillLoop
  rw [hl]
  apply foldlM_congr_mem
  intro j hj b
  have hj : j < enc.length := by simpa using hj
  have h1 : j < enc'.length := by omega
  have h2 : j < cells.length := by omega
  have h3 : j < (cells.mapIdx fun j c => c.map (Option.map (ch j))).length := by simpa using h2
  rw [rd_of_lt hj, rd_of_lt h1, rd_of_lt h2, rd_of_lt h3]
  simp only [bind_ok, List.getElem_mapIdx, binnedCol_same e (hR j hj)]

theorem encoderTransform_same {N : Type} [DecidableEq N] [Field K] {cv : Conv V K} {cfg : EncCfg K} {enc enc' : List (FitCol V K)} {g : Nat → Word}
    {n : Nat} {ch : Nat → V → V} (hl : enc'.length = enc.length) {D : Dataset N V}
    (hD : match D with | .frame X => (X.map Prod.fst).Nodup | .array _ _ => True)
    (hR : match D with
      | .frame X => ∀ (j : Nat) p fc fc', X[j]? = some p → enc[j]? = some fc → enc'[j]? = some fc' → SameEffect cv.toFloat fc fc' (ch j) p.2.cells
      | .array kind X => ∀ (j : Nat) c fc fc', X[j]? = some c → enc[j]? = some fc → enc'[j]? = some fc' →
          SameEffect (if kind = .uif then cv.toFloat else cv.toFloat32) fc fc' (ch j) c) :
    encoderTransform cv cfg enc' g n (recode ch D) = encoderTransform cv cfg enc g n D := by
  cases D with
  | frame X =>
    simp only [recode, encoderTransform]
    by_cases hX : X.length = enc.length
    · have hX' : (X.mapIdx fun j p => (p.1, { p.2 with cells := p.2.cells.map (Option.map (ch j)) })).length = enc'.length := by
        rw [List.length_mapIdx]; omega
      have hN : ((X.mapIdx fun j p => (p.1, { p.2 with cells := p.2.cells.map (Option.map (ch j)) })).map Prod.fst) = X.map Prod.fst := by
        refine List.ext_getElem (by simp) ?_
        intro i h1 h2
        simp
      rw [transformDataFrame_eq cv cfg enc g n X hX hD, transformDataFrame_eq cv cfg enc' g n _ hX' (by rw [hN]; exact hD)]
      have hR' : ∀ j (h : j < enc.length), SameEffect cv.toFloat enc[j] (enc'[j]'(hl ▸ h)) (ch j) (X[j]'(hX ▸ h)).2.cells := by
        intro j h
        exact hR j _ _ _ (List.getElem?_eq_getElem (by omega)) (List.getElem?_eq_getElem h) (List.getElem?_eq_getElem (by omega))
      have hmv : ((enc'.zip (X.mapIdx fun j p => (p.1, { p.2 with cells := p.2.cells.map (Option.map (ch j)) }))).mapM fun p =>
            colMaxValue cfg p.1 (p.2.2.cells.any (·.isNone)) (p.2.2.categories cv)) =
          (enc.zip X).mapM fun p => colMaxValue cfg p.1 (p.2.2.cells.any (·.isNone)) (p.2.2.categories cv) := by
        rw [mapM_zip_range enc' _ hX', mapM_zip_range enc X hX, hl]
        refine mapM_congr_mem fun j hj => ?_
        have hj : j < enc.length := by simpa using hj
        have h1 : j < enc'.length := by omega
        have h2 : j < X.length := by omega
        rw [rd_of_lt hj, rd_of_lt h1, rd_of_lt h2, rd_of_lt (by simpa using h2)]
        simp only [bind_ok, List.getElem_mapIdx, any_isNone_map]
        refine colMaxValue_same (hR' j hj) _ ?_
        intro hid
        rw [hid]
        simp [Series.categories]
      rw [hmv]
      congr 1
      funext mvs
      have hcells : ((X.mapIdx fun j p => (p.1, { p.2 with cells := p.2.cells.map (Option.map (ch j)) })).map fun p => p.2.cells) =
          (X.map fun p => p.2.cells).mapIdx fun j c => c.map (Option.map (ch j)) := by
        refine List.ext_getElem (by simp) ?_
        intro i h1 h2
        simp
      rw [hcells]
      refine fillLoop_same hl (by simpa using hX) ?_ _
      intro j h
      simpa using hR' j h
    · unfold transformDataFrame
      rw [if_pos hX, if_pos (by rw [List.length_mapIdx]; omega)]
  | array kind X =>
    simp only [recode, encoderTransform]
    unfold transformArray
    by_cases hX : X.length = enc.length
    · have hX' : (X.mapIdx fun j c => c.map (Option.map (ch j))).length = enc'.length := by
        rw [List.length_mapIdx]; omega
      rw [if_neg (not_not.2 hX'), if_neg (not_not.2 hX)]
      by_cases hk : kind = .other
      · rw [if_pos hk, if_pos hk]
      rw [if_neg hk, if_neg hk]
      have hR' : ∀ j (h : j < enc.length), SameEffect (if kind = .uif then cv.toFloat else cv.toFloat32) enc[j] (enc'[j]'(hl ▸ h)) (ch j)
          (X[j]'(hX ▸ h)) := by
        intro j h
        exact hR j _ _ _ (List.getElem?_eq_getElem (by omega)) (List.getElem?_eq_getElem h) (List.getElem?_eq_getElem (by omega))
      have hmv : ((enc'.zip (X.mapIdx fun j c => c.map (Option.map (ch j)))).mapM fun p =>
            colMaxValue cfg p.1 (decide (kind = .uif) && p.2.any (·.isNone)) (cv.catsOf p.2)) =
          (enc.zip X).mapM fun p => colMaxValue cfg p.1 (decide (kind = .uif) && p.2.any (·.isNone)) (cv.catsOf p.2) := by
        rw [mapM_zip_range enc' _ hX', mapM_zip_range enc X hX, hl]
        refine mapM_congr_mem fun j hj => ?_
        have hj : j < enc.length := by simpa using hj
        have h1 : j < enc'.length := by omega
        have h2 : j < X.length := by omega
        rw [rd_of_lt hj, rd_of_lt h1, rd_of_lt h2, rd_of_lt (by simpa using h2)]
        simp only [bind_ok, List.getElem_mapIdx, any_isNone_map]
        refine colMaxValue_same (hR' j hj) _ ?_
        intro hid
        rw [hid]
        simp
      rw [hmv]
      congr 1
      funext mvs
      rw [hl]
      apply foldlM_congr_mem
      intro j hj b
      have hj : j < enc.length := by simpa using hj
      have h1 : j < enc'.length := by omega
      have h2 : j < X.length := by omega
      have h3 : j < (X.mapIdx fun j c => c.map (Option.map (ch j))).length := by simpa using h2
      rw [rd_of_lt hj, rd_of_lt h1, rd_of_lt h2, rd_of_lt h3]
      simp only [bind_ok, List.getElem_mapIdx]
      have := hR' j hj
      split
      · rename_i hk; rw [if_pos hk] at this; simp only [binnedCol_same _ this]
      · rename_i hk; rw [if_neg hk] at this; simp only [binnedCol_same _ this]
    · rw [if_pos hX, if_pos (by rw [List.length_mapIdx]; omega)]

end

/-! ## `fit` -/

section
variable {V K : Type} [DecidableEq V] [LinearOrder K] [Field K] [IsStrictOrderedRing K]

omit [LinearOrder K] [Field K] [IsStrictOrderedRing K] in
theorem dedup_map_length_on {α : Type _} [DecidableEq α] {g : α → α} {l : List α} (h : ∀ a ∈ l, ∀ b ∈ l, g a = g b → a = b) :
    (l.map g).dedup.length = l.dedup.length := by
  rw [← List.card_toFinset, ← List.card_toFinset]
  have : (l.map g).toFinset = l.toFinset.image g := by ext x; simp
  rw [this]
  refine Finset.card_image_of_injOn ?_
  intro a ha b hb hab
  exact h a (by simpa using ha) b (by simpa using hb) hab

omit [LinearOrder K] [Field K] [IsStrictOrderedRing K] [DecidableEq V] in
theorem toFloats_map {f : V → Option K} {e : Err} {g : V → V} {φ : K → K} {cells : List (Option V)} {xs : List (Option K)}
    (h : ∀ v, some v ∈ cells → f (g v) = (f v).map φ) (hx : toFloats f e cells = .ok xs) :
    toFloats f e (cells.map (Option.map g)) = .ok (xs.map (Option.map φ)) := by
  induction cells generalizing xs with
  | nil => cases hx; rfl
  | cons c cells ih =>
    unfold toFloats at hx ih ⊢
    simp only [List.map_cons, List.mapM_cons] at hx ⊢
    rw [bind_eq_ok] at hx
    obtain ⟨y, hy, hx⟩ := hx
    rw [bind_eq_ok] at hx
    obtain ⟨ys, hys, hx⟩ := hx
    cases hx
    rw [ih (fun v hv => h v (by simp [hv])) hys]
    cases c with
    | none => cases hy; rfl
    | some v =>
      have hv := h v (by simp)
      simp only [Option.map_some] at hy ⊢
      cases hf : f v with
      | none => rw [hf] at hy; cases hy
      | some x =>
        rw [hf] at hy hv
        cases hy
        rw [hv]
        rfl

omit [DecidableEq V] in
theorem takeSubset_map {g : V → V} {subset : Option (List Nat)} {cells cells1 : List (Option V)} (h : takeSubset subset cells = .ok cells1) :
    takeSubset subset (cells.map (Option.map g)) = .ok (cells1.map (Option.map g)) ∧ ∀ c ∈ cells1, c ∈ cells := by
  cases subset with
  | none => cases h; exact ⟨rfl, fun c hc => hc⟩
  | some idx =>
    simp only [takeSubset] at h ⊢
    induction idx generalizing cells1 with
    | nil => cases h; exact ⟨rfl, by simp⟩
    | cons i idx ih =>
      rw [List.mapM_cons, bind_eq_ok] at h
      obtain ⟨c, hc, h⟩ := h
      rw [bind_eq_ok] at h
      obtain ⟨cs, hcs, h⟩ := h
      cases h
      obtain ⟨h1, h2⟩ := ih hcs
      have hc' : rd (cells.map (Option.map g)) i = .ok (c.map g) := by
        rw [rd_ok] at hc ⊢
        rw [List.getElem?_map, hc]; rfl
      refine ⟨by rw [List.mapM_cons, hc', h1]; rfl, ?_⟩
      intro d hd
      rcases List.mem_cons.1 hd with rfl | hd
      · exact List.mem_of_getElem? (rd_ok.1 hc)
      · exact h2 d hd

/-- Thresholds of a transformed column. -/
theorem thresholds_same {cap : K} {xs : List (Option K)} {m : Nat} (hm : 1 ≤ m) {φ : K → K} {thr : List K}
    (hφ : ∀ x y, some x ∈ xs → some y ∈ xs → x < y → φ x < φ y) (hc : ∀ x, some x ∈ xs → x ≤ cap) (hc' : ∀ x, some x ∈ xs → φ x ≤ cap)
    (h : findBinningThresholds cap xs m = .ok thr) :
    ∃ thr', findBinningThresholds cap (xs.map (Option.map φ)) m = .ok thr' ∧
      (∃ hl : thr'.length = thr.length, ∀ x, some x ∈ xs → ∀ i (hi : i < thr.length), (φ x ≤ thr'[i]'(hl ▸ hi) ↔ x ≤ thr[i])) ∧
      ((∀ a b, φ ((a + b) / 2) = (φ a + φ b) / 2) → thr' = thr.map φ) := by
  obtain ⟨ps, hps, hfind⟩ := thresholds_pairs cap xs m hm
  have h0 := hfind id (fun x y _ _ h => h) hc
  rw [Option.map_id, List.map_id, h] at h0
  injection h0 with h0
  subst h0
  have hle : ∀ x y, some x ∈ xs → some y ∈ xs → (φ x ≤ φ y ↔ x ≤ y) := by
    intro x y hx hy
    constructor
    · intro h
      by_contra hc
      exact absurd (hφ y x hy hx (not_le.1 hc)) (not_lt.2 h)
    · intro h
      rcases lt_or_eq_of_le h with h | h
      · exact (hφ x y hx hy h).le
      · rw [h]
  refine ⟨_, hfind φ hφ hc', ⟨by simp, ?_⟩, ?_⟩
  · intro x hx i hi
    have hi' : i < ps.length := by simpa using hi
    obtain ⟨h1, h2, h3, h4⟩ := hps _ (List.getElem_mem hi')
    simp only [List.getElem_map, id]
    rw [le_mid_iff h1 (h4 x hx), le_mid_iff ((hle _ _ h2 h3).2 h1), hle _ _ hx h2]
    rcases h4 x hx with h | h
    · exact Or.inl ((hle _ _ hx h2).2 h)
    · exact Or.inr ((hle _ _ h3 hx).2 h)
  · intro haff
    rw [List.map_map]
    refine List.map_congr_left fun p _ => ?_
    simp [haff]

end

end Verif
