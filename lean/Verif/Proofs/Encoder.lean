import Verif.Model.Encoder
import Verif.Spec.Encoder
import Verif.Proofs.Bitarray
import Verif.Proofs.Binning

/-! Lemmas for C05-C09. -/
set_option linter.unusedSectionVars false

namespace Verif

open Spec

theorem foldlM_ok_mem {α σ : Type _} {f : σ → α → M σ} {l : List α} {s s' : σ}
    (h : l.foldlM f s = .ok s') : ∀ x ∈ l, ∃ t t', f t x = .ok t' := by
  induction l generalizing s with
  | nil => simp
  | cons y l ih =>
    rw [List.foldlM_cons, bind_eq_ok] at h
    obtain ⟨s1, h1, h2⟩ := h
    intro x hx
    rcases List.mem_cons.1 hx with rfl | hx
    · exact ⟨_, _, h1⟩
    · exact ih h2 x hx

theorem foldlM_congr_mem {α σ : Type _} {f g : σ → α → M σ} {l : List α} {s : σ}
    (h : ∀ x ∈ l, ∀ s, f s x = g s x) : l.foldlM f s = l.foldlM g s := by
  induction l generalizing s with
  | nil => rfl
  | cons y l ih =>
    rw [List.foldlM_cons, List.foldlM_cons, h y (by simp)]
    congr 1
    funext s'
    exact ih (fun x hx => h x (by simp [hx]))

/-- A loop over `enumerate(X)` is a loop over indices. -/
theorem foldlM_zip_range {α σ : Type _} (X : List α) (F : σ → Nat → α → M σ) (s : σ) :
    ((List.range X.length).zip X).foldlM (fun s p => F s p.1 p.2) s =
      (List.range X.length).foldlM (fun s j => do
        let x ← rd X j
        F s j x) s := by
  suffices H : ∀ (X pre : List α) (s : σ),
      ((List.range' pre.length X.length).zip X).foldlM (fun s p => F s p.1 p.2) s =
      (List.range' pre.length X.length).foldlM (fun s j => do
        let x ← rd (pre ++ X) j
        F s j x) s by
    have := H X [] s
    simpa [List.range_eq_range'] using this
  intro X
  induction X with
  | nil => intro pre s; rfl
  | cons x X ih =>
    intro pre s
    simp only [List.length_cons, List.range'_succ, List.zip_cons_cons, List.foldlM_cons]
    have e : rd (pre ++ x :: X) pre.length = .ok x := by rw [rd_ok]; simp
    rw [e]
    simp only [bind_ok]
    congr 1
    funext s'
    have := ih (pre ++ [x]) s'
    simpa using this

theorem dictSet_fresh {N β : Type} [DecidableEq N] (d : List (N × β)) (k : N) (v : β)
    (h : k ∉ d.map Prod.fst) : dictSet d k v = d ++ [(k, v)] := by
  unfold dictSet
  rw [if_neg]
  simp only [List.any_eq_true, decide_eq_true_eq, not_exists, not_and]
  intro p hp heq
  exact h (List.mem_map.2 ⟨p, hp, heq⟩)

/-- With distinct names the dictionary of columns is the list of columns. -/
theorem dict_of_nodup {N β : Type} [DecidableEq N] (X : List (N × β)) (h : (X.map Prod.fst).Nodup) :
    X.foldl (fun d p => dictSet d p.1 p.2) [] = X := by
  suffices H : ∀ (X pre : List (N × β)), ((pre ++ X).map Prod.fst).Nodup →
      X.foldl (fun d p => dictSet d p.1 p.2) pre = pre ++ X by
    simpa using H X [] (by simpa using h)
  intro X
  induction X with
  | nil => intro pre _; simp
  | cons x X ih =>
    intro pre hn
    simp only [List.foldl_cons]
    rw [dictSet_fresh]
    · rw [ih (pre ++ [x]) (by simpa using hn)]; simp
    · intro hc
      rw [List.map_append, List.nodup_append] at hn
      exact hn.2.2 _ hc _ (by simp) rfl

section
variable {V K : Type} [DecidableEq V] [LinearOrder K] [Field K]

/-- Bin of a number. -/
def binOf (thr : List K) (x : K) : Nat :=
  match binValue thr 0 (some x) with
  | .ok i => i
  | .error _ => 0

theorem binOf_spec (thr : List K) (hs : thr.Pairwise (· ≤ ·)) (x : K) (mb : Nat) :
    binValue thr mb (some x) = .ok (binOf thr x) ∧ IsBin thr x (binOf thr x) := by
  obtain ⟨i, h1, h2⟩ := binValue_some thr hs mb x
  have : binValue thr 0 (some x) = .ok i := h1
  unfold binOf
  rw [this]
  exact ⟨h1, h2⟩

/-- The bin of a cell, as a function of the fitted column and the cell only. -/
def cellBin (f : V → Option K) : FitCol V K → Option V → Option Nat
  | .cat cs, none => some cs.length
  | .cat cs, some v => some (if v ∈ cs then cs.idxOf v else cs.length)
  | .num thr, none => some (thr.length + 1)
  | .num thr, some v => (f v).map (binOf thr)

/-- Invariants of a fitted column. -/
def FitCol.OK : FitCol V K → Prop
  | .cat cs => cs.Nodup
  | .num thr => thr.Pairwise (· ≤ ·)

theorem toFloats_ok {f : V → Option K} {e : Err} {cells : List (Option V)} {xs : List (Option K)}
    (h : toFloats f e cells = .ok xs) :
    List.Forall₂ (fun c x => (c = none ∧ x = none) ∨ ∃ v y, c = some v ∧ x = some y ∧ f v = some y) cells xs := by
  unfold toFloats at h
  rw [mapM_eq_ok] at h
  refine h.imp ?_
  intro c x hx
  cases c with
  | none => left; simp at hx; exact ⟨rfl, hx.symm⟩
  | some v =>
    right
    simp only at hx
    cases hf : f v with
    | none => rw [hf] at hx; simp at hx
    | some y => rw [hf] at hx; simp at hx; exact ⟨v, y, rfl, hx.symm, hf⟩

theorem toFloats_of {f : V → Option K} (e : Err) {cells : List (Option V)}
    (h : ∀ v, some v ∈ cells → (f v).isSome) : ∃ xs, toFloats f e cells = .ok xs := by
  refine ⟨_, mapM_ok_of (g := fun c => c.bind f) ?_⟩
  intro c hc
  cases c with
  | none => rfl
  | some v =>
    have := h v hc
    obtain ⟨y, hy⟩ := Option.isSome_iff_exists.1 this
    simp [hy]

/-- Per-column correctness of the two loops of `transform`. -/
theorem binnedCol_spec {cfg : EncCfg K} {fc : FitCol V K} (hfc : fc.OK) {cats : List V}
    {cells : List (Option V)} (hcats : ∀ v, some v ∈ cells → v ∈ cats) {mv : Nat}
    (hmv : colMaxValue cfg fc (cells.any (·.isNone)) cats = .ok mv) {f : V → Option K} {e : Err}
    {col : List Nat} (hcol : binnedCol f e fc mv cells = .ok col) :
    List.Forall₂ (fun c x => cellBin f fc c = some x ∧ x ≤ mv) cells col := by
  cases fc with
  | cat cs =>
    simp only [binnedCol, pure_eq_ok, Except.ok.injEq] at hcol
    subst hcol
    unfold catCodes
    rw [List.forall₂_map_right_iff, List.forall₂_same]
    intro c hc
    simp only [colMaxValue] at hmv
    split at hmv
    · cases hmv
    · rename_i hunk
      rw [usub_ok] at hmv
      obtain ⟨hm1, hm2⟩ := hmv
      cases c with
      | none =>
        have : cells.any (·.isNone) = true := by
          rw [List.any_eq_true]; exact ⟨none, hc, rfl⟩
        simp [this] at hm2
        simp [cellBin, hm2]
      | some v =>
        refine ⟨rfl, ?_⟩
        simp only
        by_cases hv : v ∈ cs
        · rw [if_pos hv]
          have := List.idxOf_lt_length_iff.2 hv
          split at hm2 <;> omega
        · rw [if_neg hv]
          have hu : (cats.any fun v => decide (v ∉ cs)) = true := by
            rw [List.any_eq_true]; exact ⟨v, hcats v hc, by simpa using hv⟩
          simp only [hu, Bool.or_true, if_true] at hm2
          omega
  | num thr =>
    simp only [binnedCol] at hcol
    rw [bind_eq_ok] at hcol
    obtain ⟨xs, hxs, hcol⟩ := hcol
    have h1 := toFloats_ok hxs
    have h2 := mapM_eq_ok.1 hcol
    simp only [colMaxValue] at hmv
    rw [usub_ok] at hmv
    obtain ⟨hm1, hm2⟩ := hmv
    have hle : thr.length ≤ mv := by split at hm2 <;> omega
    have hnone : none ∈ cells → mv = thr.length + 1 := by
      intro hc
      have : cells.any (·.isNone) = true := by
        rw [List.any_eq_true]; exact ⟨none, hc, rfl⟩
      simp [this] at hm2
      exact hm2
    clear hcol hxs hm2 hm1 hcats
    induction h1 generalizing col with
    | nil => cases h2; exact .nil
    | cons hcx _ ih =>
      cases h2 with
      | cons hb h2 =>
        refine .cons ?_ (ih h2 (fun h => hnone (by simp [h])))
        rcases hcx with ⟨rfl, rfl⟩ | ⟨v, y, rfl, rfl, hf⟩
        · simp only [binValue, Except.ok.injEq] at hb
          subst hb
          refine ⟨?_, le_rfl⟩
          simp [cellBin, hnone (by simp)]
        · have := binOf_spec thr hfc y mv
          rw [this.1] at hb
          cases hb
          exact ⟨by simp [cellBin, hf], this.2.1.trans hle⟩

theorem colMaxValue_le {cfg : EncCfg K} {fc : FitCol V K} {hm : Bool} {cats : List V} {mv : Nat}
    (hmv : colMaxValue cfg fc hm cats = .ok mv) : mv ≤ fc.nBins := by
  cases fc with
  | cat cs =>
    simp only [colMaxValue] at hmv
    split at hmv
    · cases hmv
    · rw [usub_ok] at hmv
      obtain ⟨_, h⟩ := hmv
      simp only [FitCol.nBins]
      split at h <;> omega
  | num thr =>
    simp only [colMaxValue] at hmv
    rw [usub_ok] at hmv
    obtain ⟨_, h⟩ := hmv
    simp only [FitCol.nBins]
    split at h <;> omega

/-- The second loop of `transform`, for both kinds of input. -/
def fillLoop (f : V → Option K) (e : Err) (enc : List (FitCol V K)) (mvs : List Nat)
    (cells : List (List (Option V))) (b : FBA) : M FBA :=
  (List.range enc.length).foldlM
    (fun b j => do
      let fc ← rd enc j
      let mv ← rd mvs j
      let c ← rd cells j
      let col ← binnedCol f e fc mv c
      b.fillColumn j col) b

theorem fillLoop_total {f : V → Option K} {e : Err} {enc : List (FitCol V K)} {mvs : List Nat}
    {cells : List (List (Option V))} (g : Nat → Word) {n : Nat} (hn : 0 < n)
    (hml : mvs.length = enc.length) (hcl : cells.length = enc.length)
    (hm63 : ∀ m ∈ mvs, m < 2 ^ 63) (hlen : ∀ c ∈ cells, c.length = n)
    (hcol : ∀ j (h : j < enc.length), ∃ col,
      binnedCol f e enc[j] (mvs[j]'(hml ▸ h)) (cells[j]'(hcl ▸ h)) = .ok col ∧
      List.Forall₂ (fun c x => cellBin f enc[j] c = some x ∧ x ≤ mvs[j]'(hml ▸ h))
        (cells[j]'(hcl ▸ h)) col) :
    ∃ b, fillLoop f e enc mvs cells (FBA.init g n mvs) = .ok b ∧ b.nSamples = n ∧ b.maxValues = mvs ∧
      Layout n mvs b ∧
      ∀ j (h : j < enc.length) i (hi : i < (cells[j]'(hcl ▸ h)).length),
        ∃ v, cellBin f enc[j] (cells[j]'(hcl ▸ h))[i] = some v ∧ v ≤ mvs[j]'(hml ▸ h) ∧
          b.getValue i j = .ok v := by
  unfold fillLoop
  obtain ⟨b, hb, hlay, hv⟩ := foldlM_inv
    (f := fun (b : FBA) j => do
      let fc ← rd enc j
      let mv ← rd mvs j
      let c ← rd cells j
      let col ← binnedCol f e fc mv c
      b.fillColumn j col)
    (l := List.range enc.length) (s := FBA.init g n mvs)
    (fun pre b => Layout n mvs b ∧ ∀ j ∈ pre, ∀ (h : j < enc.length) i
        (hi : i < (cells[j]'(hcl ▸ h)).length),
        ∃ v, cellBin f enc[j] (cells[j]'(hcl ▸ h))[i] = some v ∧ v ≤ mvs[j]'(hml ▸ h) ∧
          b.getValue i j = .ok v)
    ⟨init_layout g n mvs, by simp⟩
    (by
      intro pre j post b1 hl hI
      obtain ⟨hlay, hv⟩ := hI
      have hj : j < enc.length := by
        have : j ∈ List.range enc.length := by rw [hl]; simp
        simpa using this
      have hjm : j < mvs.length := by omega
      have hjc : j < cells.length := by omega
      obtain ⟨col, hcol1, hcol2⟩ := hcol j hj
      have hl1 : (cells[j]).length = col.length := hcol2.length_eq
      have hln : col.length = n := by rw [← hl1]; exact hlen _ (List.getElem_mem _)
      have hget : ∀ i (hi : i < (cells[j]).length), cellBin f enc[j] cells[j][i] =
          some (col[i]'(hl1 ▸ hi)) ∧ col[i]'(hl1 ▸ hi) ≤ mvs[j] := by
        intro i hi
        exact hcol2.get hi (hl1 ▸ hi)
      obtain ⟨b2, h1, h2, h3, h4, _⟩ := fillColumn_spec hlay hn j hjm (hm63 _ (List.getElem_mem _)) col hln
        (by
          intro x hx
          obtain ⟨i, hi, rfl⟩ := List.getElem_of_mem hx
          exact (hget i (by omega)).2)
      refine ⟨b2, ?_, h2, ?_⟩
      · simp only [rd_of_lt hj, rd_of_lt hjm, rd_of_lt hjc, bind_ok, hcol1]
        exact h1
      · intro j' hj' hj'e i hi
        by_cases hjj : j' = j
        · subst hjj
          exact ⟨_, (hget i hi).1, (hget i hi).2, h3 i (by omega)⟩
        · rw [h4 i j' hjj]
          apply hv
          rcases List.mem_append.1 hj' with h | h
          · exact h
          · simp at h; exact absurd h hjj)
  exact ⟨b, hb, hlay.samples, hlay.maxv, hlay, fun j h i hi => hv j (by simpa using h) h i hi⟩

theorem fillLoop_ok {f : V → Option K} {e : Err} {enc : List (FitCol V K)} {mvs : List Nat}
    {cells : List (List (Option V))} {b0 b : FBA}
    (hml : mvs.length = enc.length) (hcl : cells.length = enc.length)
    (h : fillLoop f e enc mvs cells b0 = .ok b) :
    ∀ j (h : j < enc.length), ∃ col,
      binnedCol f e enc[j] (mvs[j]'(hml ▸ h)) (cells[j]'(hcl ▸ h)) = .ok col := by
  intro j hj
  obtain ⟨t, t', ht⟩ := foldlM_ok_mem h j (by simpa using hj)
  have hjm : j < mvs.length := by omega
  have hjc : j < cells.length := by omega
  simp only [rd_of_lt hj, rd_of_lt hjm, rd_of_lt hjc, bind_ok] at ht
  rw [bind_eq_ok] at ht
  obtain ⟨col, hcol, _⟩ := ht
  exact ⟨col, hcol⟩

theorem mem_categories (cv : Conv V K) {n : Nat} {s : Series V} (hs : GoodSeries n s) :
    ∀ v, some v ∈ s.cells → v ∈ s.categories cv := by
  intro v hv
  unfold Series.categories
  split
  · rename_i h; exact (hs.2 h).2 v hv
  · exact (cv.mem_catsOf _ _).2 hv

theorem mapM_zip_ok {α β γ : Type _} {A : List α} {B : List β} {F : α × β → M γ} {r : List γ}
    (hl : B.length = A.length) (h : (A.zip B).mapM F = .ok r) :
    ∃ hr : r.length = A.length, ∀ j (hj : j < A.length),
      F (A[j], B[j]'(hl ▸ hj)) = .ok (r[j]'(hr ▸ hj)) := by
  rw [mapM_eq_ok] at h
  have hr : r.length = A.length := by rw [← h.length_eq]; simp [hl]
  refine ⟨hr, ?_⟩
  intro j hj
  have hz : j < (A.zip B).length := by simp [hl, hj]
  have := h.get hz (by omega)
  simpa using this

theorem transformDataFrame_eq {N : Type} [DecidableEq N] (cv : Conv V K) (cfg : EncCfg K)
    (enc : List (FitCol V K)) (g : Nat → Word) (n : Nat) (X : List (N × Series V))
    (hX : X.length = enc.length) (hN : (X.map Prod.fst).Nodup) :
    transformDataFrame cv cfg enc g n X = (do
      let mvs ← (enc.zip X).mapM fun p =>
        colMaxValue cfg p.1 (p.2.2.cells.any (·.isNone)) (p.2.2.categories cv)
      fillLoop cv.toFloat .typeError enc mvs (X.map fun p => p.2.cells) (FBA.init g n mvs)) := by
  unfold transformDataFrame
  rw [if_neg (by simpa using hX)]
  congr 1
  funext mvs
  dsimp only
  rw [dict_of_nodup X hN]
  rw [foldlM_zip_range X (fun (b : FBA) j p => do
        let fc ← rd enc j
        let mv ← rd mvs j
        let col ← binnedCol cv.toFloat .typeError fc mv p.2.cells
        b.fillColumn j col)]
  unfold fillLoop
  rw [hX]
  apply foldlM_congr_mem
  intro j hj s
  have hj : j < enc.length := by simpa using hj
  have hjX : j < X.length := by omega
  have hjm : j < (X.map fun p => p.2.cells).length := by simpa using hjX
  rw [rd_of_lt hj, rd_of_lt hjX, rd_of_lt hjm]
  simp

/-- What a successful `transform` of a dataframe returns. -/
theorem transformDataFrame_ok {N : Type} [DecidableEq N] {cv : Conv V K} {cfg : EncCfg K}
    {enc : List (FitCol V K)} {g : Nat → Word} {n : Nat} {X : List (N × Series V)} {b : FBA}
    (henc : ∀ fc ∈ enc, fc.OK) (h63 : ∀ fc ∈ enc, fc.nBins < 2 ^ 63) (hn : 0 < n)
    (hX : ∀ p ∈ X, GoodSeries n p.2) (hN : (X.map Prod.fst).Nodup)
    (h : transformDataFrame cv cfg enc g n X = .ok b) :
    b.nSamples = n ∧ b.maxValues.length = enc.length ∧ Layout n b.maxValues b ∧
    (∀ m ∈ b.maxValues, m < 2 ^ 63) ∧
    ∃ hl : X.length = enc.length,
    ∀ j (hj : j < enc.length) i (hi : i < (X[j]).2.cells.length),
      ∃ v, cellBin cv.toFloat enc[j] (X[j]).2.cells[i] = some v ∧
        (∀ m, b.maxValues[j]? = some m → v ≤ m) ∧ b.getValue i j = .ok v := by
  have hl : X.length = enc.length := by
    by_contra hc
    unfold transformDataFrame at h
    rw [if_pos hc] at h
    cases h
  rw [transformDataFrame_eq cv cfg enc g n X hl hN, bind_eq_ok] at h
  obtain ⟨mvs, hmvs, h⟩ := h
  obtain ⟨hml, hmv⟩ := mapM_zip_ok hl hmvs
  have hcl : (X.map fun p => p.2.cells).length = enc.length := by simpa using hl
  have h63' : ∀ m ∈ mvs, m < 2 ^ 63 := by
    intro m hm
    obtain ⟨j, hj, rfl⟩ := List.getElem_of_mem hm
    exact lt_of_le_of_lt (colMaxValue_le (hmv j (by omega))) (h63 _ (List.getElem_mem _))
  have hcols := fillLoop_ok hml hcl h
  obtain ⟨b', hb', hs, hmx, hlay, hget⟩ := fillLoop_total (f := cv.toFloat) (e := .typeError) g hn hml hcl h63'
    (by
      intro c hc
      obtain ⟨p, hp, rfl⟩ := List.mem_map.1 hc
      exact (hX p hp).1)
    (by
      intro j hj
      obtain ⟨col, hcol⟩ := hcols j hj
      refine ⟨col, hcol, ?_⟩
      have hjX : j < X.length := by omega
      have e : (X.map fun p => p.2.cells)[j]'(hcl ▸ hj) = X[j].2.cells := by simp
      rw [e] at hcol ⊢
      exact binnedCol_spec (henc _ (List.getElem_mem _))
        (mem_categories cv (hX _ (List.getElem_mem hjX))) (hmv j hj) hcol)
  rw [h] at hb'
  cases hb'
  refine ⟨hs, by rw [hmx, hml], by rw [hmx]; exact hlay, by rw [hmx]; exact h63', hl, ?_⟩
  intro j hj i hi
  obtain ⟨v, h1, h2, h3⟩ := hget j hj i (by simpa using hi)
  refine ⟨v, by simpa using h1, ?_, h3⟩
  intro m hm
  rw [hmx, List.getElem?_eq_getElem (by omega)] at hm
  cases hm
  exact h2

/-- A column accepted by a fitted encoder: unknown categories only if they are allowed, numbers in the
numerical columns. -/
def Accepts (cfg : EncCfg K) (f : V → Option K) (fc : FitCol V K) (cells : List (Option V))
    (cats : List V) : Prop :=
  match fc with
  | .cat cs => cfg.handleUnknownError = true → ∀ v ∈ cats, v ∈ cs
  | .num _ => ∀ v, some v ∈ cells → (f v).isSome

theorem colMaxValue_total {cfg : EncCfg K} {f : V → Option K} {fc : FitCol V K}
    {cells : List (Option V)} {cats : List V} (hn : 0 < cells.length)
    (hs : ∀ v, some v ∈ cells → v ∈ cats) (ha : Accepts cfg f fc cells cats) :
    ∃ mv, colMaxValue cfg fc (cells.any (·.isNone)) cats = .ok mv := by
  cases fc with
  | num thr =>
    simp only [colMaxValue]
    rw [usub_of_le]
    · exact ⟨_, rfl⟩
    · split <;> omega
  | cat cs =>
    simp only [colMaxValue]
    rw [if_neg]
    · rw [usub_of_le]
      · exact ⟨_, rfl⟩
      · split
        · omega
        · rename_i hc
          -- the first cell is neither missing nor unknown
          have hmem := List.getElem_mem hn
          simp only [Bool.or_eq_true, not_or, List.any_eq_true, not_exists, not_and,
            Bool.not_eq_true] at hc
          cases h0 : cells[0] with
          | none => rw [h0] at hmem; have := hc.1 _ hmem; simp at this
          | some v =>
            rw [h0] at hmem
            have := hc.2 v (hs v hmem)
            simp at this
            have := List.length_pos_of_mem this
            omega
    · simp only [Bool.and_eq_true, List.any_eq_true, decide_eq_true_eq, not_and]
      rintro ⟨v, hv, hnv⟩ he
      exact hnv (ha he v hv)

theorem binnedCol_total {cfg : EncCfg K} {f : V → Option K} (e : Err) {fc : FitCol V K} (hfc : fc.OK)
    {cells : List (Option V)} {cats : List V} (ha : Accepts cfg f fc cells cats) (mv : Nat) :
    ∃ col, binnedCol f e fc mv cells = .ok col := by
  cases fc with
  | cat cs => exact ⟨_, rfl⟩
  | num thr =>
    obtain ⟨xs, hxs⟩ := toFloats_of e ha
    simp only [binnedCol, hxs, bind_ok]
    refine ⟨_, mapM_ok_of (g := fun c => match c with
      | none => mv | some x => binOf thr x) ?_⟩
    intro c _
    cases c with
    | none => rfl
    | some x => exact (binOf_spec thr hfc x _).1

theorem mapM_total {α β : Type _} {f : α → M β} {l : List α} (h : ∀ x ∈ l, ∃ y, f x = .ok y) :
    ∃ r, l.mapM f = .ok r := by
  induction l with
  | nil => exact ⟨[], rfl⟩
  | cons x l ih =>
    obtain ⟨y, hy⟩ := h x (by simp)
    obtain ⟨r, hr⟩ := ih (fun z hz => h z (by simp [hz]))
    exact ⟨y :: r, by rw [List.mapM_cons, hy, hr]; rfl⟩

theorem transformDataFrame_total {N : Type} [DecidableEq N] {cv : Conv V K} {cfg : EncCfg K}
    {enc : List (FitCol V K)} (g : Nat → Word) {n : Nat} {X : List (N × Series V)}
    (henc : ∀ fc ∈ enc, fc.OK) (h63 : ∀ fc ∈ enc, fc.nBins < 2 ^ 63) (hn : 0 < n)
    (hX : ∀ p ∈ X, GoodSeries n p.2) (hN : (X.map Prod.fst).Nodup) (hl : X.length = enc.length)
    (hacc : ∀ j (hj : j < enc.length), Accepts cfg cv.toFloat enc[j] X[j].2.cells (X[j].2.categories cv)) :
    ∃ b, transformDataFrame cv cfg enc g n X = .ok b := by
  rw [transformDataFrame_eq cv cfg enc g n X hl hN]
  obtain ⟨mvs, hmvs⟩ : ∃ mvs, (enc.zip X).mapM (fun p =>
      colMaxValue cfg p.1 (p.2.2.cells.any (·.isNone)) (p.2.2.categories cv)) = .ok mvs := by
    apply mapM_total
    intro p hp
    obtain ⟨j, hj, rfl⟩ := List.getElem_of_mem hp
    have hj1 : j < enc.length := by simp at hj; omega
    have hjX : j < X.length := by omega
    simp only [List.getElem_zip]
    exact colMaxValue_total (by rw [(hX _ (List.getElem_mem hjX)).1]; exact hn)
      (mem_categories cv (hX _ (List.getElem_mem hjX))) (hacc j hj1)
  rw [hmvs]
  simp only [bind_ok]
  obtain ⟨hml, hmv⟩ := mapM_zip_ok hl hmvs
  have hcl : (X.map fun p => p.2.cells).length = enc.length := by simpa using hl
  obtain ⟨b', hb', _⟩ := fillLoop_total (f := cv.toFloat) (e := .typeError) (enc := enc) g hn hml hcl
    (by
      intro m hm
      obtain ⟨j, hj, rfl⟩ := List.getElem_of_mem hm
      exact lt_of_le_of_lt (colMaxValue_le (hmv j (by omega))) (h63 _ (List.getElem_mem _)))
    (by
      intro c hc
      obtain ⟨p, hp, rfl⟩ := List.mem_map.1 hc
      exact (hX p hp).1)
    (by
      intro j hj
      have hjX : j < X.length := by omega
      have e : (X.map fun p => p.2.cells)[j]'(hcl ▸ hj) = X[j].2.cells := by simp
      rw [e]
      have hfc := henc _ (List.getElem_mem hj)
      obtain ⟨col, hcol⟩ := binnedCol_total (f := cv.toFloat) .typeError hfc (hacc j hj) (mvs[j]'(hml ▸ hj))
      exact ⟨col, hcol, binnedCol_spec hfc (mem_categories cv (hX _ (List.getElem_mem hjX))) (hmv j hj) hcol⟩)
  exact ⟨b', hb'⟩

theorem hasMissing_eq {kind : Kind} {c : List (Option V)} (h : kind = .uif ∨ none ∉ c) :
    (decide (kind = .uif) && c.any (·.isNone)) = c.any (·.isNone) := by
  rcases h with hk | hk
  · simp [hk]
  · have : c.any (·.isNone) = false := by
      rw [List.any_eq_false]
      intro x hx
      cases x with
      | none => exact absurd hx hk
      | some v => simp
    simp [this]

theorem transformArray_total {cv : Conv V K} {cfg : EncCfg K} {enc : List (FitCol V K)} (g : Nat → Word)
    {n : Nat} {kind : Kind} {X : List (List (Option V))}
    (henc : ∀ fc ∈ enc, fc.OK) (h63 : ∀ fc ∈ enc, fc.nBins < 2 ^ 63) (hn : 0 < n) (hk : kind ≠ .other)
    (hX : ∀ c ∈ X, c.length = n) (hmiss : kind = .uif ∨ ∀ c ∈ X, none ∉ c) (hl : X.length = enc.length)
    (hacc : ∀ j (hj : j < enc.length), Accepts cfg (if kind = .uif then cv.toFloat else cv.toFloat32)
      enc[j] X[j] (cv.catsOf X[j])) :
    ∃ b, transformArray cv cfg enc g n kind X = .ok b := by
  have hmiss' : ∀ c ∈ X, kind = .uif ∨ none ∉ c := by
    intro c hc; rcases hmiss with h | h
    · left; exact h
    · right; exact h c hc
  unfold transformArray
  rw [if_neg (by simpa using hl), if_neg hk]
  obtain ⟨mvs, hmvs⟩ : ∃ mvs, (enc.zip X).mapM (fun p =>
      colMaxValue cfg p.1 (decide (kind = .uif) && p.2.any (·.isNone)) (cv.catsOf p.2)) = .ok mvs := by
    apply mapM_total
    intro p hp
    obtain ⟨j, hj, rfl⟩ := List.getElem_of_mem hp
    have hj1 : j < enc.length := by simp at hj; omega
    have hjX : j < X.length := by omega
    simp only [List.getElem_zip]
    rw [hasMissing_eq (hmiss' _ (List.getElem_mem hjX))]
    exact colMaxValue_total (by rw [hX _ (List.getElem_mem hjX)]; exact hn)
      (fun v hv => (cv.mem_catsOf _ v).2 hv) (hacc j hj1)
  rw [hmvs]
  simp only [bind_ok]
  obtain ⟨hml, hmv⟩ := mapM_zip_ok hl hmvs
  obtain ⟨b', hb', _⟩ := fillLoop_total (f := if kind = .uif then cv.toFloat else cv.toFloat32)
    (e := .valueError) (enc := enc) g hn hml hl
    (by
      intro m hm
      obtain ⟨j, hj, rfl⟩ := List.getElem_of_mem hm
      exact lt_of_le_of_lt (colMaxValue_le (hmv j (by omega))) (h63 _ (List.getElem_mem _)))
    hX
    (by
      intro j hj
      have hjX : j < X.length := by omega
      have hfc := henc _ (List.getElem_mem hj)
      have hmvj := hmv j hj
      simp only [hasMissing_eq (hmiss' _ (List.getElem_mem hjX))] at hmvj
      obtain ⟨col, hcol⟩ := binnedCol_total .valueError hfc (hacc j hj) (mvs[j]'(hml ▸ hj))
      exact ⟨col, hcol, binnedCol_spec hfc (fun v hv => (cv.mem_catsOf _ v).2 hv) hmvj hcol⟩)
  refine ⟨b', ?_⟩
  rw [← hb']
  unfold fillLoop
  apply foldlM_congr_mem
  intro j _ s
  split <;> rfl

/-- What a successful `transform` of a numpy array returns, when missing cells only occur with a numerical
dtype (the assumption stated in the source, encoder.py:379-383). -/
theorem transformArray_ok {cv : Conv V K} {cfg : EncCfg K} {enc : List (FitCol V K)} {g : Nat → Word}
    {n : Nat} {kind : Kind} {X : List (List (Option V))} {b : FBA}
    (henc : ∀ fc ∈ enc, fc.OK) (h63 : ∀ fc ∈ enc, fc.nBins < 2 ^ 63) (hn : 0 < n)
    (hX : ∀ c ∈ X, c.length = n) (hmiss : kind = .uif ∨ ∀ c ∈ X, none ∉ c)
    (h : transformArray cv cfg enc g n kind X = .ok b) :
    b.nSamples = n ∧ b.maxValues.length = enc.length ∧ Layout n b.maxValues b ∧
    (∀ m ∈ b.maxValues, m < 2 ^ 63) ∧
    ∃ hl : X.length = enc.length,
    ∀ j (hj : j < enc.length) i (hi : i < (X[j]).length),
      ∃ v, cellBin (if kind = .uif then cv.toFloat else cv.toFloat32) enc[j] (X[j])[i] = some v ∧
        (∀ m, b.maxValues[j]? = some m → v ≤ m) ∧ b.getValue i j = .ok v := by
  unfold transformArray at h
  split at h
  · cases h
  rename_i hl
  have hl : X.length = enc.length := by simpa using hl
  split at h
  · cases h
  rw [bind_eq_ok] at h
  obtain ⟨mvs, hmvs, h⟩ := h
  obtain ⟨hml, hmv⟩ := mapM_zip_ok hl hmvs
  have hloop : fillLoop (if kind = .uif then cv.toFloat else cv.toFloat32) .valueError enc mvs X
      (FBA.init g n mvs) = .ok b := by
    rw [← h]
    unfold fillLoop
    apply foldlM_congr_mem
    intro j _ s
    split <;> rfl
  have h63' : ∀ m ∈ mvs, m < 2 ^ 63 := by
    intro m hm
    obtain ⟨j, hj, rfl⟩ := List.getElem_of_mem hm
    exact lt_of_le_of_lt (colMaxValue_le (hmv j (by omega))) (h63 _ (List.getElem_mem _))
  have hcols := fillLoop_ok hml hl hloop
  obtain ⟨b', hb', hs, hmx, hlay, hget⟩ := fillLoop_total
    (f := if kind = .uif then cv.toFloat else cv.toFloat32) (e := .valueError) g hn hml hl h63' hX
    (by
      intro j hj
      obtain ⟨col, hcol⟩ := hcols j hj
      refine ⟨col, hcol, ?_⟩
      have hjX : j < X.length := by omega
      have hmvj := hmv j hj
      have e : (decide (kind = .uif) && (X[j]).any (·.isNone)) = (X[j]).any (·.isNone) := by
        rcases hmiss with hk | hk
        · simp [hk]
        · have : (X[j]).any (·.isNone) = false := by
            rw [List.any_eq_false]
            intro c hc
            cases c with
            | none => exact absurd hc (hk _ (List.getElem_mem _))
            | some v => simp
          simp [this]
      simp only [e] at hmvj
      exact binnedCol_spec (henc _ (List.getElem_mem _))
        (fun v hv => (cv.mem_catsOf _ v).2 hv) hmvj hcol)
  rw [hloop] at hb'
  cases hb'
  refine ⟨hs, by rw [hmx, hml], by rw [hmx]; exact hlay, by rw [hmx]; exact h63', hl, ?_⟩
  intro j hj i hi
  obtain ⟨v, h1, h2, h3⟩ := hget j hj i hi
  refine ⟨v, h1, ?_, h3⟩
  intro m hm
  rw [hmx, List.getElem?_eq_getElem (by omega)] at hm
  cases hm
  exact h2

theorem cellBin_encodes {f : V → Option K} {fc : FitCol V K} (hfc : fc.OK) {c : Option V} {v : Nat}
    (h : cellBin f fc c = some v) : EncodesTo f fc c v := by
  cases fc with
  | cat cs =>
    cases c with
    | none => simp [cellBin] at h; exact h.symm
    | some x =>
      simp only [cellBin, Option.some.injEq] at h
      by_cases hx : x ∈ cs
      · rw [if_pos hx] at h
        left
        refine ⟨hx, ?_⟩
        rw [← h, List.getElem?_eq_getElem (List.idxOf_lt_length_iff.2 hx), List.getElem_idxOf]
      · rw [if_neg hx] at h
        right; exact ⟨hx, h.symm⟩
  | num thr =>
    cases c with
    | none => simp [cellBin] at h; exact h.symm
    | some x =>
      simp only [cellBin, Option.map_eq_some_iff] at h
      obtain ⟨y, hy, rfl⟩ := h
      exact ⟨y, hy, (binOf_spec thr hfc y 0).2⟩

theorem encodesTo_unique {f : V → Option K} {fc : FitCol V K} (hfc : fc.OK) {c : Option V} {v w : Nat}
    (hv : EncodesTo f fc c v) (hw : EncodesTo f fc c w) : v = w := by
  cases fc with
  | cat cs =>
    cases c with
    | none => exact hv.trans hw.symm
    | some x =>
      rcases hv with ⟨h1, h2⟩ | ⟨h1, h2⟩ <;> rcases hw with ⟨h3, h4⟩ | ⟨h3, h4⟩
      · exact (List.getElem?_inj (List.getElem?_eq_some_iff.1 h2).1 hfc).1 (h2.trans h4.symm)
      · exact absurd h1 h3
      · exact absurd h3 h1
      · omega
  | num thr =>
    cases c with
    | none => exact hv.trans hw.symm
    | some x =>
      obtain ⟨a, ha, hba⟩ := hv
      obtain ⟨b, hb, hbb⟩ := hw
      rw [ha] at hb; cases hb
      exact isBin_unique thr hfc a hba hbb

/-- `transform` on any well-formed input: what it returns. -/
theorem encoderTransform_ok {N : Type} [DecidableEq N] {cv : Conv V K} {cfg : EncCfg K}
    {enc : List (FitCol V K)} {g : Nat → Word} {n : Nat} {D : Dataset N V} {b : FBA}
    (henc : ∀ fc ∈ enc, fc.OK) (h63 : ∀ fc ∈ enc, fc.nBins < 2 ^ 63) (hn : 0 < n)
    (hD : GoodInput n D) (h : encoderTransform cv cfg enc g n D = .ok b) :
    b.nSamples = n ∧ b.maxValues.length = enc.length ∧ Layout n b.maxValues b ∧
    (∀ m ∈ b.maxValues, m < 2 ^ 63) ∧ nCols D = enc.length ∧
    (∀ i j, j < enc.length → i < n → ∃ c, cell D i j = some c) ∧
    (∀ i j c, cell D i j = some c → i < n ∧ ∃ fc v, enc[j]? = some fc ∧
      cellBin (numOf cv D) fc c = some v ∧ b.getValue i j = .ok v ∧
      (∀ m, b.maxValues[j]? = some m → v ≤ m)) := by
  cases D with
  | frame X =>
    obtain ⟨hN, hX⟩ := hD
    obtain ⟨h1, h2, h3, h4, hl, h5⟩ := transformDataFrame_ok henc h63 hn hX hN h
    refine ⟨h1, h2, h3, h4, hl, ?_, ?_⟩
    · intro i j hj hi
      have hjX : j < X.length := by omega
      have hlen := (hX _ (List.getElem_mem hjX)).1
      refine ⟨X[j].2.cells[i]'(by omega), ?_⟩
      have hi' : i < X[j].2.cells.length := by omega
      simp [cell, hjX, hi']
    · intro i j c hc
      simp only [cell, Option.bind_eq_some_iff] at hc
      obtain ⟨p, hp, hc⟩ := hc
      obtain ⟨hj, rfl⟩ := List.getElem?_eq_some_iff.1 hp
      obtain ⟨hi, rfl⟩ := List.getElem?_eq_some_iff.1 hc
      have hlen := (hX _ (List.getElem_mem hj)).1
      obtain ⟨v, hv1, hv2, hv3⟩ := h5 j (by omega) i hi
      exact ⟨by omega, _, v, List.getElem?_eq_getElem (by omega), hv1, hv3, hv2⟩
  | array kind X =>
    obtain ⟨hX, hm⟩ := hD
    obtain ⟨h1, h2, h3, h4, hl, h5⟩ := transformArray_ok henc h63 hn hX hm h
    refine ⟨h1, h2, h3, h4, hl, ?_, ?_⟩
    · intro i j hj hi
      have hjX : j < X.length := by omega
      have hlen := hX _ (List.getElem_mem hjX)
      refine ⟨X[j][i]'(by omega), ?_⟩
      have hi' : i < X[j].length := by omega
      simp [cell, hjX, hi']
    · intro i j c hc
      simp only [cell, Option.bind_eq_some_iff] at hc
      obtain ⟨p, hp, hc⟩ := hc
      obtain ⟨hj, rfl⟩ := List.getElem?_eq_some_iff.1 hp
      obtain ⟨hi, rfl⟩ := List.getElem?_eq_some_iff.1 hc
      have hlen := hX _ (List.getElem_mem hj)
      obtain ⟨v, hv1, hv2, hv3⟩ := h5 j (by omega) i hi
      exact ⟨by omega, _, v, List.getElem?_eq_getElem (by omega), hv1, hv3, hv2⟩

theorem encoderTransform_total {N : Type} [DecidableEq N] {cv : Conv V K} {cfg : EncCfg K}
    {enc : List (FitCol V K)} (g : Nat → Word) {n : Nat} {D : Dataset N V}
    (henc : ∀ fc ∈ enc, fc.OK) (h63 : ∀ fc ∈ enc, fc.nBins < 2 ^ 63) (hn : 0 < n)
    (hD : GoodInput n D) (hA : Acceptable cv cfg enc D) :
    ∃ b, encoderTransform cv cfg enc g n D = .ok b := by
  obtain ⟨hl, hnum, hcat⟩ := hA
  cases D with
  | frame X =>
    obtain ⟨hN, hX⟩ := hD
    refine transformDataFrame_total g henc h63 hn hX hN hl ?_
    intro j hj
    have hjX : j < X.length := by simp only [nCols] at hl; omega
    cases he : enc[j] with
    | cat cs =>
      intro he' v hv
      exact hcat he' j X[j] cs (List.getElem?_eq_getElem hjX)
        (by rw [List.getElem?_eq_getElem hj, he]) v hv
    | num thr =>
      intro v hv
      obtain ⟨i, hi, hiv⟩ := List.getElem_of_mem hv
      refine hnum i j v thr (by rw [List.getElem?_eq_getElem hj, he]) ?_
      simp [cell, hjX, hi, hiv]
  | array kind X =>
    obtain ⟨hX, hm⟩ := hD
    obtain ⟨hk, hcat⟩ := hcat
    refine transformArray_total g henc h63 hn hk hX hm hl ?_
    intro j hj
    have hjX : j < X.length := by simp only [nCols] at hl; omega
    cases he : enc[j] with
    | cat cs =>
      intro he' v hv
      exact hcat he' j X[j] cs (List.getElem?_eq_getElem hjX)
        (by rw [List.getElem?_eq_getElem hj, he]) v ((cv.mem_catsOf _ _).1 hv)
    | num thr =>
      intro v hv
      obtain ⟨i, hi, hiv⟩ := List.getElem_of_mem hv
      refine hnum i j v thr (by rw [List.getElem?_eq_getElem hj, he]) ?_
      simp [cell, hjX, hi, hiv]

theorem mapM_error_of {α β : Type _} {f : α → M β} {l : List α} {e : Err}
    (h : ∀ x ∈ l, (∃ y, f x = .ok y) ∨ f x = .error e) (hex : ∃ x ∈ l, f x = .error e) :
    l.mapM f = .error e := by
  induction l with
  | nil => obtain ⟨x, hx, _⟩ := hex; cases hx
  | cons x l ih =>
    rw [List.mapM_cons]
    rcases h x (by simp) with ⟨y, hy⟩ | hy
    · rw [hy]
      simp only [bind_ok]
      rw [ih (fun z hz => h z (by simp [hz])) ?_]
      · rfl
      · obtain ⟨z, hz, hze⟩ := hex
        rcases List.mem_cons.1 hz with rfl | hz
        · rw [hy] at hze; cases hze
        · exact ⟨z, hz, hze⟩
    · rw [hy]; rfl

theorem colMaxValue_unknown {cfg : EncCfg K} {cs cats : List V} {hm : Bool} {v : V}
    (herr : cfg.handleUnknownError = true) (hv : v ∈ cats) (hn : v ∉ cs) :
    colMaxValue cfg (.cat cs) hm cats = .error .valueError := by
  simp only [colMaxValue]
  rw [if_pos]
  simp only [Bool.and_eq_true, List.any_eq_true, decide_eq_true_eq]
  exact ⟨⟨v, hv, hn⟩, herr⟩

theorem colMaxValue_dichotomy {cfg : EncCfg K} {fc : FitCol V K} {cells : List (Option V)} {cats : List V}
    (hn : 0 < cells.length) (hs : ∀ v, some v ∈ cells → v ∈ cats) :
    (∃ mv, colMaxValue cfg fc (cells.any (·.isNone)) cats = .ok mv) ∨
      colMaxValue cfg fc (cells.any (·.isNone)) cats = .error .valueError := by
  cases fc with
  | num thr => left; exact colMaxValue_total (f := fun _ => some 0) hn hs (by intro v _; rfl)
  | cat cs =>
    by_cases h : ∃ v ∈ cats, v ∉ cs
    · obtain ⟨v, hv, hvn⟩ := h
      by_cases he : cfg.handleUnknownError = true
      · right; exact colMaxValue_unknown he hv hvn
      · left; exact colMaxValue_total (f := fun _ => some 0) hn hs (by intro h; exact absurd h he)
    · push Not at h
      left; exact colMaxValue_total (f := fun _ => some 0) hn hs (by intro _; exact h)

/-! ## inverse_transform -/

theorem toArray_of {n : Nat} {b : FBA} (hlay : Layout n b.maxValues b) (hne : b.maxValues ≠ [])
    (hm63 : ∀ m ∈ b.maxValues, m < 2 ^ 63)
    (hv : ∀ i j (hj : j < b.maxValues.length), i < n → ∃ v, b.getValue i j = .ok v ∧ v ≤ b.maxValues[j]) :
    ∃ w cols, b.toArray = .ok (w, cols) ∧ cols.length = b.maxValues.length ∧
      ∀ j (hj : j < cols.length), ∃ hl : (cols[j]).length = n, ∀ i (hi : i < n),
        b.getValue i j = .ok ((cols[j])[i]'(hl ▸ hi)) := by
  have hmax := colMax_lt (col := b.maxValues) (by norm_num) hm63
  obtain ⟨w, hw, hwle⟩ : ∃ w, emptyMatrixWidth (colMax b.maxValues) = .ok w ∧ colMax b.maxValues < 2 ^ w := by
    unfold emptyMatrixWidth
    split_ifs
    · exact ⟨8, rfl, by omega⟩
    · exact ⟨16, rfl, by omega⟩
    · exact ⟨32, rfl, by omega⟩
    · exact ⟨64, rfl, by omega⟩
    · omega
  unfold FBA.toArray FBA.nFeatures
  rw [if_neg hne, hw, hlay.samples]
  simp only [bind_ok]
  let val : Nat → Nat → Nat := fun i j => match b.getValue i j with | .ok v => v | .error _ => 0
  have hval : ∀ i j (hj : j < b.maxValues.length), i < n → (b.getValue i j = .ok (val i j) ∧
      val i j % 2 ^ w = val i j) := by
    intro i j hj hi
    obtain ⟨v, h1, h2⟩ := hv i j hj hi
    have : val i j = v := by simp only [val, h1]
    rw [this]
    refine ⟨h1, Nat.mod_eq_of_lt ?_⟩
    exact lt_of_le_of_lt (h2.trans (le_colMax _ _ (List.getElem_mem hj))) hwle
  have hcols : ((List.range b.maxValues.length).mapM fun j => (List.range n).mapM fun i => do
      let v ← b.getValue i j
      return v % 2 ^ w) = .ok ((List.range b.maxValues.length).map fun j => (List.range n).map fun i => val i j) := by
    apply mapM_ok_of
    intro j hj
    apply mapM_ok_of
    intro i hi
    obtain ⟨h1, h2⟩ := hval i j (by simpa using hj) (by simpa using hi)
    rw [h1]
    simp [h2]
  refine ⟨w, _, by rw [hcols]; rfl, by simp, ?_⟩
  intro j hj
  refine ⟨by simp, ?_⟩
  intro i hi
  have hj : j < b.maxValues.length := by simpa using hj
  simp [(hval i j hj hi).1]

/-- The decoding of one bin. -/
def decodeBin (fc : FitCol V K) (b : Nat) : M (Decoded V K) :=
    let b' := if b = fc.nBins then 0 else b
    match fc with
    | .cat cats =>
      match cats[b']? with
      | none => .error .indexError
      | some v => .ok (if b = fc.nBins then .missing else .category v)
    | .num thr =>
      let ext : List (Option K) := none :: (thr.map some ++ [none])
      match ext[b']?, ext[b' + 1]? with
      | some lo, some hi => .ok (if b = fc.nBins then .missing else .interval lo hi)
      | _, _ => .error .indexError

theorem inverseCol_eq (fc : FitCol V K) (l : List Nat) : inverseCol fc l = l.mapM (decodeBin fc) := by
  unfold inverseCol decodeBin
  cases fc <;> rfl

theorem decodeBin_spec {f : V → Option K} {fc : FitCol V K} (hne : ∀ cs, fc = .cat cs → cs ≠ [])
    {c : Option V} {v : Nat} (h : EncodesTo f fc c v) :
    ∃ d, decodeBin fc v = .ok d ∧ DecodesTo f fc c d := by
  cases fc with
  | cat cs =>
    have h0 : 0 < cs.length := List.length_pos_iff.2 (hne cs rfl)
    cases c with
    | none =>
      have h : v = cs.length := h
      refine ⟨.missing, ?_, rfl⟩
      simp [decodeBin, FitCol.nBins, h, h0]
    | some x =>
      rcases h with ⟨h1, h2⟩ | ⟨h1, h2⟩
      · have hlt := (List.getElem?_eq_some_iff.1 h2).1
        refine ⟨.category x, ?_, Or.inl ⟨h1, rfl⟩⟩
        have : v ≠ cs.length := by omega
        simp [decodeBin, FitCol.nBins, this, h2]
      · refine ⟨.missing, ?_, Or.inr ⟨h1, rfl⟩⟩
        simp [decodeBin, FitCol.nBins, h2, h0]
  | num thr =>
    cases c with
    | none =>
      have h : v = thr.length + 1 := h
      refine ⟨.missing, ?_, rfl⟩
      subst h
      simp only [decodeBin, FitCol.nBins, if_true]
      cases thr <;> simp
    | some x =>
      obtain ⟨y, hy, hb1, hb2, hb3⟩ := h
      have hne' : v ≠ thr.length + 1 := by omega
      have hhi : (none :: (thr.map some ++ [none]) : List (Option K))[v + 1]? =
          some (if hv : v < thr.length then some thr[v] else none) := by
        simp only [List.getElem?_cons_succ]
        by_cases hv : v < thr.length
        · rw [List.getElem?_append_left (by simpa using hv)]; simp [hv]
        · rw [List.getElem?_append_right (by simp; omega)]
          have : v - (thr.map some).length = 0 := by simp; omega
          rw [this]; simp [hv]
      have hlo : (none :: (thr.map some ++ [none]) : List (Option K))[v]? =
          some (if hv : 0 < v then some (thr[v - 1]'(by omega)) else none) := by
        cases v with
        | zero => simp
        | succ u =>
          simp only [List.getElem?_cons_succ]
          rw [List.getElem?_append_left (by simp; omega)]
          simp [show u < thr.length by omega]
      refine ⟨.interval (if hv : 0 < v then some (thr[v - 1]'(by omega)) else none)
        (if hv : v < thr.length then some thr[v] else none), ?_, ?_⟩
      · have e : (if v = (FitCol.num thr : FitCol V K).nBins then 0 else v) = v := if_neg hne'
        simp only [decodeBin, e]
        rw [hhi, hlo]
        have hne2 : v ≠ (FitCol.num thr : FitCol V K).nBins := hne'
        simp only [if_neg hne2]
      · refine ⟨y, _, _, hy, rfl, ?_, ?_⟩
        · intro a ha
          split at ha
          · rename_i hv
            cases ha
            exact hb3 (v - 1) _ (by omega) (List.getElem?_eq_getElem (by omega))
          · cases ha
        · intro a ha
          split at ha
          · rename_i hv
            cases ha
            exact hb2 _ (List.getElem?_eq_getElem hv)
          · cases ha

/-! ## fit -/

variable [IsStrictOrderedRing K]

theorem fitSeries_ok {cv : Conv V K} {cfg : EncCfg K} {subset : Option (List Nat)} {j n : Nat}
    {s : Series V} (hs : GoodSeries n s) (hm : 1 ≤ cfg.maxBins) {fc : FitCol V K}
    (h : fitSeries cv cfg subset j s = .ok fc) :
    fc.OK ∧ (∀ cs, fc = .cat cs → ∀ v, some v ∈ s.cells → v ∈ cs) := by
  unfold fitSeries at h
  rw [bind_eq_ok] at h
  obtain ⟨d, hd, h⟩ := h
  rw [bind_eq_ok] at h
  obtain ⟨t, ht, h⟩ := h
  cases t with
  | isCategory =>
    simp at h; subst h
    have hk : s.kind = .category := by
      unfold isSeriesCategorical at ht
      rcases d with _ | _ | _ <;> cases hk : s.kind <;> simp [hk] at ht ⊢
      split at ht <;> cases ht
    refine ⟨(hs.2 hk).1, ?_⟩
    intro cs hcs v hv; cases hcs; exact (hs.2 hk).2 v hv
  | toCategory =>
    simp at h; subst h
    refine ⟨cv.catsOf_nodup _, ?_⟩
    intro cs hcs v hv; cases hcs; exact (cv.mem_catsOf _ _).2 hv
  | numerical =>
    simp only at h
    rw [bind_eq_ok] at h
    obtain ⟨cells, hc, h⟩ := h
    rw [bind_eq_ok] at h
    obtain ⟨xs, hxs, h⟩ := h
    rw [bind_eq_ok] at h
    obtain ⟨thr, hthr, h⟩ := h
    simp at h; subst h
    obtain ⟨thr', h1, h2, _⟩ := findBinningThresholds_spec cfg.cap xs cfg.maxBins hm
    rw [h1] at hthr; cases hthr
    exact ⟨h2, by intro cs hcs; cases hcs⟩

theorem fitArrayCol_ok {cv : Conv V K} {cfg : EncCfg K} {subset : Option (List Nat)} {kind : Kind} {j : Nat}
    {cells : List (Option V)} (hm : 1 ≤ cfg.maxBins) {fc : FitCol V K}
    (h : fitArrayCol cv cfg subset kind j cells = .ok fc) :
    fc.OK ∧ (∀ cs, fc = .cat cs → ∀ v, v ∈ cs ↔ some v ∈ cells) := by
  unfold fitArrayCol at h
  rw [bind_eq_ok] at h
  obtain ⟨d, hd, h⟩ := h
  simp only at h
  rw [bind_eq_ok] at h
  obtain ⟨t, ht, h⟩ := h
  cases t with
  | true =>
    simp at h; subst h
    refine ⟨cv.catsOf_nodup _, ?_⟩
    intro cs hcs v; cases hcs; exact cv.mem_catsOf _ _
  | false =>
    simp only [Bool.false_eq_true, if_false] at h
    rw [bind_eq_ok] at h
    obtain ⟨cells', hc, h⟩ := h
    rw [bind_eq_ok] at h
    obtain ⟨xs, hxs, h⟩ := h
    rw [bind_eq_ok] at h
    obtain ⟨thr, hthr, h⟩ := h
    simp at h; subst h
    obtain ⟨thr', h1, h2, _⟩ := findBinningThresholds_spec cfg.cap xs cfg.maxBins hm
    rw [h1] at hthr; cases hthr
    exact ⟨h2, by intro cs hcs; cases hcs⟩

theorem fit_mapM {α : Type} {X : List α} {enc : List (FitCol V K)} {F : Nat → α → M (FitCol V K)}
    (h : ((List.range X.length).zip X).mapM (fun p => F p.1 p.2) = .ok enc) :
    ∃ hl : enc.length = X.length, ∀ j (hj : j < X.length), F j X[j] = .ok (enc[j]'(hl ▸ hj)) := by
  obtain ⟨hl, h⟩ := mapM_zip_ok (A := List.range X.length) (B := X) (by simp) h
  have hl' : enc.length = X.length := by simpa using hl
  refine ⟨hl', ?_⟩
  intro j hj
  have := h j (by simpa using hj)
  simpa using this

/-- Every fitted column is valid, and the categories of a categorical column contain the values seen. -/
theorem encoderFit_ok {N : Type} {cv : Conv V K} {cfg : EncCfg K} (hm : 1 ≤ cfg.maxBins)
    {D : Dataset N V} {enc : List (FitCol V K)} (h : FittedOn cv cfg D enc) :
    enc.length = nCols D ∧ (∀ fc ∈ enc, fc.OK) ∧
      ∀ i j cs v, enc[j]? = some (.cat cs) → cell D i j = some (some v) → v ∈ cs := by
  obtain ⟨subset, h, hD⟩ := h
  cases D with
  | frame X =>
    obtain ⟨n, hX⟩ := hD
    have h' : ((List.range (X.map Prod.snd).length).zip (X.map Prod.snd)).mapM
        (fun p => fitSeries cv cfg subset p.1 p.2) = .ok enc := by
      simp only [encoderFit, fitDataFrame] at h
      split at h
      · split at h
        · cases h
        · exact h
      · exact h
    obtain ⟨hl, hf⟩ := fit_mapM h'
    have hlX : enc.length = X.length := by simpa using hl
    have key : ∀ j (hj : j < X.length), (enc[j]).OK ∧
        (∀ cs, enc[j] = .cat cs → ∀ v, some v ∈ X[j].2.cells → v ∈ cs) := by
      intro j hj
      have := hf j (by simpa using hj)
      rw [List.getElem_map] at this
      exact fitSeries_ok (hX _ (List.getElem_mem hj)) hm this
    refine ⟨hlX, ?_, ?_⟩
    · intro fc hfc
      obtain ⟨j, hj, rfl⟩ := List.getElem_of_mem hfc
      exact (key j (by omega)).1
    · intro i j cs v hj hc
      obtain ⟨hj', he⟩ := List.getElem?_eq_some_iff.1 hj
      simp only [cell, Option.bind_eq_some_iff] at hc
      obtain ⟨p, hp, hc⟩ := hc
      obtain ⟨_, rfl⟩ := List.getElem?_eq_some_iff.1 hp
      exact (key j (by omega)).2 cs he v (List.mem_of_getElem? hc)
  | array kind X =>
    have h' : ((List.range X.length).zip X).mapM
        (fun p => fitArrayCol cv cfg subset kind p.1 p.2) = .ok enc := by
      simp only [encoderFit, fitArray] at h
      split at h
      · split at h
        · cases h
        · exact h
      · exact h
    obtain ⟨hlX, hf⟩ := fit_mapM h'
    have key := fun j (hj : j < X.length) => fitArrayCol_ok hm (hf j hj)
    refine ⟨hlX, ?_, ?_⟩
    · intro fc hfc
      obtain ⟨j, hj, rfl⟩ := List.getElem_of_mem hfc
      exact (key j (by omega)).1
    · intro i j cs v hj hc
      obtain ⟨hj', he⟩ := List.getElem?_eq_some_iff.1 hj
      simp only [cell, Option.bind_eq_some_iff] at hc
      obtain ⟨p, hp, hc⟩ := hc
      obtain ⟨_, rfl⟩ := List.getElem?_eq_some_iff.1 hp
      exact ((key j (by omega)).2 cs he v).2 (List.mem_of_getElem? hc)

end

end Verif
