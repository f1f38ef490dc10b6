import Verif.Spec.Datasets
import Verif.Proofs.OutOfBagEst
import Mathlib.Data.List.Forall2
import Mathlib.Algebra.Order.BigOperators.Group.List
import Mathlib.Algebra.BigOperators.Ring.List
import Mathlib.Tactic.FieldSimp
import Mathlib.Tactic.Ring
import Mathlib.Tactic.Positivity

/-! Lemmas on the data sets. -/
namespace Verif
open Spec

section
variable {N C K : Type} [DecidableEq N] [LinearOrder C]

/-! ### Lists -/

theorem sublist_ext {α : Type} {L l l' : List α} (h : l.Sublist L) (h' : l'.Sublist L) (hn : L.Nodup) (hm : ∀ x, x ∈ l ↔ x ∈ l') : l = l' := by
  induction L generalizing l l' with
  | nil => rw [List.sublist_nil.1 h, List.sublist_nil.1 h']
  | cons a L ih =>
    have ⟨ha, hn⟩ := List.nodup_cons.1 hn
    rcases List.sublist_cons_iff.1 h with h1 | ⟨r, rfl, h1⟩ <;> rcases List.sublist_cons_iff.1 h' with h2 | ⟨r', rfl, h2⟩
    · exact ih h1 h2 hn hm
    · exact absurd (h1.subset ((hm a).2 (by simp))) ha
    · exact absurd (h2.subset ((hm a).1 (by simp))) ha
    · rw [ih h1 h2 hn]
      intro x
      have := hm x
      simp only [List.mem_cons] at this
      constructor
      · intro hx
        exact (this.1 (.inr hx)).resolve_left (fun h => ha (h ▸ h1.subset hx))
      · intro hx
        exact (this.2 (.inr hx)).resolve_left (fun h => ha (h ▸ h2.subset hx))

theorem lookup_eq_some {β : Type} {df : List (N × β)} (hn : (df.map Prod.fst).Nodup) {n : N} {c : β} : df.lookup n = some c ↔ (n, c) ∈ df := by
  induction df with
  | nil => simp
  | cons p df ih =>
    obtain ⟨a, b⟩ := p
    simp only [List.map_cons, List.nodup_cons] at hn
    by_cases h : n = a
    · subst h
      simp only [List.lookup_cons_self, Option.some.injEq, List.mem_cons, Prod.mk.injEq, true_and]
      constructor
      · rintro rfl; exact .inl rfl
      · rintro (h | h)
        · exact h.symm
        · exact absurd (List.mem_map.2 ⟨_, h, rfl⟩) hn.1
    · rw [List.lookup_cons, beq_eq_false_iff_ne.2 h]
      simp only [List.mem_cons, Prod.mk.injEq, h, false_and, false_or]
      exact ih hn.2

theorem zip_flatten {α β : Type} {A : List (List α)} {B : List (List β)} (h : List.Forall₂ (fun a b => a.length = b.length) A B) :
    A.flatten.zip B.flatten = (List.zipWith List.zip A B).flatten := by
  induction h with
  | nil => rfl
  | cons h _ ih => simp only [List.flatten_cons, List.zipWith_cons_cons]; rw [List.zip_append h, ih]

/-- Position of a member of an increasing list. -/
theorem idxOf_sorted {l : List C} (hs : l.Pairwise (· < ·)) {c : C} (hc : c ∈ l) : l.idxOf c = (l.toFinset.filter (· < c)).card := by
  induction l with
  | nil => simp at hc
  | cons a l ih =>
    rw [List.pairwise_cons] at hs
    have han : a ∉ l := fun h => lt_irrefl _ (hs.1 a h)
    by_cases h : a = c
    · subst h
      rw [List.idxOf_cons_self, eq_comm, Finset.card_eq_zero, Finset.filter_eq_empty_iff]
      intro x hx
      simp only [List.toFinset_cons, Finset.mem_insert, List.mem_toFinset] at hx
      rcases hx with rfl | hx
      · exact lt_irrefl _
      · exact not_lt.2 (hs.1 x hx).le
    · have hc : c ∈ l := (List.mem_cons.1 hc).resolve_left (Ne.symm h)
      rw [List.idxOf_cons_ne _ h, ih hs.2 hc, List.toFinset_cons, Finset.filter_insert, if_pos (hs.1 c hc), Finset.card_insert_of_notMem]
      simp [han]

/-! ### Rows of a frame -/

omit [LinearOrder C] in
theorem cells_of_rows {df d : DFrame N C} {rows : List Nat} (h : df.rows rows = .ok d) {n : N} {cells : List C} (hc : d.col n = .ok cells) :
    List.Forall₂ (fun row c => cellOf df n row = some c) rows cells := by
  unfold DFrame.rows at h
  rw [mapM_eq_ok] at h
  unfold DFrame.col at hc
  unfold cellOf
  induction h with
  | nil => simp at hc
  | @cons p q df d hp _ ih =>
    rw [bind_eq_ok] at hp
    obtain ⟨cs, hcs, hq⟩ := hp
    cases hq
    obtain ⟨a, b⟩ := p
    by_cases hn : n = a
    · subst hn
      simp only [List.lookup_cons_self] at hc ⊢
      cases hc
      refine (mapM_eq_ok.1 hcs).imp fun r c hr => ?_
      simpa using rd_ok.1 hr
    · rw [List.lookup_cons, beq_eq_false_iff_ne.2 hn] at hc ⊢
      exact ih hc

theorem filterMap_of_forall₂ {α β : Type} {f : α → Option β} {l : List α} {r : List β} (h : List.Forall₂ (fun a b => f a = some b) l r) :
    l.filterMap f = r := by
  induction h with
  | nil => rfl
  | cons h _ ih => rw [List.filterMap_cons, h, ih]

omit [LinearOrder C] in
theorem seen_iff {df d : DFrame N C} {tr : List Nat} (h : df.rows tr = .ok d) {n : N} {cells : List C} (hc : d.col n = .ok cells) (c : C) :
    Seen df n tr c ↔ c ∈ cells := by
  rw [← filterMap_of_forall₂ (cells_of_rows h hc), List.mem_filterMap]
  rfl

theorem rankOf_eq {df d : DFrame N C} {tr : List Nat} (h : df.rows tr = .ok d) {n : N} {cells : List C} (hc : d.col n = .ok cells) {c : C} (hm : c ∈ cells) :
    (sortedUnique cells).idxOf c = rankOf df n tr c := by
  rw [idxOf_sorted (sortedUnique_sorted cells) (mem_sortedUnique.2 hm)]
  unfold rankOf
  rw [filterMap_of_forall₂ (cells_of_rows h hc)]
  congr 1
  ext x
  simp [mem_sortedUnique]

theorem levelsOf_eq {df d : DFrame N C} {tr : List Nat} (h : df.rows tr = .ok d) {n : N} {cells : List C} (hc : d.col n = .ok cells) :
    (sortedUnique cells).length = levelsOf df n tr := by
  unfold levelsOf
  rw [filterMap_of_forall₂ (cells_of_rows h hc), sortedUnique_length, ← List.card_toFinset]

omit [LinearOrder C] in
theorem holdsIn_of_forall₂ {df : DFrame N C} {n : N} {rows : List Nat} {col : List K} {rel : C → K → Prop}
    (h : List.Forall₂ (fun row v => ∃ c, cellOf df n row = some c ∧ rel c v) rows col) : HoldsIn df n rows col rel := by
  refine ⟨h.length_eq.symm, fun i row hi => ?_⟩
  have hl : i < rows.length := (List.getElem?_eq_some_iff.1 hi).1
  have hl' : i < col.length := h.length_eq ▸ hl
  have hg := h.get (i := i) hl hl'
  rw [List.get_eq_getElem, List.get_eq_getElem, (List.getElem?_eq_some_iff.1 hi).2] at hg
  obtain ⟨c, h1, h2⟩ := hg
  exact ⟨c, _, h1, List.getElem?_eq_getElem hl', h2⟩

omit [LinearOrder C] in
theorem holdsIn_map {df : DFrame N C} {n : N} {rows : List Nat} {cells : List C} {rel : C → K → Prop} {f : C → K}
    (h : List.Forall₂ (fun row c => cellOf df n row = some c) rows cells) (hr : ∀ c ∈ cells, rel c (f c)) :
    HoldsIn df n rows (cells.map f) rel := by
  apply holdsIn_of_forall₂
  rw [List.forall₂_map_right_iff]
  induction h with
  | nil => exact .nil
  | cons h _ ih => exact .cons ⟨_, h, hr _ (by simp)⟩ (ih fun c hc => hr c (by simp [hc]))

omit [LinearOrder C] in
theorem floats_forall₂ {lib : DataLib C K} {cells : List C} {xs : List K} (h : lib.floats cells = .ok xs) :
    List.Forall₂ (fun c x => lib.toFloat c = some x) cells xs := by
  refine (mapM_eq_ok.1 h).imp fun c x hx => ?_
  split at hx
  · cases hx; assumption
  · cases hx

omit [LinearOrder C] in
theorem holdsIn_floats {lib : DataLib C K} {df : DFrame N C} {n : N} {rows : List Nat} {cells : List C} {xs : List K} {rel : C → K → Prop} {f : K → K}
    (h : List.Forall₂ (fun row c => cellOf df n row = some c) rows cells) (hx : lib.floats cells = .ok xs)
    (hr : ∀ c x, lib.toFloat c = some x → rel c (f x)) :
    HoldsIn df n rows (xs.map f) rel := by
  apply holdsIn_of_forall₂
  rw [List.forall₂_map_right_iff]
  have hx := floats_forall₂ hx
  clear * - h hx hr
  induction h generalizing xs with
  | nil => cases hx; exact .nil
  | cons h _ ih => cases hx with | cons h1 h2 => exact .cons ⟨_, h, hr _ _ h1⟩ (ih h2)

end

section
variable {K : Type} [Field K] [LinearOrder K] [IsStrictOrderedRing K]

/-! ### Standard scaling -/

theorem sum_map_sub (xs : List K) (m : K) : (xs.map fun x => x - m).sum = xs.sum - xs.length * m := by
  induction xs with
  | nil => simp
  | cons x xs ih => simp only [List.map_cons, List.sum_cons, ih, List.length_cons]; push_cast; ring

theorem sumDivK (xs : List K) (g : K → K) (s : K) : (xs.map fun x => g x / s).sum = (xs.map g).sum / s := by
  induction xs with
  | nil => simp
  | cons x xs ih => simp only [List.map_cons, List.sum_cons, ih]; ring

theorem sum_sq_eq_zero {xs : List K} (h : (xs.map fun x => x ^ 2).sum = 0) : ∀ x ∈ xs, x = 0 := by
  intro x hx
  have h1 : ∀ y ∈ xs.map (fun x => x ^ 2), 0 ≤ y := by
    intro y hy
    obtain ⟨x, _, rfl⟩ := List.mem_map.1 hy
    positivity
  have := List.single_le_sum h1 (x ^ 2) (List.mem_map.2 ⟨x, hx, rfl⟩)
  rw [h] at this
  exact pow_eq_zero_iff (two_ne_zero) |>.1 (le_antisymm this (by positivity))

theorem scalerFit_spec {sqrt : K → K} (hs : SqrtOK sqrt) {xs : List K} (hx : xs ≠ []) :
    0 < (scalerFit sqrt xs).2 ∧ (xs.map fun x => (x - (scalerFit sqrt xs).1) / (scalerFit sqrt xs).2).sum = 0 ∧
    ((∀ z ∈ xs.map (fun x => (x - (scalerFit sqrt xs).1) / (scalerFit sqrt xs).2), z = 0) ∨
      ((xs.map fun x => (x - (scalerFit sqrt xs).1) / (scalerFit sqrt xs).2).map (· ^ 2)).sum = (xs.length : K)) := by
  have hl : (0 : K) < xs.length := by exact_mod_cast List.length_pos_iff.2 hx
  unfold scalerFit
  simp only
  generalize hm : xs.sum / (xs.length : K) = m
  have h0 : (xs.map fun x => x - m).sum = 0 := by
    rw [sum_map_sub, ← hm]; field_simp; ring
  generalize hv : (xs.map fun x => (x - m) ^ 2).sum / (xs.length : K) = v
  have hv' : (xs.map fun x => (x - m) ^ 2).sum = v * xs.length := by rw [← hv]; field_simp
  have hnn : 0 ≤ v := by
    rw [← hv]
    refine div_nonneg (List.sum_nonneg ?_) hl.le
    intro y hy
    obtain ⟨x, _, rfl⟩ := List.mem_map.1 hy
    positivity
  by_cases hz : v = 0
  · rw [if_pos hz]
    refine ⟨one_pos, by simp only [div_one]; exact h0, .inl ?_⟩
    have : ((xs.map fun x => x - m).map fun x => x ^ 2).sum = 0 := by
      rw [List.map_map]; show (xs.map fun x => (x - m) ^ 2).sum = 0; rw [hv', hz, zero_mul]
    simp only [div_one]
    exact sum_sq_eq_zero this
  · rw [if_neg hz]
    have ⟨hp, hq⟩ := hs v (lt_of_le_of_ne hnn (Ne.symm hz))
    refine ⟨hp, ?_, .inr ?_⟩
    · rw [sumDivK xs (fun x => x - m), h0, zero_div]
    · rw [List.map_map]
      have : ((fun z : K => z ^ 2) ∘ fun x => (x - m) / sqrt v) = fun x => (x - m) ^ 2 / v := by
        funext x; simp only [Function.comp]; rw [div_pow, pow_two (sqrt v), hq]
      rw [this, sumDivK xs (fun x => (x - m) ^ 2), hv']
      field_simp

end

section
variable {N C K : Type} [DecidableEq N] [LinearOrder C] [Field K] [LinearOrder K] [IsStrictOrderedRing K]

/-! ### Fitted features -/

/-- The names of the columns that a feature gives when nothing is dropped. -/
def FitFeature.cols : FitFeature N C K → List (ColName N)
  | .scaled n _ _ => [.plain n]
  | .kept n => [.plain n]
  | .oneHot n l => (List.range l.length).map (.level n)
  | .ordinal n _ => [.plain n]

/-- The feature of a continuous column. -/
def ContFit (lib : DataLib C K) (cfg : DatasetCfg N) (d : DFrame N C) (n : N) (f : FitFeature N C K) : Prop :=
  ∃ cells, d.col n = .ok cells ∧
    ((cfg.standardize = true ∧ ∃ xs, lib.floats cells = .ok xs ∧ f = .scaled n (scalerFit lib.sqrt xs).1 (scalerFit lib.sqrt xs).2) ∨
     (cfg.standardize = false ∧ f = .kept n))

/-- The feature of a categorical column. -/
def CatFit (cfg : DatasetCfg N) (d : DFrame N C) (n : N) (f : FitFeature N C K) : Prop :=
  ∃ cells, d.col n = .ok cells ∧
    ((cfg.oneHot = true ∧ f = .oneHot n (sortedUnique cells)) ∨ (cfg.oneHot = false ∧ f = .ordinal n (sortedUnique cells)))

omit [IsStrictOrderedRing K] in
theorem fitFeatures_inv {lib : DataLib C K} {cfg : DatasetCfg N} {d : DFrame N C} {fs : List (FitFeature N C K)} (h : fitFeatures lib cfg d = .ok fs) :
    ∃ co ca, fs = co ++ ca ∧ List.Forall₂ (ContFit lib cfg d) (cfg.continuous.getD []) co ∧ List.Forall₂ (CatFit cfg d) (cfg.categorical.getD []) ca := by
  unfold fitFeatures at h
  rw [bind_eq_ok] at h
  obtain ⟨co, hco, h⟩ := h
  rw [bind_eq_ok] at h
  obtain ⟨ca, hca, h⟩ := h
  split at h
  · cases h
  cases h
  refine ⟨co, ca, rfl, (mapM_eq_ok.1 hco).imp fun n f hf => ?_, (mapM_eq_ok.1 hca).imp fun n f hf => ?_⟩
  · rw [bind_eq_ok] at hf
    obtain ⟨cells, hc, hf⟩ := hf
    refine ⟨cells, hc, ?_⟩
    split at hf
    · rename_i hs
      rw [bind_eq_ok] at hf
      obtain ⟨xs, hx, hf⟩ := hf
      cases hf
      exact .inl ⟨hs, xs, hx, rfl⟩
    · rename_i hs
      cases hf
      exact .inr ⟨by simpa using hs, rfl⟩
  · rw [bind_eq_ok] at hf
    obtain ⟨cells, hc, hf⟩ := hf
    refine ⟨cells, hc, ?_⟩
    cases hf
    by_cases hs : cfg.oneHot
    · rw [if_pos hs]; exact .inl ⟨hs, rfl⟩
    · rw [if_neg hs]; exact .inr ⟨by simpa using hs, rfl⟩

/-- Relation between names and columns. -/
def NamedOK (toFloat : C → Option K) (cfg : DatasetCfg N) (df : DFrame N C) (tr te : List Nat) (cn : ColName N) (p : List K × List K) : Prop :=
  ColumnOK toFloat cfg df tr te cn p.1 p.2

theorem contFit_columns {lib : DataLib C K} {cfg : DatasetCfg N} {df d dt : DFrame N C} {tr te : List Nat} (hs : SqrtOK lib.sqrt) (hne : tr ≠ [])
    (hd : df.rows tr = .ok d) (hdt : df.rows te = .ok dt) {n : N} (hn : IsFeature df cfg.label n false) {f : FitFeature N C K} (hf : ContFit lib cfg d n f)
    {A B : List (List K)} (hA : transformFeature lib .none d f = .ok A) (hB : transformFeature lib .none dt f = .ok B) :
    A.length = B.length ∧ List.Forall₂ (NamedOK lib.toFloat cfg df tr te) f.cols (A.zip B) := by
  obtain ⟨cells, hc, ⟨hstd, xs, hxs, rfl⟩ | ⟨hstd, rfl⟩⟩ := hf
  · unfold transformFeature at hA hB
    simp only [bind_eq_ok] at hA hB
    obtain ⟨c1, h1, x1, h2, hA⟩ := hA
    obtain ⟨c2, h3, x2, h4, hB⟩ := hB
    obtain rfl : cells = c1 := by rw [hc] at h1; cases h1; rfl
    obtain rfl : xs = x1 := by rw [hxs] at h2; cases h2; rfl
    cases hA; cases hB
    refine ⟨rfl, .cons (.inl ⟨hn, hstd, ?_⟩) .nil⟩
    have hcr := cells_of_rows hd hc
    have hxne : xs ≠ [] := by
      have e : xs.length = tr.length := by rw [← (floats_forall₂ hxs).length_eq, ← hcr.length_eq]
      rintro rfl
      exact hne (List.length_eq_zero_iff.1 (by simpa using e.symm))
    have ⟨p1, p2, p3⟩ := scalerFit_spec hs hxne
    have aff : ∀ (c : C) (x : K), lib.toFloat c = some x → ∃ x', lib.toFloat c = some x' ∧
        (x - (scalerFit lib.sqrt xs).1) / (scalerFit lib.sqrt xs).2 = (scalerFit lib.sqrt xs).2⁻¹ * x' + -((scalerFit lib.sqrt xs).1 / (scalerFit lib.sqrt xs).2) :=
      fun c x hx => ⟨x, hx, by field_simp; ring⟩
    refine ⟨⟨(scalerFit lib.sqrt xs).2⁻¹, -((scalerFit lib.sqrt xs).1 / (scalerFit lib.sqrt xs).2), inv_pos.2 p1, ?_, ?_⟩, p2, ?_⟩
    · exact holdsIn_floats hcr hxs aff
    · exact holdsIn_floats (cells_of_rows hdt h3) h4 aff
    · rw [hcr.length_eq, (floats_forall₂ hxs).length_eq]; exact p3
  · unfold transformFeature at hA hB
    simp only [bind_eq_ok] at hA hB
    obtain ⟨c1, h1, x1, h2, hA⟩ := hA
    obtain ⟨c2, h3, x2, h4, hB⟩ := hB
    cases hA; cases hB
    refine ⟨rfl, .cons (.inr (.inl ⟨hn, hstd, ?_, ?_⟩)) .nil⟩
    · have := holdsIn_floats (rel := fun c z => lib.toFloat c = some z) (f := id) (cells_of_rows hd h1) h2 (fun c x h => h)
      simpa using this
    · have := holdsIn_floats (rel := fun c z => lib.toFloat c = some z) (f := id) (cells_of_rows hdt h3) h4 (fun c x h => h)
      simpa using this

theorem eq_level_iff {df d : DFrame N C} {tr : List Nat} (hd : df.rows tr = .ok d) {n : N} {cells : List C} (hc : d.col n = .ok cells) {k : Nat}
    (hk : k < (sortedUnique cells).length) (c : C) : c = (sortedUnique cells)[k] ↔ (Seen df n tr c ∧ rankOf df n tr c = k) := by
  have hnd : (sortedUnique cells).Nodup := (sortedUnique_sorted cells).imp (fun h => h.ne)
  rw [seen_iff hd hc]
  constructor
  · rintro rfl
    have hm : (sortedUnique cells)[k] ∈ cells := mem_sortedUnique.1 (List.getElem_mem _)
    exact ⟨hm, by rw [← rankOf_eq hd hc hm, hnd.idxOf_getElem]⟩
  · rintro ⟨hm, hr⟩
    rw [← rankOf_eq hd hc hm] at hr
    subst hr
    exact (List.getElem_idxOf _).symm

omit [IsStrictOrderedRing K] in
theorem catFit_columns {lib : DataLib C K} {cfg : DatasetCfg N} {df d dt : DFrame N C} {tr te : List Nat}
    (hd : df.rows tr = .ok d) (hdt : df.rows te = .ok dt) {n : N} (hn : IsFeature df cfg.label n true) {f : FitFeature N C K} (hf : CatFit cfg d n f)
    {A B : List (List K)} (hA : transformFeature lib .none d f = .ok A) (hB : transformFeature lib .none dt f = .ok B) :
    A.length = B.length ∧ List.Forall₂ (NamedOK lib.toFloat cfg df tr te) f.cols (A.zip B) := by
  obtain ⟨cells, hc, ⟨hoh, rfl⟩ | ⟨hoh, rfl⟩⟩ := hf
  · unfold transformFeature at hA hB
    simp only [bind_eq_ok] at hA hB
    obtain ⟨c1, h1, hA⟩ := hA
    obtain ⟨c2, h2, hB⟩ := hB
    obtain rfl : cells = c1 := by rw [hc] at h1; cases h1; rfl
    cases hA; cases hB
    refine ⟨by simp, ?_⟩
    rw [List.forall₂_iff_get]
    refine ⟨by simp [FitFeature.cols], ?_⟩
    intro k hk hk'
    have hk : k < (sortedUnique cells).length := by simpa [FitFeature.cols] using hk
    simp only [FitFeature.cols, List.get_eq_getElem, List.getElem_map, List.getElem_range, List.getElem_zip, NamedOK, ColumnOK]
    refine ⟨hn, hoh, by rw [← levelsOf_eq hd hc]; exact hk, ?_, ?_⟩
    · refine holdsIn_map (cells_of_rows hd hc) fun c hm => ?_
      have := eq_level_iff hd hc hk c
      rw [seen_iff hd hc] at this
      by_cases h : c = (sortedUnique cells)[k]
      · rw [if_pos h]; exact .inl ⟨(this.1 h).2, rfl⟩
      · rw [if_neg h]; exact .inr ⟨fun hr => h (this.2 ⟨hm, hr⟩), rfl⟩
    · refine holdsIn_map (cells_of_rows hdt h2) fun c _ => ?_
      have := eq_level_iff hd hc hk c
      by_cases h : c = (sortedUnique cells)[k]
      · rw [if_pos h]; exact .inl ⟨(this.1 h).1, (this.1 h).2, rfl⟩
      · rw [if_neg h]; exact .inr ⟨fun hr => h (this.2 hr), rfl⟩
  · unfold transformFeature at hA hB
    simp only [bind_eq_ok] at hA hB
    obtain ⟨c1, h1, hA⟩ := hA
    obtain ⟨c2, h2, hB⟩ := hB
    obtain rfl : cells = c1 := by rw [hc] at h1; cases h1; rfl
    cases hA; cases hB
    refine ⟨rfl, .cons (.inr (.inr ⟨hn, hoh, ?_, ?_⟩)) .nil⟩
    · refine holdsIn_map (cells_of_rows hd hc) fun c hm => ?_
      rw [if_pos (mem_sortedUnique.2 hm), rankOf_eq hd hc hm]
      exact ⟨(seen_iff hd hc c).2 hm, rfl⟩
    · refine holdsIn_map (cells_of_rows hdt h2) fun c _ => ?_
      rw [seen_iff hd hc c]
      by_cases hm : c ∈ cells
      · rw [if_pos (mem_sortedUnique.2 hm), rankOf_eq hd hc hm]; exact .inl ⟨hm, rfl⟩
      · rw [if_neg (fun h => hm (mem_sortedUnique.1 h))]; exact .inr ⟨hm, rfl⟩

omit [LinearOrder K] [IsStrictOrderedRing K] in
theorem transformFrame_inv {lib : DataLib C K} {drop : DropArg} {fs : List (FitFeature N C K)} {d : DFrame N C} {X : List (List K)}
    (h : transformFrame lib drop fs d = .ok X) : ∃ A, List.Forall₂ (fun f a => transformFeature lib drop d f = .ok a) fs A ∧ X = A.flatten := by
  unfold transformFrame at h
  rw [bind_eq_ok] at h
  obtain ⟨A, hA, h⟩ := h
  cases h
  exact ⟨A, mapM_eq_ok.1 hA, rfl⟩

omit [IsStrictOrderedRing K] in
/-- The columns of the fitted features. -/
theorem transform_columns {lib : DataLib C K} {cfg : DatasetCfg N} {df d dt : DFrame N C} {tr te : List Nat} {fs : List (FitFeature N C K)}
    (hf : ∀ f ∈ fs, ∀ A B, transformFeature lib .none d f = .ok A → transformFeature lib .none dt f = .ok B →
      A.length = B.length ∧ List.Forall₂ (NamedOK lib.toFloat cfg df tr te) f.cols (A.zip B))
    {X Y : List (List K)} (hX : transformFrame lib .none fs d = .ok X) (hY : transformFrame lib .none fs dt = .ok Y) :
    X.length = Y.length ∧ List.Forall₂ (NamedOK lib.toFloat cfg df tr te) (fs.flatMap FitFeature.cols) (X.zip Y) := by
  obtain ⟨A, hA, rfl⟩ := transformFrame_inv hX
  obtain ⟨B, hB, rfl⟩ := transformFrame_inv hY
  clear hX hY
  induction hA generalizing B with
  | nil => cases hB; exact ⟨rfl, .nil⟩
  | cons ha hA ih =>
    cases hB with
    | cons hb hB =>
      have ⟨i1, i2⟩ := ih (fun f h => hf f (List.mem_cons_of_mem _ h)) _ hB
      have ⟨j1, j2⟩ := hf _ List.mem_cons_self _ _ ha hb
      refine ⟨by simp only [List.flatten_cons, List.length_append, i1, j1], ?_⟩
      simp only [List.flatMap_cons, List.flatten_cons]
      rw [List.zip_append j1]
      exact List.rel_append j2 i2

/-! ### Names -/

omit [LinearOrder C] in
theorem mem_featureNames {df : DFrame N C} (hn : (df.map Prod.fst).Nodup) {label n : N} {b : Bool} :
    n ∈ featureNames df label b ↔ IsFeature df label n b := by
  unfold featureNames IsFeature
  simp only [List.mem_map, List.mem_filter, Bool.and_eq_true, decide_eq_true_eq, beq_iff_eq]
  constructor
  · rintro ⟨⟨a, c⟩, ⟨h1, h2, h3⟩, rfl⟩
    exact ⟨h2, c, (lookup_eq_some hn).2 h1, h3⟩
  · rintro ⟨h1, c, h2, h3⟩
    exact ⟨(n, c), ⟨(lookup_eq_some hn).1 h2, h1, h3⟩, rfl⟩

omit [LinearOrder C] in
theorem featureNames_sublist (df : DFrame N C) (label : N) (b : Bool) : (featureNames df label b).Sublist (df.map Prod.fst) :=
  List.filter_sublist.map _

omit [LinearOrder C] in
theorem declared_cont {cfg : DatasetCfg N} {df : DFrame N C} (hn : (df.map Prod.fst).Nodup) (h : Declared cfg df) :
    featureNames df cfg.label false = cfg.continuous.getD [] :=
  sublist_ext (featureNames_sublist _ _ _) h.contOrder hn fun n => by rw [mem_featureNames hn, h.cont]

omit [LinearOrder C] in
theorem declared_cat {cfg : DatasetCfg N} {df : DFrame N C} (hn : (df.map Prod.fst).Nodup) (h : Declared cfg df) :
    featureNames df cfg.label true = cfg.categorical.getD [] :=
  sublist_ext (featureNames_sublist _ _ _) h.catOrder hn fun n => by rw [mem_featureNames hn, h.cat]

omit [IsStrictOrderedRing K] [LinearOrder C] in
theorem contFit_cols {lib : DataLib C K} {cfg : DatasetCfg N} {d : DFrame N C} {l : List N} {co : List (FitFeature N C K)}
    (h : List.Forall₂ (ContFit lib cfg d) l co) : co.flatMap FitFeature.cols = l.map ColName.plain := by
  induction h with
  | nil => rfl
  | cons h _ ih =>
    obtain ⟨_, _, ⟨_, _, _, rfl⟩ | ⟨_, rfl⟩⟩ := h <;> simp [FitFeature.cols, ih]

omit [LinearOrder K] [IsStrictOrderedRing K] [Field K] in
theorem catFit_cols_ordinal {cfg : DatasetCfg N} {d : DFrame N C} {l : List N} {ca : List (FitFeature N C K)} (ho : cfg.oneHot = false)
    (h : List.Forall₂ (CatFit cfg d) l ca) : ca.flatMap FitFeature.cols = l.map ColName.plain := by
  induction h with
  | nil => rfl
  | cons h _ ih =>
    obtain ⟨_, _, ⟨h, _⟩ | ⟨_, rfl⟩⟩ := h
    · rw [ho] at h; cases h
    · simp [FitFeature.cols, ih]

omit [LinearOrder K] [IsStrictOrderedRing K] [Field K] in
theorem catFit_cols_oneHot {cfg : DatasetCfg N} {d : DFrame N C} {l : List N} {ca : List (FitFeature N C K)} (ho : cfg.oneHot = true)
    (h : List.Forall₂ (CatFit cfg d) l ca) :
    ca.flatMap FitFeature.cols = (l.zip (ca.filterMap FitFeature.levels?)).flatMap
      fun p => (List.range p.2.length).map (ColName.level p.1) := by
  induction h with
  | nil => rfl
  | cons h _ ih =>
    obtain ⟨_, _, ⟨_, rfl⟩ | ⟨h, _⟩⟩ := h
    · simp [FitFeature.cols, FitFeature.levels?, ih]
    · rw [ho] at h; cases h

omit [IsStrictOrderedRing K] [LinearOrder C] in
theorem contFit_filterMap {lib : DataLib C K} {cfg : DatasetCfg N} {d : DFrame N C} {l : List N} {co : List (FitFeature N C K)}
    (h : List.Forall₂ (ContFit lib cfg d) l co) :
    co.filterMap FitFeature.levels? = [] := by
  induction h with
  | nil => rfl
  | cons h _ ih =>
    obtain ⟨_, _, ⟨_, _, _, rfl⟩ | ⟨_, rfl⟩⟩ := h <;> simpa [FitFeature.levels?] using ih

omit [IsStrictOrderedRing K] in
/-- The names of the columns are those of the fitted features. -/
theorem columnNames_eq {lib : DataLib C K} {cfg : DatasetCfg N} {df d : DFrame N C} (hn : (df.map Prod.fst).Nodup) (hdec : Declared cfg df)
    {co ca : List (FitFeature N C K)} (hco : List.Forall₂ (ContFit lib cfg d) (cfg.continuous.getD []) co)
    (hca : List.Forall₂ (CatFit cfg d) (cfg.categorical.getD []) ca) {cols : List (ColName N)} (h : columnNames cfg df (co ++ ca) = .ok cols) :
    cols = (co ++ ca).flatMap FitFeature.cols := by
  rw [List.flatMap_append, contFit_cols hco]
  unfold columnNames at h
  simp only [declared_cont hn hdec, declared_cat hn hdec] at h
  split at h
  · rename_i he
    cases h
    rw [List.isEmpty_iff.1 he] at hca
    cases hca
    simp
  · rename_i he
    split at h
    · rename_i ho
      rw [bind_eq_ok] at h
      obtain ⟨mods, hm, h⟩ := h
      cases h
      unfold allModalities at hm
      rw [if_neg he] at hm
      cases hm
      rw [catFit_cols_oneHot ho hca, List.filterMap_append, contFit_filterMap hco, List.nil_append]
    · rename_i ho
      cases h
      rw [catFit_cols_ordinal (by simpa using ho) hca]

/-! ### Labels -/

omit [Field K] [LinearOrder K] [IsStrictOrderedRing K] in
theorem encodeTargets_ok {cfg : DatasetCfg N} {df d dr : DFrame N C} {tr rows : List Nat} (hd : df.rows tr = .ok d) (hr : df.rows rows = .ok dr)
    {lt lr : List C} (hlt : d.col cfg.label = .ok lt) (hlr : dr.col cfg.label = .ok lr) {t : Targets C} (h : encodeTargets cfg.regression lt lr = .ok t) :
    TargetsOK cfg df tr rows (if cfg.regression then none else some (sortedUnique lt)) t := by
  have hcr := cells_of_rows hr hlr
  have key : ∀ (i row : Nat), rows[i]? = some row → ∃ c, cellOf df cfg.label row = some c ∧ lr[i]? = some c := by
    intro i row hi
    have hl : i < rows.length := (List.getElem?_eq_some_iff.1 hi).1
    have hl' : i < lr.length := hcr.length_eq ▸ hl
    have hg := hcr.get (i := i) hl hl'
    rw [List.get_eq_getElem, List.get_eq_getElem, (List.getElem?_eq_some_iff.1 hi).2] at hg
    exact ⟨_, hg, List.getElem?_eq_getElem hl'⟩
  unfold encodeTargets at h
  split at h
  · rename_i hreg
    cases h
    exact ⟨hreg, hcr.length_eq.symm, key⟩
  · rename_i hreg
    rw [bind_eq_ok] at h
    obtain ⟨k, hk, h⟩ := h
    cases h
    unfold encodeLabels at hk
    refine ⟨by simpa using hreg, ?_, sortedUnique lt, if_neg hreg, sortedUnique_sorted lt, ?_, ?_⟩
    · rw [← (mapM_eq_ok.1 hk).length_eq, hcr.length_eq]
    · intro c; rw [mem_sortedUnique, seen_iff hd hlt]
    · intro i row hi
      obtain ⟨c, h1, h2⟩ := key i row hi
      rcases mapM_getElem? hk i with ⟨x, y, e1, e2, e3⟩ | ⟨e1, _⟩
      · rw [h2] at e1
        cases e1
        split at e3
        · rename_i hm
          cases e3
          refine ⟨c, _, h1, e2, ?_⟩
          rw [List.getElem?_eq_getElem (List.idxOf_lt_length_iff.2 hm), List.getElem_idxOf]
        · cases e3
      · rw [h2] at e1; cases e1

/-! ### `extract` -/

/-- The steps of a call of `extract` that returns. -/
structure ExtractSteps (lib : DataLib C K) (cfg : DatasetCfg N) (df : DFrame N C) (n : Nat) (r : Extracted N C K) (lab : DCol C) (tr te : List Nat)
    (d dt : DFrame N C) (fs : List (FitFeature N C K)) (lt le : List C) : Prop where
  label : df.lookup cfg.label = some lab
  split : lib.split n (if cfg.regression then none else some lab.cells) = .ok (tr, te)
  train : df.rows tr = .ok d
  test : df.rows te = .ok dt
  fit : fitFeatures lib cfg d = .ok fs
  xTrain : transformFrame lib cfg.drop fs d = .ok r.xTrain
  xTest : transformFrame lib cfg.drop fs dt = .ok r.xTest
  columns : columnNames cfg df fs = .ok r.columns
  frame : checkFrame cfg r.columns r.xTrain.length = .ok ()
  lTrain : d.col cfg.label = .ok lt
  lTest : dt.col cfg.label = .ok le
  yTrain : encodeTargets cfg.regression lt lt = .ok r.yTrain
  yTest : encodeTargets cfg.regression lt le = .ok r.yTest
  mask : r.mask = if !cfg.oneHot && decide (0 < (featureNames df cfg.label true).length) then
    some (List.replicate (featureNames df cfg.label false).length false ++ List.replicate (featureNames df cfg.label true).length true) else none
  classes : r.classes = if cfg.regression then none else some (sortedUnique lt)
  scaledGini : r.scaledGini = if cfg.regression then none else Verif.scaledGini (labelProbs lab.cells)
  nCategorical : r.nCategorical = (featureNames df cfg.label true).length
  nContinuous : r.nContinuous = (featureNames df cfg.label false).length

omit [IsStrictOrderedRing K] in
theorem extract_inv {lib : DataLib C K} {cfg : DatasetCfg N} {df : DFrame N C} {n : Nat} {r : Extracted N C K} (h : extract lib cfg df n = .ok r) :
    ∃ c tr te d dt fs lt le, ExtractSteps lib cfg df n r c tr te d dt fs lt le := by
  unfold extract at h
  rw [bind_eq_ok] at h
  obtain ⟨labels, hl, h⟩ := h
  unfold DFrame.labels at hl
  split at hl
  · rename_i c hc
    cases hl
    simp only [bind_eq_ok] at h
    obtain ⟨⟨tr, te⟩, h1, d, h2, dt, h3, fs, h4, xt, h5, xe, h6, cols, h7, _, h8, lt, h9, le, h10, yt, h11, ye, h12, h⟩ := h
    cases h
    exact ⟨c, tr, te, d, dt, fs, lt, le, hc, h1, h2, h3, h4, h5, h6, h7, h8, h9, h10, h11, h12, rfl, rfl, rfl, rfl, rfl⟩
  · cases hl

omit [LinearOrder C] in
theorem isFeature_not {df : DFrame N C} {label n : N} (h : IsFeature df label n false) : ¬ IsFeature df label n true := by
  rintro ⟨_, c, h1, h2⟩
  obtain ⟨_, c', h1', h2'⟩ := h
  rw [h1] at h1'
  cases h1'
  rw [h2] at h2'
  cases h2'

/-- The name in the name of a column. -/
def ColName.base : ColName N → N
  | .plain n => n
  | .level n _ => n

omit [LinearOrder C] [Field K] [LinearOrder K] [IsStrictOrderedRing K] [DecidableEq N] in
theorem cols_nodup {fs : List (FitFeature N C K)} {names : List N} (h : List.Forall₂ (fun n (f : FitFeature N C K) => ∀ cn ∈ f.cols, cn.base = n) names fs)
    (hn : names.Nodup) : (fs.flatMap FitFeature.cols).Nodup := by
  induction h with
  | nil => simp
  | @cons n f names fs hf hfs ih =>
    rw [List.nodup_cons] at hn
    rw [List.flatMap_cons, List.nodup_append']
    refine ⟨?_, ih hn.2, ?_⟩
    · cases f with
      | oneHot n l => exact List.nodup_range.map (fun a b h => by cases h; rfl)
      | _ => exact List.nodup_singleton _
    · intro cn h1 h2
      have e := hf cn h1
      obtain ⟨g, hg, hcn⟩ := List.mem_flatMap.1 h2
      obtain ⟨k, hk, hgk⟩ := List.mem_iff_getElem.1 hg
      have hk' : k < names.length := hfs.length_eq ▸ hk
      have := hfs.get (i := k) hk' hk
      rw [List.get_eq_getElem, List.get_eq_getElem, hgk] at this
      have := this cn hcn
      rw [e] at this
      exact hn.1 (this ▸ List.getElem_mem hk')

/-- `extract` gives what it says if the declared columns are those of the frame in the same order and nothing is dropped. -/
theorem extract_spec {lib : DataLib C K} {cfg : DatasetCfg N} {df : DFrame N C} {n : Nat} {r : Extracted N C K} (hfr : FrameOK df n)
    (hs : SqrtOK lib.sqrt) (hsp : PartsOK lib) (hdec : Declared cfg df) (hdrop : cfg.drop = .none) (h : extract lib cfg df n = .ok r) :
    ∃ c tr te, df.lookup cfg.label = some c ∧ lib.split n (if cfg.regression then none else some c.cells) = .ok (tr, te) ∧
      ExtractOK lib.toFloat cfg df tr te r := by
  obtain ⟨c, tr, te, d, dt, fs, lt, le, st⟩ := extract_inv h
  refine ⟨c, tr, te, st.label, st.split, ?_⟩
  obtain ⟨_, hne, _⟩ := hsp _ _ _ _ st.split
  obtain ⟨co, ca, rfl, hco, hca⟩ := fitFeatures_inv st.fit
  have hcols := columnNames_eq hfr.names hdec hco hca st.columns
  have hx := st.xTrain
  have hy := st.xTest
  rw [hdrop] at hx hy
  have ⟨hlen, hall⟩ := transform_columns (cfg := cfg) (df := df) (tr := tr) (te := te) (by
    intro f hf A B hA hB
    rcases List.mem_append.1 hf with hf | hf
    · obtain ⟨k, hk, hfk⟩ := List.mem_iff_getElem.1 hf
      have hk' : k < (cfg.continuous.getD []).length := hco.length_eq ▸ hk
      have := hco.get (i := k) hk' hk
      rw [List.get_eq_getElem, List.get_eq_getElem, hfk] at this
      exact contFit_columns hs hne st.train st.test ((hdec.cont _).1 (List.getElem_mem hk')) this hA hB
    · obtain ⟨k, hk, hfk⟩ := List.mem_iff_getElem.1 hf
      have hk' : k < (cfg.categorical.getD []).length := hca.length_eq ▸ hk
      have := hca.get (i := k) hk' hk
      rw [List.get_eq_getElem, List.get_eq_getElem, hfk] at this
      exact catFit_columns st.train st.test ((hdec.cat _).1 (List.getElem_mem hk')) this hA hB) hx hy
  rw [← hcols] at hall
  have hw : r.xTrain.length = r.columns.length := by
    have := hall.length_eq
    rw [List.length_zip, hlen, min_self] at this
    rw [hlen, this]
  have hbase : List.Forall₂ (fun n (f : FitFeature N C K) => ∀ cn ∈ f.cols, cn.base = n) (cfg.continuous.getD [] ++ cfg.categorical.getD []) (co ++ ca) := by
    refine List.rel_append (hco.imp fun n f hf => ?_) (hca.imp fun n f hf => ?_)
    · obtain ⟨_, _, ⟨_, _, _, rfl⟩ | ⟨_, rfl⟩⟩ := hf <;> simp [FitFeature.cols, ColName.base]
    · obtain ⟨_, _, ⟨_, rfl⟩ | ⟨_, rfl⟩⟩ := hf <;> simp [FitFeature.cols, ColName.base]
  refine ⟨⟨hw, by rw [← hlen, hw]⟩, ?_, ?_, ?_, ?_, ?_, ?_, ?_⟩
  · rw [hcols]
    refine cols_nodup hbase (List.nodup_append'.2 ⟨hdec.contOrder.nodup hfr.names, hdec.catOrder.nodup hfr.names, ?_⟩)
    intro x h1 h2
    exact isFeature_not ((hdec.cont x).1 h1) ((hdec.cat x).1 h2)
  · intro m hm
    rw [hcols, List.flatMap_append, contFit_cols hco]
    exact List.mem_append_left _ (List.mem_map.2 ⟨m, (hdec.cont m).2 hm, rfl⟩)
  · intro m hm
    have hm := (hdec.cat m).2 hm
    rw [hcols, List.flatMap_append]
    by_cases ho : cfg.oneHot
    · rw [if_pos ho]
      intro k hk
      obtain ⟨j, hj, rfl⟩ := List.mem_iff_getElem.1 hm
      have hj' : j < ca.length := hca.length_eq ▸ hj
      have hg := hca.get (i := j) hj hj'
      rw [List.get_eq_getElem, List.get_eq_getElem] at hg
      obtain ⟨cells, hc, ⟨_, e⟩ | ⟨h0, _⟩⟩ := hg
      · refine List.mem_append_right _ (List.mem_flatMap.2 ⟨ca[j], List.getElem_mem hj', ?_⟩)
        rw [e]
        simp only [FitFeature.cols, List.mem_map, List.mem_range]
        exact ⟨k, by rw [levelsOf_eq st.train hc]; exact hk, rfl⟩
      · rw [ho] at h0; cases h0
    · rw [if_neg ho, catFit_cols_ordinal (by simpa using ho) hca]
      exact List.mem_append_right _ (List.mem_map.2 ⟨m, hm, rfl⟩)
  · intro j cn u v h1 h2 h3
    have hj : j < r.columns.length := (List.getElem?_eq_some_iff.1 h1).1
    have hj2 : j < (r.xTrain.zip r.xTest).length := hall.length_eq ▸ hj
    have hg := hall.get (i := j) hj hj2
    rw [List.get_eq_getElem, List.get_eq_getElem, (List.getElem?_eq_some_iff.1 h1).2, List.getElem_zip, (List.getElem?_eq_some_iff.1 h2).2,
      (List.getElem?_eq_some_iff.1 h3).2] at hg
    exact hg
  · rintro ho ⟨m, hm⟩
    have hm := (hdec.cat m).2 hm
    have hc2 : r.columns = (cfg.continuous.getD []).map ColName.plain ++ (cfg.categorical.getD []).map ColName.plain := by
      rw [hcols, List.flatMap_append, contFit_cols hco, catFit_cols_ordinal ho hca]
    have hmask := st.mask
    rw [declared_cont hfr.names hdec, declared_cat hfr.names hdec, ho, if_pos (by simpa using List.length_pos_of_mem hm)] at hmask
    refine ⟨_, hmask, by simp [hc2], ?_⟩
    intro j k hk
    rw [hc2] at hk
    by_cases hj : j < (cfg.continuous.getD []).length
    · rw [List.getElem?_append_left (by simpa using hj), List.getElem?_map, List.getElem?_eq_getElem hj] at hk
      simp only [Option.map_some, Option.some.injEq, ColName.plain.injEq] at hk
      rw [List.getElem?_append_left (by simpa using hj), List.getElem?_replicate, if_pos hj, ← hk]
      simp only [Option.some.injEq, Bool.false_eq_true, false_iff]
      exact isFeature_not ((hdec.cont _).1 (List.getElem_mem hj))
    · rw [List.getElem?_append_right (by simpa using hj), List.getElem?_map, List.length_map] at hk
      rw [List.getElem?_append_right (by simpa using hj), List.length_replicate, List.getElem?_replicate]
      obtain ⟨x, hx1, hx2⟩ := Option.map_eq_some_iff.1 hk
      cases hx2
      have hl := (List.getElem?_eq_some_iff.1 hx1).1
      rw [if_pos hl]
      simp only [true_iff]
      exact (hdec.cat _).1 (List.mem_of_getElem? hx1)
  · rw [st.classes]; exact encodeTargets_ok st.train st.train st.lTrain st.lTrain st.yTrain
  · rw [st.classes]; exact encodeTargets_ok st.train st.test st.lTrain st.lTest st.yTest

end

end Verif
