import Verif.Spec.RawData

/-! # C129: the argument `raw` of the dataset loaders -/
namespace Verif

open Spec

section
variable {N C : Type} [DecidableEq N]

theorem lookup_filter {df : DFrame N C} (q : N → Bool) (n : N) : (df.filter fun p => q p.1).lookup n = if q n then df.lookup n else none := by
  induction df with
  | nil => simp
  | cons p l ih =>
    obtain ⟨m, c⟩ := p
    by_cases hm : n = m
    · subst hm
      by_cases hq : q n = true
      · simp [hq]
      · rw [List.filter_cons_of_neg (by simpa using hq), ih]
        simp [hq]
    · have hb : (n == m) = false := beq_eq_false_iff_ne.2 hm
      by_cases hq : q m = true
      · rw [List.filter_cons_of_pos (by simpa using hq), List.lookup_cons, hb, ih, List.lookup_cons, hb]
      · rw [List.filter_cons_of_neg (by simpa using hq), ih, List.lookup_cons, hb]

theorem lookup_without (df : DFrame N C) (names : List N) (n : N) : (df.without names).lookup n = if n ∈ names then none else df.lookup n := by
  unfold DFrame.without
  rw [lookup_filter (fun m => decide (m ∉ names))]
  by_cases h : n ∈ names <;> simp [h]

/-- What `get_X_y_from_dataframe` returns, and when. -/
theorem getXy_spec (label : N) (dropped : List N) (df : DFrame N C) : (getXy label dropped df).1 = do
    let d ← loadFromCsv dropped df
    let y ← d.labels label
    return (d.without [label], y) := by
  unfold getXy loadFromCsv
  rcases df.drop dropped with ⟨e | u, d⟩
  · rfl
  · cases hl : d.lookup label with
    | none => simp [DFrame.labels, hl, bind, Except.bind]
    | some c => simp [DFrame.labels, hl, DFrame.drop, bind, Except.bind, pure, Except.pure]

theorem loadFromCsv_spec {dropped : List N} {df d : DFrame N C} (h : loadFromCsv dropped df = .ok d) : d = df.without dropped ∧ ∀ n ∈ dropped, (df.lookup n).isSome := by
  unfold loadFromCsv DFrame.drop at h
  split_ifs at h with hd
  · cases h
    exact ⟨rfl, by simpa using hd⟩

end

section
variable {C : Type}

theorem sameRaw_same (label : PName) (drop : List PName) : SameRaw (C := C) (.same label drop) := by
  intro df
  have key : (RawLoader.same label drop).raw df = (getXy label drop df).1 := by
    unfold RawLoader.raw RawLoader.same
    dsimp only
    cases (getXy label drop df).1 <;> rfl
  rw [key, getXy_spec]
  unfold RawLoader.dataset RawLoader.same
  dsimp only
  cases hl : loadFromCsv drop df with
  | error e => exact ⟨fun e' h => .inl (by cases h; rfl), fun X y h => by cases h⟩
  | ok d =>
    obtain ⟨hd, -⟩ := loadFromCsv_spec hl
    cases hc : d.lookup label with
    | none =>
      refine ⟨fun e _ => .inr ⟨d, rfl, hc⟩, fun X y h => ?_⟩
      · simp [DFrame.labels, hc, bind, Except.bind] at h
    | some c =>
      have hr : (do let d ← (Except.ok d : M (DFrame PName C)); let y ← d.labels label; return (d.without [label], y) : M (DFrame PName C × List C)) = .ok (d.without [label], c.cells) := by
        simp [DFrame.labels, hc, bind, Except.bind, pure, Except.pure]
      rw [hr]
      refine ⟨fun e h => (by cases h), fun X y h => ?_⟩
      cases h
      have hX : d.without [label] = d.filter fun p => decide (p.1 ≠ label) := by
        unfold DFrame.without
        simp
      refine ⟨d, rfl, hd, ⟨c, hc, rfl⟩, hX, fun n row => ?_, fun b => ?_⟩
      · unfold cellOf
        rw [lookup_without, hd, lookup_without]
        by_cases h1 : n = label <;> by_cases h2 : n ∈ drop <;> simp [h1, h2]
      · unfold featureNames
        rw [hX, List.filter_filter]
        congr 2
        funext p
        rw [Bool.and_comm]

/-- C129 in part: for all loaders in the table except `load_boston`. -/
theorem C129_same_partial (l : String × RawLoader) (hl : l ∈ rawLoaders) (hb : l.1 ≠ "boston") : SameRaw (C := C) l.2 := by
  unfold rawLoaders at hl
  simp only [List.mem_cons, List.not_mem_nil, or_false] at hl
  rcases hl with rfl | rfl | rfl | rfl | rfl | rfl | rfl | rfl | rfl | rfl | rfl | rfl | rfl | rfl | rfl | rfl | rfl | rfl | rfl | rfl | rfl
  all_goals first
    | exact absurd rfl hb
    | exact sameRaw_same _ _

theorem without_nil {N C : Type} [DecidableEq N] (df : DFrame N C) : df.without [] = df := by
  unfold DFrame.without
  simp

theorem assoc_lookup_mem {N C : Type} [DecidableEq N] {df : List (N × C)} {n : N} {c : C} (h : df.lookup n = some c) : (n, c) ∈ df := by
  induction df with
  | nil => cases h
  | cons p l ih =>
    obtain ⟨m, d⟩ := p
    rw [List.lookup_cons] at h
    by_cases hm : n = m
    · subst hm
      simp at h
      simp [h]
    · rw [beq_eq_false_iff_ne.2 hm] at h
      exact List.mem_cons_of_mem _ (ih h)

theorem assoc_lookup_of_mem {N C : Type} [DecidableEq N] {df : List (N × C)} (hn : (df.map Prod.fst).Nodup) {n : N} {c : C} (h : (n, c) ∈ df) : df.lookup n = some c := by
  induction df with
  | nil => cases h
  | cons p l ih =>
    obtain ⟨m, d⟩ := p
    rw [List.map_cons, List.nodup_cons] at hn
    rw [List.lookup_cons]
    rcases List.mem_cons.1 h with h | h
    · cases h
      simp
    · have hm : n ≠ m := fun e => hn.1 (List.mem_map.2 ⟨(n, c), h, e⟩)
      rw [beq_eq_false_iff_ne.2 hm]
      exact ih hn.2 h

theorem lookup_map_category (df : DFrame PName C) (n : PName) :
    (df.map fun p => if p.1 = n then (p.1, { p.2 with category := true }) else p).lookup n = (df.lookup n).map fun c => { c with category := true } := by
  induction df with
  | nil => rfl
  | cons p l ih =>
    obtain ⟨m, d⟩ := p
    by_cases hm : m = n
    · subst hm
      simp
    · have hb : (n == m) = false := beq_eq_false_iff_ne.2 (Ne.symm hm)
      rw [List.map_cons, if_neg hm, List.lookup_cons, hb, ih, List.lookup_cons, hb]

/-- The change of dtype keeps names and cells. -/
theorem cellOf_map_category (df : DFrame PName C) (m n : PName) (row : Nat) :
    cellOf (df.map fun p => if p.1 = m then (p.1, { p.2 with category := true }) else p) n row = cellOf df n row := by
  unfold cellOf
  induction df with
  | nil => rfl
  | cons p l ih =>
    obtain ⟨k, d⟩ := p
    by_cases hn : n = k
    · subst hn
      by_cases hm : n = m <;> simp [hm]
    · have hb : (n == k) = false := beq_eq_false_iff_ne.2 hn
      by_cases hm : k = m
      · rw [List.map_cons, if_pos hm, List.lookup_cons, List.lookup_cons, hb]
        exact ih
      · rw [List.map_cons, if_neg hm, List.lookup_cons, List.lookup_cons, hb]
        exact ih

/-- C129 in part for `load_boston`: labels, names and order of the features and all cells are those of the `Dataset`; only the dtype of "chas" is missing. -/
theorem C129_boston_partial (l : RawLoader) (hl : ("boston", l) ∈ rawLoaders) (df X : DFrame PName C) (y : List C) (h : l.raw df = .ok (X, y)) :
    l.dataset df = .ok (.str "medv", df) ∧ (∃ c, df.lookup (.str "medv") = some c ∧ c.cells = y) ∧ X.map Prod.fst = (df.map Prod.fst).filter (fun n => decide (n ≠ .str "medv")) ∧
      (∀ n row, cellOf X n row = if n = .str "medv" then none else cellOf df n row) ∧
      ∀ p ∈ X, p.1 ≠ .str "chas" → p ∈ df := by
  have hl' : l = ⟨.str "medv", [], [.str "chas"], .str "medv", []⟩ := by
    unfold rawLoaders at hl
    simpa [RawLoader.same] using hl
  subst hl'
  have hload : loadFromCsv [] df = .ok df := by
    simp [loadFromCsv, DFrame.drop, without_nil]
  unfold RawLoader.raw at h
  dsimp only at h
  rw [getXy_spec, hload] at h
  cases hy : df.lookup (.str "medv") with
  | none => simp [DFrame.labels, hy, bind, Except.bind] at h
  | some c =>
    simp only [DFrame.labels, hy, bind, Except.bind, pure, Except.pure, List.foldlM_cons, List.foldlM_nil, DFrame.astypeCategory] at h
    split_ifs at h with hs
    · simp only [Except.ok.injEq, Prod.mk.injEq] at h
      obtain ⟨rfl, rfl⟩ := h
      refine ⟨by simp [RawLoader.dataset, hload, bind, Except.bind, pure, Except.pure], ⟨c, rfl, rfl⟩, ?_, fun n row => ?_, fun p hp hne => ?_⟩
      · rw [List.map_map, List.filter_map]
        unfold DFrame.without
        have : (Prod.fst ∘ fun p : PName × DCol C => if p.1 = PName.str "chas" then (p.1, { p.2 with category := true }) else p) = Prod.fst := by
          funext p
          by_cases hp : p.1 = PName.str "chas" <;> simp [hp]
        rw [this]
        congr 2
        funext p
        simp
      · rw [cellOf_map_category]
        unfold cellOf
        rw [lookup_without]
        by_cases hn : n = PName.str "medv" <;> simp [hn]
      · obtain ⟨q, hq, rfl⟩ := List.mem_map.1 hp
        by_cases hc : q.1 = PName.str "chas"
        · exact absurd (by simp [hc]) hne
        · rw [if_neg hc]
          exact List.mem_of_mem_filter hq

/-- C129 fails for `load_boston`: with `raw=True` the column "chas" is categorical, but the `Dataset` of the same file has it among the features that are not categorical. -/
theorem C129_boston_violated (l : RawLoader) (hl : ("boston", l) ∈ rawLoaders) (df : DFrame PName C) (c y : DCol C) (hc : df.lookup (.str "chas") = some c) (hn : c.category = false)
    (hnod : (df.map Prod.fst).Nodup) (hy : df.lookup (.str "medv") = some y) :
    ∃ X d, l.raw df = .ok (X, y.cells) ∧ l.dataset df = .ok (.str "medv", d) ∧ (X.lookup (.str "chas")).map DCol.category = some true ∧ PName.str "chas" ∈ featureNames d (.str "medv") false ∧
      PName.str "chas" ∉ featureNames d (.str "medv") true := by
  have hl' : l = ⟨.str "medv", [], [.str "chas"], .str "medv", []⟩ := by
    unfold rawLoaders at hl
    simpa [RawLoader.same] using hl
  subst hl'
  have hload : loadFromCsv [] df = .ok df := by
    simp [loadFromCsv, DFrame.drop, without_nil]
  have hxy : (getXy (.str "medv") [] df).1 = .ok (df.without [.str "medv"], y.cells) := by
    rw [getXy_spec, hload]
    simp [DFrame.labels, hy, bind, Except.bind, pure, Except.pure]
  have hw : (df.without [.str "medv"]).lookup (.str "chas") = some c := by
    rw [lookup_without, if_neg (by simp), hc]
  refine ⟨(df.without [.str "medv"]).map fun p => if p.1 = .str "chas" then (p.1, { p.2 with category := true }) else p, df, ?_, ?_, ?_, ?_, ?_⟩
  · unfold RawLoader.raw
    simp [hxy, DFrame.astypeCategory, hw, bind, Except.bind, pure, Except.pure]
  · simp [RawLoader.dataset, hload, bind, Except.bind, pure, Except.pure]
  · rw [lookup_map_category, hw]
    rfl
  · unfold featureNames
    exact List.mem_map.2 ⟨(.str "chas", c), List.mem_filter.2 ⟨assoc_lookup_mem hc, by simp [hn]⟩, rfl⟩
  · unfold featureNames
    intro h
    obtain ⟨⟨m, c'⟩, hm, he⟩ := List.mem_map.1 h
    obtain ⟨hm, hc'⟩ := List.mem_filter.1 hm
    dsimp only at he
    subst he
    have := assoc_lookup_of_mem hnod hm
    rw [hc] at this
    cases this
    simp [hn] at hc'

end

/-- `get_X_y_from_dataframe` changes the frame of the caller: it is the returned `X` afterwards, and the same call on it raises KeyError. -/
theorem C129_caller {N C : Type} [DecidableEq N] (label : N) (dropped : List N) (df X : DFrame N C) (y : List C) (h : (getXy label dropped df).1 = .ok (X, y)) :
    (getXy label dropped df).2 = X ∧ (getXy label dropped X).1 = .error .keyError := by
  have hX : X.lookup label = none := by
    rw [getXy_spec] at h
    cases hl : loadFromCsv dropped df with
    | error e => rw [hl] at h; cases h
    | ok d =>
      rw [hl] at h
      cases hd : d.labels label with
      | error e => simp [hd, bind, Except.bind] at h
      | ok y' =>
        simp only [hd, bind, Except.bind, pure, Except.pure, Except.ok.injEq, Prod.mk.injEq] at h
        rw [← h.1, lookup_without]
        simp
  constructor
  · unfold getXy at h ⊢
    repeat' split at h
    all_goals first
      | (cases h; rfl)
      | simp_all
  · rw [getXy_spec]
    unfold loadFromCsv DFrame.drop
    split_ifs with hd
    · have : (X.without dropped).lookup label = none := by
        rw [lookup_without, hX]
        simp
      simp [DFrame.labels, this, bind, Except.bind]
    · rfl

/-- A frame with a label, a categorical and a numerical feature and a column that is dropped. -/
def rawFrame : DFrame PName Nat := [(.str "Phone", ⟨false, [7, 8]⟩), (.str "State", ⟨true, [1, 2]⟩), (.str "Churn?", ⟨false, [0, 1]⟩), (.str "Day Mins", ⟨false, [5, 6]⟩)]

example : (RawLoader.same (.str "Churn?") [.str "Phone"]).raw rawFrame = .ok ([(.str "State", ⟨true, [1, 2]⟩), (.str "Day Mins", ⟨false, [5, 6]⟩)], [0, 1]) := by rfl

example : ("churn", RawLoader.same (.str "Churn?") [.str "Phone"]) ∈ rawLoaders ∧ "churn" ≠ "boston" := by simp [rawLoaders]

example : (getXy (.str "Churn?") [.str "Phone"] rawFrame).1 = .ok ([(.str "State", ⟨true, [1, 2]⟩), (.str "Day Mins", ⟨false, [5, 6]⟩)], [0, 1]) := by rfl

/-- A frame that meets the hypotheses of `C129_boston_violated`. -/
def rawBostonFrame : DFrame PName Nat := [(.str "crim", ⟨false, [3, 4]⟩), (.str "chas", ⟨false, [0, 1]⟩), (.str "medv", ⟨false, [24, 21]⟩)]

example : ("boston", (⟨.str "medv", [], [.str "chas"], .str "medv", []⟩ : RawLoader)) ∈ rawLoaders ∧ rawBostonFrame.lookup (.str "chas") = some ⟨false, [0, 1]⟩ ∧ (rawBostonFrame.map Prod.fst).Nodup ∧
    rawBostonFrame.lookup (.str "medv") = some ⟨false, [24, 21]⟩ := ⟨by simp [rawLoaders], rfl, by simp [rawBostonFrame], rfl⟩

example : (⟨.str "medv", [], [.str "chas"], .str "medv", []⟩ : RawLoader).raw rawBostonFrame = .ok ([(.str "crim", ⟨false, [3, 4]⟩), (.str "chas", ⟨true, [0, 1]⟩)], [24, 21]) := by rfl

end Verif
