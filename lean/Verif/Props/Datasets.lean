import Verif.Proofs.DatasetLeak
import Verif.Proofs.DatasetGini

/-! Properties of `Dataset.extract`. -/
namespace Verif
open Spec

/-! ### Data for the examples -/

/-- Cells are numbers; rows 3, 0, 1 are for training and row 2 is for the test. -/
noncomputable def dataLib : DataLib Nat ℝ where
  toFloat c := some c
  sqrt := Real.sqrt
  split n _ := if n = 4 then .ok ([3, 0, 1], [2]) else .error .valueError

theorem dataLib_sqrt : SqrtOK dataLib.sqrt := fun _ hv => ⟨Real.sqrt_pos.2 hv, Real.mul_self_sqrt hv.le⟩

theorem dataLib_parts : PartsOK dataLib := by
  intro n s tr te h
  simp only [dataLib] at h
  split at h
  · rename_i hn
    cases h
    subst hn
    decide
  · cases h

/-- Columns: 0 continuous, 1 label, 2 category. The test row has a category that the training rows do not have. -/
def dataFrame : DFrame Nat Nat := [(0, ⟨false, [10, 20, 30, 40]⟩), (1, ⟨false, [0, 1, 0, 1]⟩), (2, ⟨true, [5, 6, 7, 5]⟩)]

/-- The configuration that fits the frame. -/
def dataCfg (oneHot : Bool) : DatasetCfg Nat := fromDtype false 1 [(0, false), (2, true)] oneHot

theorem dataFrame_ok : FrameOK dataFrame 4 := ⟨by decide, by decide⟩

theorem dataFrame_features (n : Nat) (b : Bool) : IsFeature dataFrame 1 n b ↔ (n = 0 ∧ b = false) ∨ (n = 2 ∧ b = true) := by
  unfold IsFeature
  by_cases h0 : n = 0
  · subst h0; simp [dataFrame, eq_comm]
  · by_cases h2 : n = 2
    · subst h2; simp [dataFrame, List.lookup, eq_comm]
    · have e : ∀ c, dataFrame.lookup n = some c → n = 1 := by
        intro c hc
        have := List.mem_map_of_mem (f := Prod.fst) ((lookup_eq_some dataFrame_ok.names).1 hc)
        simp [dataFrame] at this
        omega
      constructor
      · rintro ⟨h, c, hc, _⟩; exact absurd (e c hc) h
      · rintro (⟨h, _⟩ | ⟨h, _⟩) <;> contradiction

theorem dataCfg_declared (oneHot : Bool) : Declared (dataCfg oneHot) dataFrame := by
  refine ⟨by simp [dataCfg, fromDtype, dataFrame], by simp [dataCfg, fromDtype, dataFrame], fun n => ?_, fun n => ?_⟩
  · show _ ↔ IsFeature dataFrame 1 n false
    rw [dataFrame_features]; simp [dataCfg, fromDtype]
  · show _ ↔ IsFeature dataFrame 1 n true
    rw [dataFrame_features]; simp [dataCfg, fromDtype]

theorem dataCfg_extract (oneHot : Bool) : ∃ r, extract dataLib (dataCfg oneHot) dataFrame 4 = .ok r := by
  cases oneHot <;> exact ⟨_, rfl⟩

/-! ### C72 -/

/-- C72 (partial): `X_train`, `X_test`, `y_train`, `y_test`, `columns_` and `categorical_features_` describe the same rows and columns of the frame, if the
declared continuous and categorical columns are those of the frame in its order and `drop` is None. Missing: other orders, dtypes that differ from the
declaration, and `drop="first"` (violations below). -/
theorem C72_extract_partial {N C : Type} [DecidableEq N] [LinearOrder C] {lib : DataLib C ℝ} {cfg : DatasetCfg N} {df : DFrame N C} {n : Nat}
    {r : Extracted N C ℝ} (hfr : FrameOK df n) (hs : SqrtOK lib.sqrt) (hsp : PartsOK lib) (hdec : Declared cfg df) (hdrop : cfg.drop = .none)
    (h : extract lib cfg df n = .ok r) :
    ∃ tr te, PartsOf lib cfg df n tr te ∧ (tr ++ te).Perm (List.range n) ∧ ExtractOK lib.toFloat cfg df tr te r := by
  obtain ⟨c, tr, te, h1, h2, h3⟩ := extract_spec hfr hs hsp hdec hdrop h
  exact ⟨tr, te, ⟨c, h1, h2⟩, (hsp _ _ _ _ h2).1, h3⟩

example (oneHot : Bool) : ∃ r, FrameOK dataFrame 4 ∧ SqrtOK dataLib.sqrt ∧ PartsOK dataLib ∧ Declared (dataCfg oneHot) dataFrame ∧
    (dataCfg oneHot).drop = .none ∧ extract dataLib (dataCfg oneHot) dataFrame 4 = .ok r :=
  have ⟨r, hr⟩ := dataCfg_extract oneHot
  ⟨r, dataFrame_ok, dataLib_sqrt, dataLib_parts, dataCfg_declared oneHot, rfl, hr⟩

/-- The result contradicts C72. -/
def C72Fails (cfg : DatasetCfg Nat) (df : DFrame Nat Nat) : Prop :=
  FrameOK df 4 ∧ ∃ r, extract dataLib cfg df 4 = .ok r ∧ ∀ tr te, PartsOf dataLib cfg df 4 tr te → ¬ ExtractOK dataLib.toFloat cfg df tr te r

/-- As in `load_boston` (/repo/wildwood/datasets/loaders.py:39-76): columns `crim`, `zn`, `chas` and the label `medv`, none of dtype `category`; declared are
the continuous columns `zn`, `crim` and the categorical column `chas`. -/
def bostonFrame : DFrame Nat Nat := [(0, ⟨false, [1, 2, 3, 4]⟩), (1, ⟨false, [18, 0, 7, 9]⟩), (2, ⟨false, [0, 1, 0, 1]⟩), (3, ⟨false, [24, 21, 34, 33]⟩)]

def bostonCfg : DatasetCfg Nat where
  regression := true
  label := 3
  continuous := some [1, 0]
  categorical := some [2]
  standardize := true
  oneHot := true
  drop := .none
  asFrame := false

/-- C72 is violated by the data set of `load_boston`: there are fewer names in `columns_` than columns. -/
theorem C72_boston_violates : C72Fails bostonCfg bostonFrame := by
  refine ⟨⟨by decide, by decide⟩, _, rfl, fun tr te _ h => ?_⟩
  exact absurd h.width.1 (by decide)

/-- C72 is violated by `drop="first"`: there are more names than columns. -/
theorem C72_drop_violates : C72Fails { dataCfg true with drop := .first } dataFrame := by
  refine ⟨dataFrame_ok, _, rfl, fun tr te _ h => ?_⟩
  exact absurd h.width.1 (by decide)

/-- As in `load_hcv` (loaders.py:403-424), where `Age` is the first column of the file but the last item of `dtype` that is not a category. -/
def hcvFrame : DFrame Nat Nat := [(0, ⟨false, [10, 20, 30, 40]⟩), (1, ⟨false, [8, 6, 4, 2]⟩), (2, ⟨false, [0, 1, 0, 1]⟩)]

def hcvCfg : DatasetCfg Nat := fromDtype false 2 [(1, false), (0, false)] true

/-- C72 is violated by `from_dtype` when the order of `dtype` is not that of the file: the number of names is right, but the column named `Age` holds another
feature. -/
theorem C72_order_violates : C72Fails hcvCfg hcvFrame := by
  refine ⟨⟨by decide, by decide⟩, _, rfl, ?_⟩
  rintro tr te ⟨c, hc, hp⟩ h
  have hp : (Except.ok ([3, 0, 1], [2]) : M (List Nat × List Nat)) = .ok (tr, te) := hp
  cases hp
  have hf := h.columns 0 (.plain 0) _ _ rfl rfl rfl
  have hlt : (0 : ℝ) < (scalerFit Real.sqrt [((2 : Nat) : ℝ), ((8 : Nat) : ℝ), ((6 : Nat) : ℝ)]).2 := (scalerFit_spec dataLib_sqrt (by simp)).1
  rcases hf with ⟨_, _, ⟨a, b, ha, hh, _⟩, _⟩ | ⟨_, hs, _⟩ | ⟨_, ho, _⟩
  · obtain ⟨c0, v0, e1, e2, x0, e3, e4⟩ := hh.2 0 3 rfl
    obtain ⟨c1, v1, f1, f2, x1, f3, f4⟩ := hh.2 1 0 rfl
    cases e1; cases f1; cases e2; cases f2; cases e3; cases f3
    have hd : (((2 : Nat) : ℝ) - (scalerFit Real.sqrt [((2 : Nat) : ℝ), ((8 : Nat) : ℝ), ((6 : Nat) : ℝ)]).1) / (scalerFit Real.sqrt [((2 : Nat) : ℝ), ((8 : Nat) : ℝ), ((6 : Nat) : ℝ)]).2
        < (((8 : Nat) : ℝ) - (scalerFit Real.sqrt [((2 : Nat) : ℝ), ((8 : Nat) : ℝ), ((6 : Nat) : ℝ)]).1) / (scalerFit Real.sqrt [((2 : Nat) : ℝ), ((8 : Nat) : ℝ), ((6 : Nat) : ℝ)]).2 :=
      div_lt_div_of_pos_right (by push_cast; linarith) hlt
    have hd := lt_of_eq_of_lt e4.symm (lt_of_lt_of_eq hd f4)
    push_cast at hd
    nlinarith
  · cases hs
  · cases ho

/-! ### C73 -/

/-- C73: `X_train`, `y_train`, `columns_`, `categorical_features_` and `classes_` depend only on the training rows, and a row of the test set only on these and
on the row itself: no statistics of the test rows leak into the encoding. -/
theorem C73_no_test_leakage {N C : Type} [DecidableEq N] [LinearOrder C] {lib lib' : DataLib C ℝ} {cfg : DatasetCfg N} {df df' : DFrame N C} {n n' : Nat}
    {r r' : Extracted N C ℝ} {tr te te' : List Nat} (hl : SameConversions lib lib') (hfr : FrameOK df n) (hc : SameColumns df df')
    (hp : PartsOf lib cfg df n tr te) (hp' : PartsOf lib' cfg df' n' tr te') (ha : ∀ m, ∀ row ∈ tr, cellOf df' m row = cellOf df m row)
    (h : extract lib cfg df n = .ok r) (h' : extract lib' cfg df' n' = .ok r') :
    SameTraining r r' ∧
    ∀ (i i' row row' : Nat), te[i]? = some row → te'[i']? = some row' → (∀ m, cellOf df' m row' = cellOf df m row) → SameTestRow r r' i i' :=
  extract_train_only hl hfr.names hc hp hp' ha h h'

/-- The frame of the example with another test row. -/
def dataFrame' : DFrame Nat Nat := [(0, ⟨false, [10, 20, 99, 40]⟩), (1, ⟨false, [0, 1, 1, 1]⟩), (2, ⟨true, [5, 6, 8, 5]⟩)]

example (oneHot : Bool) : ∃ r r', SameConversions dataLib dataLib ∧ FrameOK dataFrame 4 ∧ SameColumns dataFrame dataFrame' ∧
    PartsOf dataLib (dataCfg oneHot) dataFrame 4 [3, 0, 1] [2] ∧ PartsOf dataLib (dataCfg oneHot) dataFrame' 4 [3, 0, 1] [2] ∧
    (∀ m, ∀ row ∈ [3, 0, 1], cellOf dataFrame' m row = cellOf dataFrame m row) ∧
    extract dataLib (dataCfg oneHot) dataFrame 4 = .ok r ∧ extract dataLib (dataCfg oneHot) dataFrame' 4 = .ok r' := by
  obtain ⟨r, hr⟩ := dataCfg_extract oneHot
  have hr' : ∃ r', extract dataLib (dataCfg oneHot) dataFrame' 4 = .ok r' := by cases oneHot <;> exact ⟨_, rfl⟩
  obtain ⟨r', hr'⟩ := hr'
  refine ⟨r, r', ⟨rfl, rfl⟩, dataFrame_ok, rfl, ⟨_, rfl, rfl⟩, ⟨_, rfl, rfl⟩, ?_, hr, hr'⟩
  intro m row hrow
  unfold cellOf dataFrame' dataFrame
  simp only [List.lookup]
  split
  · simp only [List.mem_cons, List.not_mem_nil, or_false] at hrow; rcases hrow with rfl | rfl | rfl <;> rfl
  · split
    · simp only [List.mem_cons, List.not_mem_nil, or_false] at hrow; rcases hrow with rfl | rfl | rfl <;> rfl
    · split
      · simp only [List.mem_cons, List.not_mem_nil, or_false] at hrow; rcases hrow with rfl | rfl | rfl <;> rfl
      · rfl

/-! ### C74 -/

/-- C74 (partial): the features do not depend on the labels, if the label is not declared as a feature. Missing: declarations with the label, e.g. `from_dtype`
with a `dtype` that has the label (`C74_label_violates`). -/
theorem C74_no_label_leakage_partial {N C : Type} [DecidableEq N] [LinearOrder C] {lib lib' : DataLib C ℝ} {cfg : DatasetCfg N} {df df' : DFrame N C}
    {n n' : Nat} {r r' : Extracted N C ℝ} {tr te : List Nat} (hl : SameConversions lib lib') (hc : SameColumns df df') (hp : PartsOf lib cfg df n tr te)
    (hp' : PartsOf lib' cfg df' n' tr te) (ha : ∀ m, m ≠ cfg.label → (df.lookup m).map DCol.cells = (df'.lookup m).map DCol.cells)
    (h1 : cfg.label ∉ cfg.continuous.getD []) (h2 : cfg.label ∉ cfg.categorical.getD [])
    (h : extract lib cfg df n = .ok r) (h' : extract lib' cfg df' n' = .ok r') :
    r'.xTrain = r.xTrain ∧ r'.xTest = r.xTest ∧ r'.columns = r.columns ∧ r'.mask = r.mask :=
  extract_label hl hc hp hp' ha h1 h2 h h'

/-- The frame of the example with other labels. -/
def dataFrameY : DFrame Nat Nat := [(0, ⟨false, [10, 20, 30, 40]⟩), (1, ⟨false, [1, 0, 1, 0]⟩), (2, ⟨true, [5, 6, 7, 5]⟩)]

theorem dataFrameY_agree (m : Nat) (hm : m ≠ 1) : (dataFrame.lookup m).map DCol.cells = (dataFrameY.lookup m).map DCol.cells := by
  have h1 : (m == 1) = false := beq_eq_false_iff_ne.2 hm
  unfold dataFrame dataFrameY
  simp only [List.lookup, h1]

example (oneHot : Bool) : ∃ r r', SameConversions dataLib dataLib ∧ SameColumns dataFrame dataFrameY ∧
    PartsOf dataLib (dataCfg oneHot) dataFrame 4 [3, 0, 1] [2] ∧ PartsOf dataLib (dataCfg oneHot) dataFrameY 4 [3, 0, 1] [2] ∧
    (∀ m, m ≠ (dataCfg oneHot).label → (dataFrame.lookup m).map DCol.cells = (dataFrameY.lookup m).map DCol.cells) ∧
    (dataCfg oneHot).label ∉ (dataCfg oneHot).continuous.getD [] ∧ (dataCfg oneHot).label ∉ (dataCfg oneHot).categorical.getD [] ∧
    extract dataLib (dataCfg oneHot) dataFrame 4 = .ok r ∧ extract dataLib (dataCfg oneHot) dataFrameY 4 = .ok r' := by
  obtain ⟨r, hr⟩ := dataCfg_extract oneHot
  have hr' : ∃ r', extract dataLib (dataCfg oneHot) dataFrameY 4 = .ok r' := by cases oneHot <;> exact ⟨_, rfl⟩
  obtain ⟨r', hr'⟩ := hr'
  exact ⟨r, r', ⟨rfl, rfl⟩, rfl, ⟨_, rfl, rfl⟩, ⟨_, rfl, rfl⟩, dataFrameY_agree, by simp [dataCfg, fromDtype], by simp [dataCfg, fromDtype], hr, hr'⟩

/-- C74 is violated: if `dtype` has an item for the label, as it can since `load_from_csv` takes the same dictionary, then the label is a feature. -/
theorem C74_label_violates : ∃ r r', extract dataLib (fromDtype true 1 [(0, false), (1, false), (2, true)] true) dataFrame 4 = .ok r ∧
    extract dataLib (fromDtype true 1 [(0, false), (1, false), (2, true)] true) dataFrameY 4 = .ok r' ∧ r'.xTrain ≠ r.xTrain := by
  refine ⟨_, _, rfl, rfl, fun h => ?_⟩
  have hp : (0 : ℝ) < (scalerFit Real.sqrt [((1 : Nat) : ℝ), ((0 : Nat) : ℝ), ((1 : Nat) : ℝ)]).2 := (scalerFit_spec dataLib_sqrt (by simp)).1
  have hq : (0 : ℝ) < (scalerFit Real.sqrt [((0 : Nat) : ℝ), ((1 : Nat) : ℝ), ((0 : Nat) : ℝ)]).2 := (scalerFit_spec dataLib_sqrt (by simp)).1
  have h := congrArg (fun l : List (List ℝ) => l[1]?) h
  have h : some [(((0 : Nat) : ℝ) - (scalerFit Real.sqrt [((0 : Nat) : ℝ), ((1 : Nat) : ℝ), ((0 : Nat) : ℝ)]).1) / (scalerFit Real.sqrt [((0 : Nat) : ℝ), ((1 : Nat) : ℝ), ((0 : Nat) : ℝ)]).2,
      (((1 : Nat) : ℝ) - (scalerFit Real.sqrt [((0 : Nat) : ℝ), ((1 : Nat) : ℝ), ((0 : Nat) : ℝ)]).1) / (scalerFit Real.sqrt [((0 : Nat) : ℝ), ((1 : Nat) : ℝ), ((0 : Nat) : ℝ)]).2,
      (((0 : Nat) : ℝ) - (scalerFit Real.sqrt [((0 : Nat) : ℝ), ((1 : Nat) : ℝ), ((0 : Nat) : ℝ)]).1) / (scalerFit Real.sqrt [((0 : Nat) : ℝ), ((1 : Nat) : ℝ), ((0 : Nat) : ℝ)]).2] =
    some [(((1 : Nat) : ℝ) - (scalerFit Real.sqrt [((1 : Nat) : ℝ), ((0 : Nat) : ℝ), ((1 : Nat) : ℝ)]).1) / (scalerFit Real.sqrt [((1 : Nat) : ℝ), ((0 : Nat) : ℝ), ((1 : Nat) : ℝ)]).2,
      (((0 : Nat) : ℝ) - (scalerFit Real.sqrt [((1 : Nat) : ℝ), ((0 : Nat) : ℝ), ((1 : Nat) : ℝ)]).1) / (scalerFit Real.sqrt [((1 : Nat) : ℝ), ((0 : Nat) : ℝ), ((1 : Nat) : ℝ)]).2,
      (((1 : Nat) : ℝ) - (scalerFit Real.sqrt [((1 : Nat) : ℝ), ((0 : Nat) : ℝ), ((1 : Nat) : ℝ)]).1) / (scalerFit Real.sqrt [((1 : Nat) : ℝ), ((0 : Nat) : ℝ), ((1 : Nat) : ℝ)]).2] := h
  simp only [Option.some.injEq, List.cons.injEq] at h
  obtain ⟨e1, e2, _⟩ := h
  revert e1 e2
  generalize scalerFit Real.sqrt [((1 : Nat) : ℝ), ((0 : Nat) : ℝ), ((1 : Nat) : ℝ)] = p at *
  generalize scalerFit Real.sqrt [((0 : Nat) : ℝ), ((1 : Nat) : ℝ), ((0 : Nat) : ℝ)] = q at *
  intro e1 e2
  have l1 : (((0 : Nat) : ℝ) - q.1) / q.2 < (((1 : Nat) : ℝ) - q.1) / q.2 := div_lt_div_of_pos_right (by push_cast; linarith) hq
  have l2 : (((0 : Nat) : ℝ) - p.1) / p.2 < (((1 : Nat) : ℝ) - p.1) / p.2 := div_lt_div_of_pos_right (by push_cast; linarith) hp
  linarith

/-! ### C75 -/

/-- C75 (partial): with two classes or more, `scaled_gini_` is greater than 0 and at most 1, and it is 1 iff all classes have the same number of rows. Missing:
one class (`C75_one_class_violates`). -/
theorem C75_scaled_gini_partial {N C : Type} [DecidableEq N] [LinearOrder C] {lib : DataLib C ℝ} {cfg : DatasetCfg N} {df : DFrame N C} {n : Nat}
    {r : Extracted N C ℝ} {y : DCol C} (hreg : cfg.regression = false) (hy : df.lookup cfg.label = some y) {a b : C} (ha : a ∈ y.cells) (hb : b ∈ y.cells)
    (hab : a ≠ b) (h : extract lib cfg df n = .ok r) :
    ∃ g, r.scaledGini = some g ∧ 0 < g ∧ g ≤ 1 ∧ (g = 1 ↔ ∀ c ∈ y.cells, ∀ d ∈ y.cells, y.cells.count c = y.cells.count d) := by
  obtain ⟨c, tr, te, d, dt, fs, lt, le, st⟩ := extract_inv h
  have hl := st.label
  rw [hy] at hl
  cases hl
  rw [st.scaledGini, hreg]
  obtain ⟨h1, h2⟩ := labelProbs_spec (K := ℝ) ha hb hab
  obtain ⟨g, e, g0, g1, gi⟩ := scaledGini_spec h1 h2
  exact ⟨g, e, g0, g1, gi.trans (labelProbs_uniform ha hb hab)⟩

example : ∃ r y, (dataCfg true).regression = false ∧ dataFrame.lookup (dataCfg true).label = some y ∧ 0 ∈ y.cells ∧ 1 ∈ y.cells ∧
    extract dataLib (dataCfg true) dataFrame 4 = .ok r := by
  obtain ⟨r, hr⟩ := dataCfg_extract true
  exact ⟨r, _, rfl, rfl, by decide, by decide, hr⟩

/-- C75 is violated: with one class the index is not a number. -/
theorem C75_one_class_violates {N C : Type} [DecidableEq N] [LinearOrder C] {lib : DataLib C ℝ} {cfg : DatasetCfg N} {df : DFrame N C} {n : Nat}
    {r : Extracted N C ℝ} {y : DCol C} (hreg : cfg.regression = false) (hy : df.lookup cfg.label = some y) {a : C} (hne : y.cells ≠ []) (ha : ∀ b ∈ y.cells, b = a)
    (h : extract lib cfg df n = .ok r) : r.scaledGini = none := by
  obtain ⟨c, tr, te, d, dt, fs, lt, le, st⟩ := extract_inv h
  have hl := st.label
  rw [hy] at hl
  cases hl
  rw [st.scaledGini, hreg]
  exact scaledGini_single hne ha

example : ∃ r y, (dataCfg true).regression = false ∧ DFrame.labels [(0, ⟨false, [10, 20, 30, 40]⟩), (1, y), (2, ⟨true, [5, 6, 7, 5]⟩)] (dataCfg true).label = .ok y.cells ∧
    y.cells ≠ [] ∧ (∀ b ∈ y.cells, b = 1) ∧
    extract dataLib (dataCfg true) [(0, ⟨false, [10, 20, 30, 40]⟩), (1, y), (2, ⟨true, [5, 6, 7, 5]⟩)] 4 = .ok r :=
  ⟨_, ⟨false, [1, 1, 1, 1]⟩, rfl, rfl, by decide, by decide, rfl⟩

end Verif
