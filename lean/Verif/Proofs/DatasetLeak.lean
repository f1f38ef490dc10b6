import Verif.Proofs.Datasets

/-! What the result of `extract` depends on. -/
namespace Verif
open Spec

section
variable {N C K : Type} [DecidableEq N] [LinearOrder C] [Field K] [LinearOrder K]

omit [LinearOrder C] in
theorem lookup_of_mem {df : DFrame N C} (hn : (df.map Prod.fst).Nodup) {p : N × DCol C} (h : p ∈ df) (row : Nat) : cellOf df p.1 row = p.2.cells[row]? := by
  unfold cellOf
  rw [(lookup_eq_some hn).2 h]
  rfl

omit [LinearOrder C] [DecidableEq N] in
theorem _root_.Verif.Spec.SameColumns.names {df df' : DFrame N C} (h : SameColumns df df') : df'.map Prod.fst = df.map Prod.fst := by
  have := congrArg (List.map Prod.fst) h
  simpa [List.map_map, Function.comp_def] using this

omit [LinearOrder C] in
/-- Frames that agree on some rows have the same part. -/
theorem rows_congr {df df' : DFrame N C} {rows : List Nat} (hn : (df.map Prod.fst).Nodup) (hc : SameColumns df df')
    (ha : ∀ n, ∀ row ∈ rows, cellOf df' n row = cellOf df n row) : df'.rows rows = df.rows rows := by
  have hn' : (df'.map Prod.fst).Nodup := by rw [hc.names]; exact hn
  have key : ∀ (l l' : DFrame N C), l ⊆ df → l' ⊆ df' → SameColumns l l' → l'.rows rows = l.rows rows := by
    intro l
    induction l with
    | nil =>
      intro l' _ _ h
      have : l' = [] := by simpa [SameColumns] using h
      rw [this]
    | cons p l ih =>
      intro l' h1 h2 h
      cases l' with
      | nil => simp [SameColumns] at h
      | cons q l' =>
        simp only [SameColumns, List.map_cons, List.cons.injEq, Prod.mk.injEq] at h
        obtain ⟨⟨e1, e2⟩, h⟩ := h
        have hi := ih l' (fun x hx => h1 (List.mem_cons_of_mem _ hx)) (fun x hx => h2 (List.mem_cons_of_mem _ hx)) h
        unfold DFrame.rows at hi ⊢
        rw [List.mapM_cons, List.mapM_cons, hi]
        have hr : rows.mapM (rd q.2.cells) = rows.mapM (rd p.2.cells) := by
          have hrow : ∀ row ∈ rows, rd q.2.cells row = rd p.2.cells row := by
            intro row hrow
            have hh := ha p.1 row hrow
            rw [lookup_of_mem hn (h1 List.mem_cons_self), ← e1, lookup_of_mem hn' (h2 List.mem_cons_self)] at hh
            unfold rd
            rw [hh]
          clear * - hrow
          induction rows with
          | nil => rfl
          | cons r rs ih => rw [List.mapM_cons, List.mapM_cons, hrow r List.mem_cons_self, ih fun x hx => hrow x (List.mem_cons_of_mem _ hx)]
        rw [hr, e1, e2]
  exact key df df' (fun _ h => h) (fun _ h => h) hc

omit [LinearOrder C] in
theorem featureNames_congr {df df' : DFrame N C} (hc : SameColumns df df') (label : N) (b : Bool) : featureNames df' label b = featureNames df label b := by
  have key : ∀ l : DFrame N C, featureNames l label b = ((l.map fun p => (p.1, p.2.category)).filter fun p => decide (p.1 ≠ label) && (p.2 == b)).map Prod.fst := by
    intro l
    unfold featureNames
    rw [List.filter_map, List.map_map]
    rfl
  rw [key, key, hc]

omit [LinearOrder K] [Field K] [LinearOrder C] in
theorem columnNames_congr {df df' : DFrame N C} (hc : SameColumns df df') (cfg : DatasetCfg N) (fs : List (FitFeature N C K)) :
    columnNames cfg df' fs = columnNames cfg df fs := by
  unfold columnNames
  rw [featureNames_congr hc, featureNames_congr hc]

theorem fitFeatures_congr {lib lib' : DataLib C K} (hl : SameConversions lib lib') (cfg : DatasetCfg N) (d : DFrame N C) :
    fitFeatures lib' cfg d = fitFeatures lib cfg d := by
  unfold fitFeatures DataLib.floats
  rw [hl.1, hl.2]

omit [LinearOrder K] in
theorem transformFrame_congr {lib lib' : DataLib C K} (hl : SameConversions lib lib') (drop : DropArg) (fs : List (FitFeature N C K)) (d : DFrame N C) :
    transformFrame lib' drop fs d = transformFrame lib drop fs d := by
  have : transformFeature (N := N) lib' drop d = transformFeature lib drop d := by
    funext f
    cases f <;> unfold transformFeature DataLib.floats <;> rw [hl.1]
  unfold transformFrame
  rw [this]

theorem forall₂_getElem? {α β : Type} {R : α → β → Prop} {l : List α} {r : List β} (h : List.Forall₂ R l r) (i : Nat) :
    (∃ x y, l[i]? = some x ∧ r[i]? = some y ∧ R x y) ∨ (l[i]? = none ∧ r[i]? = none) := by
  by_cases hi : i < l.length
  · have hi' : i < r.length := h.length_eq ▸ hi
    exact .inl ⟨_, _, List.getElem?_eq_getElem hi, List.getElem?_eq_getElem hi', h.get (i := i) hi hi'⟩
  · exact .inr ⟨List.getElem?_eq_none (by omega), List.getElem?_eq_none (by rw [← h.length_eq]; omega)⟩

omit [LinearOrder C] in
/-- Rows that are equal give equal cells. -/
theorem cells_row {df df' d d' : DFrame N C} {rows rows' : List Nat} (hd : df.rows rows = .ok d) (hd' : df'.rows rows' = .ok d') {n : N}
    {cells cells' : List C} (hc : d.col n = .ok cells) (hc' : d'.col n = .ok cells') {i i' row row' : Nat} (hi : rows[i]? = some row)
    (hi' : rows'[i']? = some row') (h : cellOf df' n row' = cellOf df n row) : cells'[i']? = cells[i]? := by
  rcases forall₂_getElem? (cells_of_rows hd hc) i with ⟨x, y, e1, e2, e3⟩ | ⟨e1, _⟩
  · rcases forall₂_getElem? (cells_of_rows hd' hc') i' with ⟨x', y', f1, f2, f3⟩ | ⟨f1, _⟩
    · rw [hi] at e1
      rw [hi'] at f1
      cases e1
      cases f1
      rw [f3, e3] at h
      rw [f2, e2, h]
    · rw [hi'] at f1; cases f1
  · rw [hi] at e1; cases e1

omit [LinearOrder C] [Field K] [LinearOrder K] in
theorem floats_row {lib : DataLib C K} {cells cells' : List C} {xs xs' : List K} (h : lib.floats cells = .ok xs) (h' : lib.floats cells' = .ok xs')
    {i i' : Nat} (hi : cells'[i']? = cells[i]?) : xs'[i']? = xs[i]? := by
  rcases forall₂_getElem? (floats_forall₂ h) i with ⟨x, y, e1, e2, e3⟩ | ⟨e1, e2⟩ <;>
    rcases forall₂_getElem? (floats_forall₂ h') i' with ⟨x', y', f1, f2, f3⟩ | ⟨f1, f2⟩
  · rw [e1, f1] at hi
    cases hi
    rw [e3] at f3
    cases f3
    rw [e2, f2]
  · rw [e1, f1] at hi; cases hi
  · rw [e1, f1] at hi; cases hi
  · rw [e2, f2]

omit [LinearOrder K] in
/-- The columns of a row depend on the cells of the row. -/
theorem transformFeature_row {lib : DataLib C K} {drop : DropArg} {d d' : DFrame N C} {i i' : Nat}
    (hcell : ∀ n cells cells', d.col n = .ok cells → d'.col n = .ok cells' → cells'[i']? = cells[i]?) {f : FitFeature N C K} {A A' : List (List K)}
    (hA : transformFeature lib drop d f = .ok A) (hA' : transformFeature lib drop d' f = .ok A') : A'.map (·[i']?) = A.map (·[i]?) := by
  cases f with
  | scaled n m s =>
    unfold transformFeature at hA hA'
    simp only [bind_eq_ok] at hA hA'
    obtain ⟨c, h1, x, h2, hA⟩ := hA
    obtain ⟨c', h1', x', h2', hA'⟩ := hA'
    cases hA; cases hA'
    have := floats_row h2 h2' (hcell n _ _ h1 h1')
    simp [this]
  | kept n =>
    unfold transformFeature at hA hA'
    simp only [bind_eq_ok] at hA hA'
    obtain ⟨c, h1, x, h2, hA⟩ := hA
    obtain ⟨c', h1', x', h2', hA'⟩ := hA'
    cases hA; cases hA'
    have := floats_row h2 h2' (hcell n _ _ h1 h1')
    simp [this]
  | oneHot n l =>
    unfold transformFeature at hA hA'
    rw [bind_eq_ok] at hA hA'
    obtain ⟨c, h1, hA⟩ := hA
    obtain ⟨c', h1', hA'⟩ := hA'
    cases hA; cases hA'
    have := hcell n _ _ h1 h1'
    simp only [List.map_map]
    refine List.map_congr_left fun l' _ => ?_
    simp [this]
  | ordinal n l =>
    unfold transformFeature at hA hA'
    rw [bind_eq_ok] at hA hA'
    obtain ⟨c, h1, hA⟩ := hA
    obtain ⟨c', h1', hA'⟩ := hA'
    cases hA; cases hA'
    have := hcell n _ _ h1 h1'
    simp [this]

omit [LinearOrder K] in
theorem transformFrame_row {lib : DataLib C K} {drop : DropArg} {d d' : DFrame N C} {i i' : Nat}
    (hcell : ∀ n cells cells', d.col n = .ok cells → d'.col n = .ok cells' → cells'[i']? = cells[i]?) {fs : List (FitFeature N C K)} {X X' : List (List K)}
    (hX : transformFrame lib drop fs d = .ok X) (hX' : transformFrame lib drop fs d' = .ok X') : X'.map (·[i']?) = X.map (·[i]?) := by
  obtain ⟨A, hA, rfl⟩ := transformFrame_inv hX
  obtain ⟨A', hA', rfl⟩ := transformFrame_inv hX'
  clear hX hX'
  induction hA generalizing A' with
  | nil => cases hA'; rfl
  | cons ha _ ih =>
    cases hA' with
    | cons hb hB =>
      simp only [List.flatten_cons, List.map_append]
      rw [ih _ hB, transformFeature_row hcell ha hb]

theorem encodeTargets_row {reg : Bool} {lt le le' : List C} {t t' : Targets C} (h : encodeTargets reg lt le = .ok t) (h' : encodeTargets reg lt le' = .ok t')
    {i i' : Nat} (hi : le'[i']? = le[i]?) : targetAt t' i' = targetAt t i := by
  unfold encodeTargets at h h'
  split at h
  · rename_i hr
    rw [if_pos hr] at h'
    cases h; cases h'
    simp only [targetAt]
    rw [hi]
  · rename_i hr
    rw [if_neg hr] at h'
    rw [bind_eq_ok] at h h'
    obtain ⟨k, hk, h⟩ := h
    obtain ⟨k', hk', h'⟩ := h'
    cases h; cases h'
    simp only [targetAt]
    congr 1
    unfold encodeLabels at hk hk'
    rcases mapM_getElem? hk i with ⟨x, y, e1, e2, e3⟩ | ⟨e1, e2⟩ <;> rcases mapM_getElem? hk' i' with ⟨x', y', f1, f2, f3⟩ | ⟨f1, f2⟩
    · rw [e1, f1] at hi
      cases hi
      rw [e3] at f3
      cases f3
      rw [e2, f2]
    · rw [e1, f1] at hi; cases hi
    · rw [e1, f1] at hi; cases hi
    · rw [e2, f2]

/-- What is learnt depends on the training rows, and the code of a test row on these and on the row. -/
theorem extract_train_only {lib lib' : DataLib C K} {cfg : DatasetCfg N} {df df' : DFrame N C} {n n' : Nat} {r r' : Extracted N C K} {tr te te' : List Nat}
    (hl : SameConversions lib lib') (hn : (df.map Prod.fst).Nodup) (hc : SameColumns df df') (hp : PartsOf lib cfg df n tr te)
    (hp' : PartsOf lib' cfg df' n' tr te') (ha : ∀ m, ∀ row ∈ tr, cellOf df' m row = cellOf df m row)
    (h : extract lib cfg df n = .ok r) (h' : extract lib' cfg df' n' = .ok r') :
    SameTraining r r' ∧ ∀ (i i' row row' : Nat), te[i]? = some row → te'[i']? = some row' → (∀ m, cellOf df' m row' = cellOf df m row) → SameTestRow r r' i i' := by
  obtain ⟨c, tr1, te1, d, dt, fs, lt, le, st⟩ := extract_inv h
  obtain ⟨c', tr2, te2, d', dt', fs', lt', le', st'⟩ := extract_inv h'
  obtain ⟨c1, hc1, hs1⟩ := hp
  obtain ⟨c2, hc2, hs2⟩ := hp'
  rw [st.label] at hc1; cases hc1
  rw [st'.label] at hc2; cases hc2
  have e1 := hs1.symm.trans st.split
  have e2 := hs2.symm.trans st'.split
  cases e1; cases e2
  have hd : d' = d := by
    have := st'.train
    rw [rows_congr hn hc ha, st.train] at this
    cases this; rfl
  subst hd
  have hfs : fs' = fs := by
    have := st'.fit
    rw [fitFeatures_congr hl, st.fit] at this
    cases this; rfl
  subst hfs
  have hlt : lt' = lt := by
    have := st'.lTrain
    rw [st.lTrain] at this
    cases this; rfl
  subst hlt
  refine ⟨⟨?_, ?_, ?_, ?_, ?_⟩, ?_⟩
  · have := st'.xTrain
    rw [transformFrame_congr hl, st.xTrain] at this
    exact (Except.ok.inj this).symm
  · have := st'.yTrain
    rw [st.yTrain] at this
    exact (Except.ok.inj this).symm
  · have := st'.columns
    rw [columnNames_congr hc, st.columns] at this
    exact (Except.ok.inj this).symm
  · rw [st'.mask, st.mask, featureNames_congr hc, featureNames_congr hc]
  · rw [st'.classes, st.classes]
  · intro i i' row row' hi hi' hrow
    have hcell : ∀ m cells cells', dt.col m = .ok cells → dt'.col m = .ok cells' → cells'[i']? = cells[i]? :=
      fun m cells cells' h1 h2 => cells_row st.test st'.test h1 h2 hi hi' (hrow m)
    constructor
    · have := st'.xTest
      rw [transformFrame_congr hl] at this
      exact transformFrame_row hcell st.xTest this
    · exact encodeTargets_row st.yTest st'.yTest (hcell _ _ _ st.lTest st'.lTest)

/-! ### The label -/

theorem mapM_congr_on {α β : Type} {f g : α → M β} {l : List α} (h : ∀ x ∈ l, f x = g x) : l.mapM f = l.mapM g := by
  induction l with
  | nil => rfl
  | cons a l ih => rw [List.mapM_cons, List.mapM_cons, h a List.mem_cons_self, ih fun x hx => h x (List.mem_cons_of_mem _ hx)]

omit [LinearOrder C] in
/-- The rows of a column are the same in frames that agree on it. -/
theorem rows_col_congr {df df' d d' : DFrame N C} {rows : List Nat} (hd : df.rows rows = .ok d) (hd' : df'.rows rows = .ok d') {n : N}
    (hm : (df.lookup n).map DCol.cells = (df'.lookup n).map DCol.cells) : d'.col n = d.col n := by
  have key : ∀ {df d : DFrame N C}, df.rows rows = .ok d → d.col n = match df.lookup n with
      | some c => rows.mapM (rd c.cells)
      | none => .error .valueError := by
    intro df d h
    unfold DFrame.rows at h
    rw [mapM_eq_ok] at h
    unfold DFrame.col
    induction h with
    | nil => rfl
    | @cons p q df d hp _ ih =>
      rw [bind_eq_ok] at hp
      obtain ⟨cs, hcs, hq⟩ := hp
      cases hq
      obtain ⟨a, b⟩ := p
      by_cases hn : n = a
      · subst hn
        simp only [List.lookup_cons_self]
        exact hcs.symm
      · rw [List.lookup_cons, List.lookup_cons, beq_eq_false_iff_ne.2 hn]
        exact ih
  rw [key hd, key hd']
  cases h1 : df.lookup n <;> cases h2 : df'.lookup n <;> rw [h1, h2] at hm <;> simp at hm ⊢
  rw [hm]

/-- `X` does not depend on the labels if the label is not among the declared columns. -/
theorem extract_label {lib lib' : DataLib C K} {cfg : DatasetCfg N} {df df' : DFrame N C} {n n' : Nat} {r r' : Extracted N C K} {tr te : List Nat}
    (hl : SameConversions lib lib') (hc : SameColumns df df') (hp : PartsOf lib cfg df n tr te) (hp' : PartsOf lib' cfg df' n' tr te)
    (ha : ∀ m, m ≠ cfg.label → (df.lookup m).map DCol.cells = (df'.lookup m).map DCol.cells)
    (h1 : cfg.label ∉ cfg.continuous.getD []) (h2 : cfg.label ∉ cfg.categorical.getD [])
    (h : extract lib cfg df n = .ok r) (h' : extract lib' cfg df' n' = .ok r') :
    r'.xTrain = r.xTrain ∧ r'.xTest = r.xTest ∧ r'.columns = r.columns ∧ r'.mask = r.mask := by
  obtain ⟨c, tr1, te1, d, dt, fs, lt, le, st⟩ := extract_inv h
  obtain ⟨c', tr2, te2, d', dt', fs', lt', le', st'⟩ := extract_inv h'
  obtain ⟨c1, hc1, hs1⟩ := hp
  obtain ⟨c2, hc2, hs2⟩ := hp'
  rw [st.label] at hc1; cases hc1
  rw [st'.label] at hc2; cases hc2
  have e1 := hs1.symm.trans st.split
  have e2 := hs2.symm.trans st'.split
  cases e1; cases e2
  have hcol : ∀ m, m ≠ cfg.label → d'.col m = d.col m := fun m hm => rows_col_congr st.train st'.train (ha m hm)
  have hcolt : ∀ m, m ≠ cfg.label → dt'.col m = dt.col m := fun m hm => rows_col_congr st.test st'.test (ha m hm)
  have hfit : fitFeatures lib' cfg d' = fitFeatures lib cfg d := by
    rw [fitFeatures_congr hl]
    unfold fitFeatures
    rw [mapM_congr_on (l := cfg.continuous.getD []) (f := fun n => _) (g := fun n => _) fun m hm => by rw [hcol m (fun e => h1 (e ▸ hm))],
      mapM_congr_on (l := cfg.categorical.getD []) (f := fun n => _) (g := fun n => _) fun m hm => by rw [hcol m (fun e => h2 (e ▸ hm))]]
  have hfs : fs' = fs := by
    have := st'.fit
    rw [hfit, st.fit] at this
    cases this; rfl
  subst hfs
  have hne : ∀ f ∈ fs', ∀ (x x' : DFrame N C), (∀ m, m ≠ cfg.label → x'.col m = x.col m) →
      transformFeature lib cfg.drop x' f = transformFeature lib cfg.drop x f := by
    intro f hf x x' hx
    obtain ⟨co, ca, rfl, hco, hca⟩ := fitFeatures_inv st.fit
    rcases List.mem_append.1 hf with hf | hf
    · obtain ⟨k, hk, hfk⟩ := List.mem_iff_getElem.1 hf
      have hk' : k < (cfg.continuous.getD []).length := hco.length_eq ▸ hk
      have hg := hco.get (i := k) hk' hk
      rw [List.get_eq_getElem, List.get_eq_getElem, hfk] at hg
      have hm : (cfg.continuous.getD [])[k] ≠ cfg.label := fun e => h1 (e ▸ List.getElem_mem hk')
      obtain ⟨_, _, ⟨_, _, _, rfl⟩ | ⟨_, rfl⟩⟩ := hg <;> simp only [transformFeature] <;> rw [hx _ hm]
    · obtain ⟨k, hk, hfk⟩ := List.mem_iff_getElem.1 hf
      have hk' : k < (cfg.categorical.getD []).length := hca.length_eq ▸ hk
      have hg := hca.get (i := k) hk' hk
      rw [List.get_eq_getElem, List.get_eq_getElem, hfk] at hg
      have hm : (cfg.categorical.getD [])[k] ≠ cfg.label := fun e => h2 (e ▸ List.getElem_mem hk')
      obtain ⟨_, _, ⟨_, rfl⟩ | ⟨_, rfl⟩⟩ := hg <;> simp only [transformFeature] <;> rw [hx _ hm]
  have htr : ∀ (x x' : DFrame N C), (∀ m, m ≠ cfg.label → x'.col m = x.col m) → transformFrame lib' cfg.drop fs' x' = transformFrame lib cfg.drop fs' x := by
    intro x x' hx
    rw [transformFrame_congr hl]
    unfold transformFrame
    rw [mapM_congr_on fun f hf => hne f hf x x' hx]
  refine ⟨?_, ?_, ?_, ?_⟩
  · have := st'.xTrain
    rw [htr _ _ hcol, st.xTrain] at this
    exact (Except.ok.inj this).symm
  · have := st'.xTest
    rw [htr _ _ hcolt, st.xTest] at this
    exact (Except.ok.inj this).symm
  · have := st'.columns
    rw [columnNames_congr hc, st.columns] at this
    exact (Except.ok.inj this).symm
  · rw [st'.mask, st.mask, featureNames_congr hc, featureNames_congr hc]

end

end Verif
