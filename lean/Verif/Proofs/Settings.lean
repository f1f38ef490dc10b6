import Verif.Proofs.Modes
import Verif.Proofs.Deep
import Verif.Proofs.EstClass
import Verif.Proofs.Greedy
import Verif.Spec.Settings
import Verif.Props.Sampling

/-! More equivalent settings of the estimators. -/
set_option linter.unusedSectionVars false
namespace Verif

open Spec

section
variable {L V K F Y P G W N : Type} [LinearOrder L] [DecidableEq V] [DecidableEq N] [LinearOrder K] [Field K] [IsStrictOrderedRing K] [FloorSemiring K] [Num F]

/-! ### Spelling -/

theorem getMaxFeatures_of {mf : MaxFeatures K} {d k : Nat} (hs : setMaxFeatures mf = .ok mf) (hk : 1 ≤ k ∧ k ≤ d) (h : FeaturesTried mf d k) :
    getMaxFeatures mf d = .ok k := by
  cases mf with
  | none => simp only [FeaturesTried] at h; rw [h]; rfl
  | str s =>
    simp only [setMaxFeatures] at hs
    split at hs
    · rename_i hs'
      have hsq : k * k ≤ d ∧ d < (k + 1) * (k + 1) → max 1 d.sqrt = k := fun h => by
        rw [← Nat.eq_sqrt.2 h]; exact max_eq_right hk.1
      rcases hs' with rfl | rfl | rfl
      · simp only [FeaturesTried] at h; rw [if_neg (by decide)] at h
        simp only [getMaxFeatures]; rw [if_neg (by decide), if_true, hsq h]
      · simp only [FeaturesTried, if_true] at h
        simp only [getMaxFeatures]; rw [if_neg (by decide), if_neg (by decide), if_true]
        rcases h with h | h
        · rw [Nat.log_eq_of_pow_le_of_lt_pow h.1 h.2, max_eq_right hk.1]
        · have : d = 1 := by omega
          subst this; rw [h.1]; rfl
      · simp only [FeaturesTried] at h; rw [if_neg (by decide)] at h
        simp only [getMaxFeatures, if_true]; rw [hsq h]
    · cases hs
  | int i =>
    simp only [FeaturesTried] at h
    simp only [getMaxFeatures]
    rw [if_neg (by omega)]
    congr 1; omega
  | float f =>
    obtain ⟨x, rfl, h⟩ := h
    simp only [setMaxFeatures] at hs
    split at hs
    · cases hs
    · rename_i hx
      simp only [getMaxFeatures]
      rw [if_neg hx]
      rcases h with ⟨h1, h2, h3⟩ | ⟨h1, h2⟩
      · have : ⌊x * d⌋₊ = k := (Nat.floor_eq_iff' (by omega)).2 ⟨h1, h2⟩
        rw [this, max_eq_right h3]
      · have : ⌊x * (d : K)⌋₊ = 0 := Nat.floor_eq_zero.2 h2
        rw [this, h1]; rfl
  | other => cases h

theorem catMin_value {lib : Lib V K F G W} {n m : Nat} {cm : CatMin} (h : MinCategories lib n m cm) : cm.value lib n = m := by
  cases cm with
  | int k => exact h.symm
  | log => simp only [MinCategories, CatMin.value] at *; omega
  | sqrt => simp only [MinCategories, CatMin.value] at *; omega

theorem subsetOf_all {lib : Lib V K F G W} {e : Est L V K F P G} {n : Nat} (h : KeepsAll n e.subsample) (np : W) : subsetOf lib e n np = (none, np) := by
  unfold subsetOf
  cases hs : e.subsample with
  | none => rfl
  | some k => simp only; rw [if_neg (by have := (h k hs).2; omega)]

theorem fitRest_spelling {lib : Lib V K F G W} {a : FitArgs N V} {p : FitData F Y P G} {s t : World L V K F P G W} {mf : MaxFeatures K} {sub : Option Nat} {cm : CatMin}
    (hmf : getMaxFeatures mf (nCols a.X) = getMaxFeatures s.self.maxFeatures (nCols a.X)) (hs : KeepsAll a.nRows s.self.subsample) (hs' : KeepsAll a.nRows sub)
    (hcm : cm.value lib a.nRows = s.self.catMin.value lib a.nRows) (hacc : CatMinAccepted cm) (h : fitRest lib a p s = (.ok (), t)) :
    fitRest lib a p { s with self := withSpelling mf sub cm s.self } = (.ok (), { t with self := withSpelling mf sub cm t.self }) := by
  obtain ⟨o, rfl⟩ := fitRest_inv h
  have hcfg : ∀ ic, (withSpelling mf sub cm s.self).encCfg lib a.nRows ic = s.self.encCfg lib a.nRows ic := fun ic => by
    unfold Est.encCfg
    rw [show (withSpelling mf sub cm s.self).catMin = cm from rfl, hcm]
    rfl
  have hsub : ∀ np, subsetOf lib (withSpelling mf sub cm s.self) a.nRows np = subsetOf lib s.self a.nRows np := fun np => by
    rw [subsetOf_all hs, subsetOf_all (e := withSpelling mf sub cm s.self) hs']
  have hseeds : seedsOf lib (withSpelling mf sub cm s.self) s.np = seedsOf lib s.self s.np := rfl
  have hk := encoderAccepts_iff.1 o.hacc
  have hnp : npAfter lib a (withSpelling mf sub cm s.self) s.np = npAfter lib a s.self s.np := by
    unfold npAfter
    rw [hseeds, hsub]
    rfl
  rw [fitRest_ok (s := { s with self := withSpelling mf sub cm s.self }) ⟨o.mf, o.ic, o.enc, o.fba, o.trees, hmf.trans o.hmf, o.hrs, o.hic,
    encoderAccepts_iff.2 ⟨hk.1, fun k e => (hs' k e).1, hacc⟩, by rw [hcfg, hseeds, hsub]; exact o.henc, by rw [hcfg]; exact o.hfba,
    by rw [hseeds, hsub]; exact o.htrees⟩]
  simp only [hnp, Outcome.est, hcfg]
  rfl

/-! ### Encoder settings -/

theorem encode_encoder {lib : Lib V K F G W} {e e' : Est L V K F P G} {f : EncCfg K → EncCfg K} (hf : ∀ c, (f c).handleUnknownError = c.handleUnknownError)
    (h : e'.encoder = e.encoder.map fun p => (f p.1, p.2)) (n : Nat) (X : Dataset N V) : e'.encode lib n X = e.encode lib n X := by
  unfold Est.encode
  rw [h]
  cases e.encoder with
  | none => rfl
  | some p =>
    obtain ⟨cfg, enc⟩ := p
    have hc : ∀ fc m cats, colMaxValue (V := V) (f cfg) fc m cats = colMaxValue cfg fc m cats := fun fc m cats => by
      cases fc with
      | num thr => rfl
      | cat c => simp only [colMaxValue, hf]
    cases X with
    | frame X => simp only [Option.map_some, encoderTransform, transformDataFrame, hc]
    | array k X => simp only [Option.map_some, encoderTransform, transformArray, hc]

theorem dedup_length_le {α : Type} [DecidableEq α] {l m : List α} (h : ∀ x ∈ l, x ∈ m) : l.dedup.length ≤ m.length :=
  (List.subperm_of_subset (List.nodup_dedup l) fun x hx => h x (List.mem_dedup.1 hx)).length_le

theorem takeSubset_mem_col {subset : Option (List Nat)} {cells c' : List (Option V)} (h : takeSubset subset cells = .ok c') : ∀ x ∈ c', x ∈ cells := by
  cases subset with
  | none => cases h; exact fun _ h => h
  | some idx =>
    have := mapM_eq_ok.1 h
    clear h
    induction this with
    | nil => simp
    | cons h1 _ ih =>
      intro x hx
      rcases List.mem_cons.1 hx with rfl | hx
      · exact List.mem_of_getElem? (rd_ok.1 h1)
      · exact ih x hx

theorem toFloats_mem_dedup {f : V → Option K} {e : Err} {cells : List (Option V)} {xs : List (Option K)} (h : toFloats f e cells = .ok xs) :
    ∀ x ∈ xs.filterMap id, x ∈ (cells.filterMap id).dedup.filterMap f := by
  have := mapM_eq_ok.1 h
  clear h
  intro x hx
  rw [List.mem_filterMap] at hx
  obtain ⟨_, hx, rfl⟩ := hx
  suffices ∃ v, some v ∈ cells ∧ f v = some x by
    obtain ⟨v, h1, h2⟩ := this
    exact List.mem_filterMap.2 ⟨v, List.mem_dedup.2 (List.mem_filterMap.2 ⟨some v, h1, rfl⟩), h2⟩
  induction this with
  | nil => cases hx
  | @cons c y cs ys h1 _ ih =>
    rcases List.mem_cons.1 hx with h | hx
    · cases c with
      | none => cases h1; cases h
      | some v =>
        cases hv : f v with
        | none => simp only [hv] at h1; cases h1
        | some z => simp only [hv] at h1; cases h1; cases h; exact ⟨v, by simp, hv⟩
    · obtain ⟨v, h2, h3⟩ := ih hx
      exact ⟨v, by simp [h2], h3⟩

theorem npUnique_length_le {f : V → Option K} {e : Err} {subset : Option (List Nat)} {cells c' : List (Option V)} {xs : List (Option K)} {b : Nat}
    (h1 : takeSubset subset cells = .ok c') (h2 : toFloats f e c' = .ok xs) (hb : (cells.filterMap id).dedup.length ≤ b) :
    (xs.filterMap id).dedup.length ≤ b := by
  refine le_trans (dedup_length_le (toFloats_mem_dedup h2)) (le_trans (List.length_filterMap_le _ _) (le_trans (dedup_length_le fun x hx => ?_) hb))
  rw [List.mem_filterMap] at hx
  obtain ⟨_, hx, rfl⟩ := hx
  exact List.mem_dedup.2 (List.mem_filterMap.2 ⟨_, takeSubset_mem_col h1 _ hx, rfl⟩)

theorem findBinningThresholds_few {cap : K} {xs : List (Option K)} {b b' : Nat} (h : (xs.filterMap id).dedup.length ≤ b) (h' : (xs.filterMap id).dedup.length ≤ b') :
    findBinningThresholds cap xs b = findBinningThresholds cap xs b' := by
  have hl : (npUnique (xs.filterMap id)).length = (xs.filterMap id).dedup.length := by unfold npUnique; exact (sortAsc_perm _).length_eq
  unfold findBinningThresholds
  simp only [hl, if_pos h, if_pos h']

theorem fitSeries_bins {cv : Conv V K} {cfg : EncCfg K} {subset : Option (List Nat)} {j : Nat} {s : Series V} {fc : FitCol V K} {b : Nat}
    (h : fitSeries cv cfg subset j s = .ok fc) (hf : fc.isCat = false → (s.cells.filterMap id).dedup.length ≤ cfg.maxBins ∧ (s.cells.filterMap id).dedup.length ≤ b) :
    fitSeries cv { cfg with maxBins := b } subset j s = .ok fc := by
  unfold fitSeries at h ⊢
  rw [bind_eq_ok] at h
  obtain ⟨d, h1, h⟩ := h
  rw [show declared { cfg with maxBins := b } j = declared cfg j from rfl, h1, bind_ok]
  rw [bind_eq_ok] at h
  obtain ⟨t, h2, h⟩ := h
  simp only [h2, bind_ok]
  cases t with
  | isCategory => exact h
  | toCategory => exact h
  | numerical =>
    simp only [bind_eq_ok] at h
    obtain ⟨cells, h3, xs, h4, thr, h5, h6⟩ := h
    cases h6
    obtain ⟨k1, k2⟩ := hf rfl
    simp only [h3, bind_ok, h4]
    rw [findBinningThresholds_few (npUnique_length_le h3 h4 k2) (npUnique_length_le h3 h4 k1), h5]
    rfl

theorem fitArrayCol_bins {cv : Conv V K} {cfg : EncCfg K} {subset : Option (List Nat)} {kind : Kind} {j : Nat} {s : List (Option V)} {fc : FitCol V K} {b : Nat}
    (h : fitArrayCol cv cfg subset kind j s = .ok fc) (hf : fc.isCat = false → (s.filterMap id).dedup.length ≤ cfg.maxBins ∧ (s.filterMap id).dedup.length ≤ b) :
    fitArrayCol cv { cfg with maxBins := b } subset kind j s = .ok fc := by
  unfold fitArrayCol at h ⊢
  rw [bind_eq_ok] at h
  obtain ⟨d, h1, h⟩ := h
  rw [show declared { cfg with maxBins := b } j = declared cfg j from rfl, h1, bind_ok]
  rw [bind_eq_ok] at h
  obtain ⟨t, h2, h⟩ := h
  simp only [h2, bind_ok]
  cases t with
  | true => exact h
  | false =>
    simp only [bind_eq_ok, Bool.false_eq_true, if_false] at h
    obtain ⟨cells, h3, xs, h4, thr, h5, h6⟩ := h
    cases h6
    obtain ⟨k1, k2⟩ := hf rfl
    simp only [h3, bind_ok, h4, Bool.false_eq_true, if_false]
    rw [findBinningThresholds_few (npUnique_length_le h3 h4 k2) (npUnique_length_le h3 h4 k1), h5]
    rfl

/-- The same result of each column. -/
theorem mapM_range_congr {α β : Type} {f g : Nat → α → M β} {X : List α} {enc : List β}
    (h : ((List.range X.length).zip X).mapM (fun p => f p.1 p.2) = .ok enc)
    (hfg : ∀ j x y, X[j]? = some x → enc[j]? = some y → f j x = .ok y → g j x = .ok y) :
    ((List.range X.length).zip X).mapM (fun p => g p.1 p.2) = .ok enc := by
  rw [mapM_eq_ok] at h ⊢
  rw [List.forall₂_iff_get] at h ⊢
  refine ⟨h.1, fun i h1 h2 => ?_⟩
  have := h.2 i h1 h2
  have hX : i < X.length := by simpa using h1
  simp only [List.get_eq_getElem, List.getElem_zip, List.getElem_range] at this ⊢
  exact hfg i _ _ (List.getElem?_eq_getElem hX) (List.getElem?_eq_getElem h2) this

theorem fitDataFrame_iff {cv : Conv V K} {cfg : EncCfg K} {subset : Option (List Nat)} {X : List (Series V)} {enc : List (FitCol V K)} :
    fitDataFrame cv cfg subset X = .ok enc ↔ (∀ m, cfg.isCategorical = some m → m.length = X.length) ∧
      ((List.range X.length).zip X).mapM (fun p => fitSeries cv cfg subset p.1 p.2) = .ok enc := by
  unfold fitDataFrame
  cases h : cfg.isCategorical with
  | none => simp
  | some m =>
    by_cases hm : m.length = X.length
    · simp [hm]
    · simp only [ne_eq, hm, not_false_eq_true, if_true, Option.some.injEq, forall_eq', false_and, iff_false]
      intro h; cases h

theorem fitArray_iff {cv : Conv V K} {cfg : EncCfg K} {subset : Option (List Nat)} {kind : Kind} {X : List (List (Option V))} {enc : List (FitCol V K)} :
    fitArray cv cfg subset kind X = .ok enc ↔ (∀ m, cfg.isCategorical = some m → m.length = X.length) ∧
      ((List.range X.length).zip X).mapM (fun p => fitArrayCol cv cfg subset kind p.1 p.2) = .ok enc := by
  unfold fitArray
  cases h : cfg.isCategorical with
  | none => simp
  | some m =>
    by_cases hm : m.length = X.length
    · simp [hm]
    · simp only [ne_eq, hm, not_false_eq_true, if_true, Option.some.injEq, forall_eq', false_and, iff_false]
      intro h; cases h

theorem encoderFit_bins {cv : Conv V K} {cfg : EncCfg K} {subset : Option (List Nat)} {X : Dataset N V} {enc : List (FitCol V K)} {b : Nat}
    (h : encoderFit cv cfg subset X = .ok enc) (h1 : FewValues X (enc.map FitCol.isCat) cfg.maxBins) (h2 : FewValues X (enc.map FitCol.isCat) b) :
    encoderFit cv { cfg with maxBins := b } subset X = .ok enc := by
  have key : ∀ {j : Nat} {fc : FitCol V K}, enc[j]? = some fc → fc.isCat = false → (enc.map FitCol.isCat)[j]? = some false := fun hj hc => by
    rw [List.getElem?_map, hj, Option.map_some, hc]
  cases X with
  | frame X =>
    simp only [encoderFit, fitDataFrame_iff] at h ⊢
    obtain ⟨h3, h4⟩ := h
    refine ⟨h3, ?_⟩
    refine mapM_range_congr (f := fun j s => fitSeries cv cfg subset j s) h4 fun j x y hx hy hxy => fitSeries_bins hxy fun hc => ?_
    have hcol : columnOf (.frame X) j = some x.cells := by
      simp only [columnOf]
      rw [List.getElem?_map] at hx
      cases hX : X[j]? with
      | none => rw [hX] at hx; cases hx
      | some p => rw [hX] at hx; cases hx; rfl
    exact ⟨h1 j _ (key hy hc) hcol, h2 j _ (key hy hc) hcol⟩
  | array k X =>
    simp only [encoderFit, fitArray_iff] at h ⊢
    obtain ⟨h3, h4⟩ := h
    refine ⟨h3, ?_⟩
    exact mapM_range_congr (f := fun j s => fitArrayCol cv cfg subset k j s) h4 fun j x y hx hy hxy => fitArrayCol_bins hxy fun hc =>
      ⟨h1 j _ (key hy hc) hx, h2 j _ (key hy hc) hx⟩

theorem encoderFit_mask {cv : Conv V K} {cfg : EncCfg K} {subset : Option (List Nat)} {X : Dataset N V} {mask : List Bool} {m : Nat} (hm : cfg.isCategorical = some mask) :
    encoderFit cv { cfg with catMin := m } subset X = encoderFit cv cfg subset X := by
  have hd : ∀ j, (∃ b, declared cfg j = .ok (some b)) ∨ ∃ e, declared cfg j = .error e := fun j => by
    unfold declared
    rw [hm]
    simp only
    cases rd mask j with
    | ok b => exact .inl ⟨b, rfl⟩
    | error e => exact .inr ⟨e, rfl⟩
  have h1 : ∀ k b n m', isSeriesCategorical k (some b) n m = isSeriesCategorical k (some b) n m' := fun k b n m' => by
    cases b <;> rfl
  have h2 : ∀ k b n m' c, arrayColCategorical k (some b) n m c = arrayColCategorical k (some b) n m' c := fun k b n m' c => by
    cases b <;> rfl
  cases X with
  | frame X =>
    have : ∀ p : Nat × _, fitSeries cv { cfg with catMin := m } subset p.1 p.2 = fitSeries cv cfg subset p.1 p.2 := by
      intro p
      unfold fitSeries
      rw [show declared { cfg with catMin := m } p.1 = declared cfg p.1 from rfl]
      rcases hd p.1 with ⟨b, e⟩ | ⟨x, e⟩
      · simp only [e, bind_ok, h1 _ _ _ cfg.catMin]
      · simp only [e]; rfl
    simp only [encoderFit, fitDataFrame, this]
  | array k X =>
    have : ∀ p : Nat × _, fitArrayCol cv { cfg with catMin := m } subset k p.1 p.2 = fitArrayCol cv cfg subset k p.1 p.2 := by
      intro p
      unfold fitArrayCol
      rw [show declared { cfg with catMin := m } p.1 = declared cfg p.1 from rfl]
      rcases hd p.1 with ⟨b, e⟩ | ⟨x, e⟩
      · simp only [e, bind_ok, h2 _ _ _ cfg.catMin]
      · simp only [e]; rfl
    simp only [encoderFit, fitArray, this]

theorem getIsCategorical_declares {cf : CatFeatures} {d : Nat} {ic : Option (List Bool)} (h : Declares cf) (hc : getIsCategorical cf d = .ok ic) : ∃ m, ic = some m := by
  cases cf with
  | none => cases h
  | other n => cases h
  | ints l =>
    have hl : l ≠ [] := h
    simp only [getIsCategorical] at hc
    rw [if_neg (by simpa using hl)] at hc
    split at hc
    · cases hc
    · rw [bind_eq_ok] at hc
      obtain ⟨m, -, h2⟩ := hc
      cases h2
      exact ⟨_, rfl⟩
  | bools l =>
    have hl : l ≠ [] := h
    simp only [getIsCategorical] at hc
    rw [if_neg (by simpa using hl)] at hc
    split at hc
    · cases hc
    · cases hc; exact ⟨_, rfl⟩

theorem fitRest_maxBins {lib : Lib V K F G W} {a : FitArgs N V} {p : FitData F Y P G} {s t : World L V K F P G W} {b : Nat} (hb : 3 ≤ b)
    (h : fitRest lib a p s = (.ok (), t)) (h1 : FewValues a.X t.self.isCategorical_ s.self.maxBins) (h2 : FewValues a.X t.self.isCategorical_ b)
    {c : Option (EncCfg K × List (FitCol V K))} :
    fitRest lib a p { s with self := { s.self with maxBins := b, encoder := c } } = (.ok (), { t with self := withMaxBins b t.self }) := by
  obtain ⟨o, rfl⟩ := fitRest_inv h
  have hk := encoderAccepts_iff.1 o.hacc
  have e2 : encoderTransform lib.conv { s.self.encCfg lib a.nRows o.ic with maxBins := b } o.enc lib.words a.nRows a.X = .ok o.fba := by
    rw [← o.hfba]
    cases a.X <;> rfl
  exact fitRest_ok (s := { s with self := { s.self with maxBins := b, encoder := c } }) ⟨o.mf, o.ic, o.enc, o.fba, o.trees, o.hmf, o.hrs, o.hic,
    encoderAccepts_iff.2 ⟨hb, hk.2⟩, encoderFit_bins o.henc h1 h2, e2, o.htrees⟩

theorem fitRest_catMin {lib : Lib V K F G W} {a : FitArgs N V} {p : FitData F Y P G} {s t : World L V K F P G W} {cm : CatMin} {m : Nat} (hd : Declares a.categorical)
    (hacc : CatMinAccepted cm) (hm : MinCategories lib a.nRows m cm) (h : fitRest lib a p s = (.ok (), t)) {c : Option (EncCfg K × List (FitCol V K))} :
    fitRest lib a p { s with self := { s.self with catMin := cm, encoder := c } } = (.ok (), { t with self := withCatMin cm m t.self }) := by
  obtain ⟨o, rfl⟩ := fitRest_inv h
  have hk := encoderAccepts_iff.1 o.hacc
  obtain ⟨mask, hmask⟩ := getIsCategorical_declares hd o.hic
  obtain rfl := catMin_value hm
  have e2 : encoderTransform lib.conv { s.self.encCfg lib a.nRows o.ic with catMin := cm.value lib a.nRows } o.enc lib.words a.nRows a.X = .ok o.fba := by
    rw [← o.hfba]
    cases a.X <;> rfl
  exact fitRest_ok (s := { s with self := { s.self with catMin := cm, encoder := c } }) ⟨o.mf, o.ic, o.enc, o.fba, o.trees, o.hmf, o.hrs, o.hic,
    encoderAccepts_iff.2 ⟨hk.1, hk.2.1, hacc⟩, (encoderFit_mask (cfg := s.self.encCfg lib a.nRows o.ic) hmask).trans o.henc, e2, o.htrees⟩

/-! ### Orders of categories -/

/-- No column is categorical. -/
def NoCat (c : Ctx F) : Prop := ∀ j : Nat, c.isCategorical[j]? ≠ some true

section
variable (ord : List Nat → List Y → G → M (List (List Nat) × G))

theorem tryBins_orders (T : Task F Y P G) (c : Ctx F) (nc : NodeCtx F Y P) (h : Hist F Y) (f : Nat) (ic : Bool) (cs o bs : List Nat) (s : TryAcc F Y) (b : Split F) :
    tryBins { T with orders := ord } c nc h f ic cs o bs s b = tryBins T c nc h f ic cs o bs s b := by
  induction bs generalizing s b with
  | nil => rfl
  | cons x bs ih =>
    unfold tryBins
    simp only [ih]

theorem findBestAlong_orders (T : Task F Y P G) {c : Ctx F} (hc : NoCat c) (nc : NodeCtx F Y P) (h : Hist F Y) (f : Nat) (b : Split F) (g : G) :
    findBestAlong { T with orders := ord } c nc h f b g = findBestAlong T c nc h f b g := by
  unfold findBestAlong
  cases hr : rd c.isCategorical f with
  | error e => rfl
  | ok x =>
    cases x with
    | true => exact absurd (rd_ok.1 hr) (hc f)
    | false =>
      simp only [bind_ok, Bool.false_eq_true, if_false, tryOrder, tryBins_orders]

theorem growStep_orders (R : Rng G) (T : Task F Y P G) {c : Ctx F} (hc : NoCat c) (gb : Garbage F) (s : GState F P G) :
    growStep R { T with orders := ord } c gb s = growStep R T c gb s := by
  have h1 : ∀ r nc k, chooseSplit { T with orders := ord } c r nc k = chooseSplit T c r nc k := fun r nc k => by
    unfold chooseSplit findNodeSplit
    simp only [findBestAlong_orders ord T hc]
  unfold growStep
  simp only [h1]
  rfl

theorem fitTree_orders (R : Rng G) (T : Task F Y P G) {c : Ctx F} (hc : NoCat c) (gb : Garbage F) (seed : Nat) (train valid : List Nat) :
    fitTree R { T with orders := ord } c gb seed train valid = fitTree R T c gb seed train valid := by
  have h1 : ∀ n s, growLoop R { T with orders := ord } c gb n s = growLoop R T c gb n s := by
    intro n
    induction n with
    | zero => intro s; rfl
    | succ n ih => intro s; unfold growLoop; simp only [ih, growStep_orders ord R T hc]
  unfold fitTree grow
  simp only [h1]

end

theorem buildTree_orders (R : Rng G) (T : F → Task F Y P G) (ord : F → List Nat → List Y → G → M (List (List Nat) × G)) (draw : Nat → List Nat) (depth : Nat) {c : Ctx F}
    (hc : NoCat c) (gb : Garbage F) (d : F) (seed : Nat) :
    buildTree R (fun d => { T d with orders := ord d }) draw depth c gb d seed = buildTree R T draw depth c gb d seed := by
  unfold buildTree TreeObj.fit
  have h : ∀ w train valid, fitTree R { T d with orders := ord d } { c with w := w } gb seed train valid = fitTree R (T d) { c with w := w } gb seed train valid :=
    fun w train valid => fitTree_orders (ord d) R (T d) (c := { c with w := w }) hc gb seed train valid
  simp only [h]

theorem growTrees_orders (lib : Lib V K F G W) (n : Nat) (p : FitData F Y P G) (ord : F → List Nat → List Y → G → M (List (List Nat) × G)) (e : Est L V K F P G) (mf : Nat)
    {isCat : List Bool} (hc : ∀ b ∈ isCat, b = false) (fba : FBA) (seeds depths : List Nat) :
    growTrees lib n { p with task := fun d => { p.task d with orders := ord d } } e mf isCat fba seeds depths = growTrees lib n p e mf isCat fba seeds depths := by
  unfold growTrees
  refine mapM_congr_mem' fun x _ => ?_
  obtain ⟨⟨seed, depth⟩, i⟩ := x
  refine bind_congr fun y => bind_congr fun w => ?_
  exact buildTree_orders lib.rng p.task ord _ _ (fun j hj => by have := hc _ (List.mem_of_getElem? hj); cases this) _ _ _

theorem fitRest_orders {lib : Lib V K F G W} {a : FitArgs N V} {p : FitData F Y P G} {s t : World L V K F P G W} (ord : F → List Nat → List Y → G → M (List (List Nat) × G))
    (st : CatStrategy) (h : fitRest lib a p s = (.ok (), t)) (hc : ∀ b ∈ t.self.isCategorical_, b = false) :
    fitRest lib a { p with task := fun d => { p.task d with orders := ord d } } { s with self := withStrategy st s.self } = (.ok (), { t with self := withStrategy st t.self }) := by
  obtain ⟨o, rfl⟩ := fitRest_inv h
  exact fitRest_ok (s := { s with self := withStrategy st s.self }) ⟨o.mf, o.ic, o.enc, o.fba, o.trees, o.hmf, o.hrs, o.hic, o.hacc, o.henc, o.hfba,
    (growTrees_orders lib a.nRows p ord _ o.mf hc o.fba _ _).trans o.htrees⟩

/-! ### Balanced classes -/

theorem balancedWeights_equal {y : List L} (hdiv : ∀ l ∈ y, Num.div (Num.ofNat y.length : F) (Num.mul (Num.ofNat y.dedup.length) (Num.ofNat (y.count l))) = Num.one) :
    (balancedWeights (labelCodes (sortedUnique y) y) : List F) = List.replicate y.length Num.one := by
  have hinj : ∀ a ∈ y, ∀ b ∈ y, (sortedUnique y).idxOf a = (sortedUnique y).idxOf b → a = b := by
    intro a ha b _ h
    exact (List.idxOf_inj (mem_sortedUnique.2 ha)).1 h
  unfold balancedWeights labelCodes
  rw [List.map_map]
  rw [List.eq_replicate_iff]
  refine ⟨by simp, fun x hx => ?_⟩
  obtain ⟨l, hl, rfl⟩ := List.mem_map.1 hx
  simp only [Function.comp]
  rw [count_map_on hinj hl, dedup_map_length hinj, List.length_map]
  exact hdiv l hl

theorem zipWith_mul_one (hmul : ∀ x : F, Num.mul x Num.one = x) (w : List F) : List.zipWith Num.mul w (List.replicate w.length Num.one) = w := by
  induction w with
  | nil => rfl
  | cons x w ih => rw [List.length_cons, List.replicate_succ, List.zipWith_cons_cons, hmul, ih]

theorem fitRest_balanced {lib : Lib V K F G W} {a : FitArgs N V} {p : FitData F Y P G} {s t : World L V K F P G W} (b : Bool) (h : fitRest lib a p s = (.ok (), t)) :
    fitRest lib a p { s with self := withBalanced b s.self } = (.ok (), { t with self := withBalanced b t.self }) := by
  obtain ⟨o, rfl⟩ := fitRest_inv h
  exact fitRest_ok (s := { s with self := withBalanced b s.self }) ⟨o.mf, o.ic, o.enc, o.fba, o.trees, o.hmf, o.hrs, o.hic, o.hacc, o.henc, o.hfba, o.htrees⟩

/-- With equally frequent classes balanced weights are the given ones. -/
theorem classWeights_equal {e : Est L V K F P G} {y : List L} {sw : List F} (hmul : ∀ x : F, Num.mul x Num.one = x)
    (hdiv : ∀ l ∈ y, Num.div (Num.ofNat y.length : F) (Num.mul (Num.ofNat y.dedup.length) (Num.ofNat (y.count l))) = Num.one)
    (ho : staysOvr e y = false) (hl : sw.length = y.length) : classWeights e y sw = [sw] := by
  unfold classWeights codesOf
  rw [ho]
  simp only [Bool.false_eq_true, if_false, List.map_cons, List.map_nil, balancedWeights_equal hdiv]
  rw [← hl, zipWith_mul_one hmul]
  split <;> rfl

end

end Verif
