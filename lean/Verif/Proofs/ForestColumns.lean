import Verif.Proofs.EndForest
import Verif.Props.BinPlace
import Verif.Props.Checks
import Verif.Spec.ForestColumns

/-! The columns of a fitted forest and the hyperparameters. -/
set_option linter.unusedSectionVars false
namespace Verif

open Spec

section
variable {V K : Type} [DecidableEq V] [LinearOrder K] [Field K] [IsStrictOrderedRing K]

theorem thresholdsOf_ok {cap : K} {xs : List (Option K)} {m : Nat} (hm : 1 ≤ m) {thr : List K} (h : findBinningThresholds cap xs m = .ok thr) :
    ThresholdsOf cap xs m thr := by
  obtain ⟨thr', h1, h2, _, h4, _⟩ := C04_thresholds cap xs m hm
  rw [h] at h1
  injection h1 with h1
  subst h1
  exact ⟨by omega, h2, fun hd i t ht => C04_half_way hm h hd ht, fun hd i t ht => C04_quantiles hm h hd ht⟩

/-- The rows that `takeSubset` takes. -/
def rowsOf (subset : Option (List Nat)) (n : Nat) : List Nat := subset.getD (List.range n)

theorem valuesAt_ok {num : V → Option K} {er : Err} {subset : Option (List Nat)} {cells r : List (Option V)} {xs : List (Option K)}
    (h1 : takeSubset subset cells = .ok r) (h2 : toFloats num er r = .ok xs) : ValuesAt num cells (rowsOf subset cells.length) xs := by
  have hr : List.Forall₂ (fun i c => cells[i]? = some c) (rowsOf subset cells.length) r := by
    cases subset with
    | none =>
      injection h1 with h1
      subst h1
      refine List.forall₂_iff_get.2 ⟨by simp [rowsOf], fun i h1 h2 => ?_⟩
      simp [rowsOf]
    | some l =>
      refine (mapM_eq_ok.1 h1).imp fun i c hi => rd_ok.1 hi
  have hx := toFloats_ok h2
  unfold ValuesAt
  refine List.forall₂_iff_get.2 ⟨hr.length_eq.trans hx.length_eq, fun i i1 i2 => ?_⟩
  have a := hr.get i1 (by rw [hx.length_eq]; exact i2)
  have b := hx.get (by rw [hx.length_eq]; exact i2) i2
  rcases b with ⟨b1, b2⟩ | ⟨v, y, b1, b2, b3⟩
  · exact .inl ⟨by rw [a, b1], b2⟩
  · exact .inr ⟨v, y, by rw [a, b1], b3, b2⟩

theorem declaration_ok {cf : CatFeatures} {d : Nat} {ic : Option (List Bool)} (h : getIsCategorical cf d = .ok ic) {j : Nat} (hj : j < d) :
    declaration cf j = ic.bind fun m => m[j]? := by
  obtain ⟨e1, e2, e3, hbad, hgood, hm, hm', ho⟩ := C11_categorical_features d
  cases cf with
  | none => injection h with h; subst h; rfl
  | other k =>
    by_cases hk : k = 0
    · subst hk; injection h with h; subst h; rfl
    · rw [ho k (by omega)] at h; cases h
  | ints l =>
    by_cases hl : l = []
    · subst hl; injection h with h; subst h; rfl
    · by_cases hb : ∃ i ∈ l, i < 0 ∨ (d : Int) ≤ i
      · rw [hbad l hl hb] at h; cases h
      · push Not at hb
        obtain ⟨mask, hlen, hsel, hok, -⟩ := hgood l hl (fun i hi => hb i hi)
        rw [hok] at h
        injection h with h
        subst h
        have hjl : j < mask.length := by omega
        simp only [declaration, if_neg hl, Option.bind_some]
        rw [List.getElem?_eq_getElem hjl]
        congr 1
        have := hsel j
        rw [List.getElem?_eq_getElem hjl] at this
        rw [Bool.eq_iff_iff, decide_eq_true_eq]
        constructor
        · intro h; have := this.2 ⟨hjl, h⟩; injection this
        · intro h; exact (this.1 (by rw [h])).2
  | bools l =>
    by_cases hl : l = []
    · subst hl; injection h with h; subst h; rfl
    · by_cases hn : l.length = d
      · rw [hm l hl hn] at h
        injection h with h
        subst h
        have hjl : j < l.length := by omega
        simp only [declaration, if_neg hl, Option.bind_some, List.getD_eq_getElem?_getD, List.getElem?_eq_getElem hjl, Option.getD_some]
      · rw [hm' l hl hn] at h; cases h

theorem declared_eq {cfg : EncCfg K} {j : Nat} {r : Option Bool} (h : declared cfg j = .ok r) : r = cfg.isCategorical.bind fun m => m[j]? := by
  unfold declared at h
  split at h
  · rename_i hc; rw [hc]; injection h with h; rw [← h]; rfl
  · rename_i m hc
    rw [hc]
    simp only [bind_eq_ok] at h
    obtain ⟨x, hx, h⟩ := h
    rw [rd_ok] at hx
    injection h with h
    subst h
    simp [hx]

theorem fitSeries_rules {cv : Conv V K} {cfg : EncCfg K} (hm : 1 ≤ cfg.maxBins) {subset : Option (List Nat)} {j : Nat} {s : Series V} {fc : FitCol V K}
    (h : fitSeries cv cfg subset j s = .ok fc) :
    FittedByRules cv.toFloat cfg.cap cfg.maxBins cfg.catMin (rowsOf subset s.cells.length) s.kind (cfg.isCategorical.bind fun m => m[j]?)
      (s.cells.filterMap id).dedup.length s.cells fc := by
  unfold fitSeries at h
  rw [bind_eq_ok] at h
  obtain ⟨decl, hdecl, h⟩ := h
  rw [bind_eq_ok] at h
  obtain ⟨t, ht, h⟩ := h
  rw [← declared_eq hdecl]
  have hkind : s.kind ≠ .other := by
    intro hk; rw [hk] at ht; simp [isSeriesCategorical] at ht
  refine ⟨fun hd => ?_, ?_⟩
  · obtain ⟨t', ht', hiff⟩ := (C10_frame_column_partial s.kind decl (s.cells.filterMap id).dedup.length cfg.catMin (fun h => Or.inl (hd h))).2 hkind
    rw [ht] at ht'; injection ht' with ht'; subst ht'
    rw [← hiff]
    cases t with
    | isCategory => simp at h; simp [← h]
    | toCategory => simp at h; simp [← h]
    | numerical =>
      simp only [bind_eq_ok] at h
      obtain ⟨_, _, _, _, _, _, h⟩ := h
      injection h with h
      simp [← h]
  · rintro thr rfl
    cases t with
    | isCategory => simp at h
    | toCategory => simp at h
    | numerical =>
      simp only [bind_eq_ok] at h
      obtain ⟨r, h1, xs, h2, thr', h3, h⟩ := h
      injection h with h
      injection h with h
      subst h
      exact ⟨xs, valuesAt_ok h1 h2, thresholdsOf_ok hm h3⟩

theorem fitArrayCol_rules {cv : Conv V K} {cfg : EncCfg K} (hm : 1 ≤ cfg.maxBins) {subset : Option (List Nat)} {j : Nat} {c : List (Option V)} {fc : FitCol V K}
    (h : fitArrayCol cv cfg subset .uif j c = .ok fc) :
    FittedByRules cv.toFloat cfg.cap cfg.maxBins cfg.catMin (rowsOf subset c.length) .uif (cfg.isCategorical.bind fun m => m[j]?) c.dedup.length c fc := by
  unfold fitArrayCol at h
  rw [bind_eq_ok] at h
  obtain ⟨decl, hdecl, h⟩ := h
  rw [bind_eq_ok] at h
  obtain ⟨t, ht, h⟩ := h
  rw [← declared_eq hdecl]
  refine ⟨fun _ => ?_, ?_⟩
  · obtain ⟨t', ht', hiff⟩ := (C10_array_column_partial .uif decl c.dedup.length cfg.catMin _ (by simp) (by simp)).2.2 (by simp) (by simp)
    rw [ht] at ht'; injection ht' with ht'; subst ht'
    rw [← hiff]
    cases t with
    | true => simp at h; simp [← h]
    | false =>
      simp only [Bool.false_eq_true, if_false, bind_eq_ok] at h
      obtain ⟨_, _, _, _, _, _, h⟩ := h
      injection h with h
      simp [← h]
  · rintro thr rfl
    cases t with
    | true => simp at h
    | false =>
      simp only [Bool.false_eq_true, if_false, bind_eq_ok] at h
      obtain ⟨r, h1, xs, h2, thr', h3, h⟩ := h
      injection h with h
      injection h with h
      subst h
      exact ⟨xs, valuesAt_ok h1 h2, thresholdsOf_ok hm h3⟩

end

section
variable {L V K F Y P G W N : Type} [LinearOrder L] [DecidableEq V] [DecidableEq N] [LinearOrder K] [Field K] [IsStrictOrderedRing K]
  [FloorSemiring K] [Num F]

theorem learningRows_ok {lib : Lib V K F G W} {n : Nat} (hlib : LibOK lib n) (e : Est L V K F P G) (np : W) :
    LearningRows e.subsample n (rowsOf (subsetOf lib e n np).1 n) := by
  unfold LearningRows subsetOf rowsOf
  cases e.subsample with
  | none => rfl
  | some k =>
    by_cases hk : k < n
    · simp only [if_pos hk]; exact hlib.choice _ _ (by omega)
    · simp only [if_neg hk]; rfl

theorem minCategories_ok (lib : Lib V K F G W) (n : Nat) (cm : CatMin) : MinCategories lib n (cm.value lib n) cm := by
  cases cm with
  | int k => rfl
  | log => simp only [MinCategories, CatMin.value]; omega
  | sqrt => simp only [MinCategories, CatMin.value]; omega

theorem Outcome.rules {lib : Lib V K F G W} {a : FitArgs N V} {p : FitData F Y P G} {lab : F → Prop} {okW : List F → Prop} {e : Est L V K F P G} {np : W}
    (hlib : LibOK lib a.nRows) (hg : GoodInput a.nRows a.X) (hm : 1 ≤ e.maxBins) (o : Outcome lib a p e np) (h : FitFacts lib a p lab okW e o.est) :
    EncoderByRules lib e o.est a := by
  obtain ⟨cfg, enc, he, hF, hm', h63, hlen, -, -⟩ := h.encoder
  have he0 : o.est.encoder = some (e.encCfg lib a.nRows o.ic, o.enc) := rfl
  rw [he0] at he
  injection he with he
  obtain ⟨rfl, rfl⟩ := Prod.mk.inj he
  refine ⟨_, _, rowsOf (subsetOf lib e a.nRows (seedsOf lib e np).2).1 a.nRows, _, rfl, learningRows_ok hlib e _, minCategories_ok lib _ _, ?_, ?_, ?_⟩
  · have henc := o.henc
    have hic := o.hic
    unfold ColumnsByRules
    cases hX : a.X with
    | frame X =>
      rw [hX] at henc hg hic
      have h' : ((List.range (X.map Prod.snd).length).zip (X.map Prod.snd)).mapM
          (fun q => fitSeries lib.conv (e.encCfg lib a.nRows o.ic) (subsetOf lib e a.nRows (seedsOf lib e np).2).1 q.1 q.2) = .ok o.enc := by
        simp only [encoderFit, fitDataFrame] at henc
        split at henc
        · split at henc
          · cases henc
          · exact henc
        · exact henc
      obtain ⟨hl, hf⟩ := fit_mapM h'
      intro j name s hj
      obtain ⟨hjX, hXj⟩ := List.getElem?_eq_some_iff.1 hj
      have hjl : j < (X.map Prod.snd).length := by simpa using hjX
      have hfj := hf j hjl
      have hs : (X.map Prod.snd)[j] = s := by simp [hXj]
      rw [hs] at hfj
      refine ⟨_, List.getElem?_eq_getElem (by omega), ?_⟩
      have hlen : s.cells.length = a.nRows := (hg.2 (name, s) (List.mem_of_getElem? hj)).1
      have := fitSeries_rules (cfg := e.encCfg lib a.nRows o.ic) hm hfj
      rw [hlen] at this
      rw [declaration_ok hic hjX]
      exact this
    | array kind X =>
      rw [hX] at henc hg hic
      rintro rfl j c hj
      have h' : ((List.range X.length).zip X).mapM
          (fun q => fitArrayCol lib.conv (e.encCfg lib a.nRows o.ic) (subsetOf lib e a.nRows (seedsOf lib e np).2).1 .uif q.1 q.2) = .ok o.enc := by
        simp only [encoderFit, fitArray] at henc
        split at henc
        · split at henc
          · cases henc
          · exact henc
        · exact henc
      obtain ⟨hl, hf⟩ := fit_mapM h'
      obtain ⟨hjX, hXj⟩ := List.getElem?_eq_some_iff.1 hj
      have hfj := hf j hjX
      rw [hXj] at hfj
      refine ⟨_, List.getElem?_eq_getElem (by omega), ?_⟩
      have hlen : c.length = a.nRows := hg.1 c (List.mem_of_getElem? hj)
      have := fitArrayCol_rules (cfg := e.encCfg lib a.nRows o.ic) hm hfj
      rw [hlen] at this
      rw [declaration_ok hic hjX]
      exact this
  · change o.enc.map FitCol.isCat = _
    refine List.map_congr_left fun fc _ => ?_
    cases fc <;> rfl
  · intro N' _ n X hn hX i j cs v hj hc hv
    have henc : o.est.encode lib n X = encoderTransform lib.conv (e.encCfg lib a.nRows o.ic) o.enc lib.words n X := rfl
    rw [henc]
    split
    · rename_i hu
      exact C06_unknown_raises hn hX lib.words (cfg := e.encCfg lib a.nRows o.ic) hu i j cs v hj hc hv
    · intro fba hb
      obtain ⟨fc, b, hj1, hg1, he1, _⟩ := ((C06_transform_correct hF hm' h63 hn hX lib.words).2 fba hb).2 i j _ hc
      rw [hj] at hj1; cases hj1
      rcases he1 with ⟨h, _⟩ | ⟨_, h⟩
      · exact absurd h hv
      · rw [hg1, h]

end

end Verif
