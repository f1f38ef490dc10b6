import Verif.Proofs.Encoder
import Verif.Proofs.Forest
import Verif.Spec.Estimator

/-! `fit` of the encoder succeeds on fittable data, and the fitted encoder accepts the data it was fitted on. -/
set_option linter.unusedSectionVars false
namespace Verif

open Spec

variable {V K N : Type} [DecidableEq V] [DecidableEq N] [LinearOrder K] [Field K] [IsStrictOrderedRing K]

theorem getIsCategorical_length {cf : CatFeatures} {n : Nat} {m : List Bool} (h : getIsCategorical cf n = .ok (some m)) :
    m.length = n := by
  unfold getIsCategorical at h
  split at h
  · cases h
  · split at h
    · cases h
    · split at h
      · cases h
      · rw [bind_eq_ok] at h
        obtain ⟨mask, h1, h2⟩ := h
        injection h2 with h2
        injection h2 with h2
        subst h2
        exact foldlM_inv_of_ok (fun _ (m : List Bool) => m.length = n) List.length_replicate h1
          (fun _ _ _ s s' _ h1 h2 => by rw [(wr_ok.1 h2).2, List.length_set]; exact h1)
  · split at h
    · cases h
    · split at h
      · cases h
      · rename_i h1
        injection h with h
        injection h with h
        subst h
        push Not at h1
        exact h1
  · split at h <;> cases h

theorem catsOf_length (cv : Conv V K) (c : List (Option V)) : (cv.catsOf c).length ≤ c.length := by
  have h : (cv.catsOf c).map some ⊆ c := fun x hx => by
    obtain ⟨v, hv, rfl⟩ := List.mem_map.1 hx
    exact (cv.mem_catsOf _ _).1 hv
  have h2 : ((cv.catsOf c).map some).Nodup := (cv.catsOf_nodup c).map (Option.some_injective _)
  have := (List.Nodup.subperm h2 h).length_le
  simpa using this

theorem takeSubset_total {subset : Option (List Nat)} {cells : List (Option V)} (h : ∀ l, subset = some l → ∀ i ∈ l, i < cells.length) :
    ∃ r, takeSubset subset cells = .ok r ∧ ∀ x ∈ r, x ∈ cells := by
  unfold takeSubset
  cases subset with
  | none => exact ⟨_, rfl, fun _ h => h⟩
  | some l =>
    obtain ⟨r, hr⟩ := mapM_total (f := rd cells) (l := l) fun i hi => ⟨_, rd_of_lt (h l rfl i hi)⟩
    refine ⟨r, hr, fun x hx => ?_⟩
    obtain ⟨i, _, hi⟩ := mapM_mem_inv hr hx
    exact List.mem_of_getElem? (rd_ok.1 hi)

theorem declared_total {cfg : EncCfg K} {d j : Nat} (h : ∀ m, cfg.isCategorical = some m → m.length = d) (hj : j < d) :
    ∃ r, declared cfg j = .ok r ∧ ∀ m, cfg.isCategorical = some m → m[j]? = r := by
  unfold declared
  cases hc : cfg.isCategorical with
  | none => exact ⟨none, rfl, fun m h => by cases h⟩
  | some m =>
    have hl := h m hc
    refine ⟨some m[j], by simp only [rd_of_lt (show j < m.length by omega), bind_ok]; rfl, fun m' h' => ?_⟩
    cases h'
    exact List.getElem?_eq_getElem (by omega)

/-- The outcome of fitting one column that matters afterwards. -/
structure ColFit (cv : Conv V K) (maxBins : Nat) (num : V → Option K) (cells : List (Option V)) (cats : List V) (fc : FitCol V K) : Prop where
  bins : fc.nBins ≤ max maxBins cats.length
  known : ∀ cs, fc = .cat cs → ∀ v ∈ cats, v ∈ cs
  numbers : ∀ thr, fc = .num thr → ∀ v, some v ∈ cells → (num v).isSome

theorem fitNumerical_total {cv : Conv V K} {cfg : EncCfg K} (hm : 1 ≤ cfg.maxBins) {subset : Option (List Nat)}
    {cells : List (Option V)} (e : Err) (hs : ∀ l, subset = some l → ∀ i ∈ l, i < cells.length)
    (hf : ∀ v, some v ∈ cells → (cv.toFloat v).isSome) :
    ∃ thr, (do
      let cells ← takeSubset subset cells
      let xs ← toFloats cv.toFloat e cells
      let thr ← findBinningThresholds cfg.cap xs cfg.maxBins
      return FitCol.num thr : M (FitCol V K)) = .ok (.num thr) ∧ thr.length + 1 ≤ cfg.maxBins := by
  obtain ⟨r, h1, h2⟩ := takeSubset_total hs
  obtain ⟨xs, h3⟩ := toFloats_of e (fun v hv => hf v (h2 _ hv))
  obtain ⟨thr, h4, _, _, h5, _⟩ := findBinningThresholds_spec cfg.cap xs cfg.maxBins hm
  refine ⟨thr, by rw [h1, bind_ok, h3, bind_ok, h4, bind_ok]; rfl, ?_⟩
  omega

theorem fitSeries_total {cv : Conv V K} {cfg : EncCfg K} (hm : 1 ≤ cfg.maxBins) {subset : Option (List Nat)} {d j n : Nat}
    (hc : ∀ m, cfg.isCategorical = some m → m.length = d) (hj : j < d) {s : Series V} (hg : GoodSeries n s)
    (hs : ∀ l, subset = some l → ∀ i ∈ l, i < n) (hk : s.kind ≠ .other)
    (hf : s.kind = .uif → ∀ v, some v ∈ s.cells → (cv.toFloat v).isSome) :
    ∃ fc, fitSeries cv cfg subset j s = .ok fc ∧ ColFit cv cfg.maxBins cv.toFloat s.cells (s.categories cv) fc := by
  obtain ⟨r, h1, _⟩ := declared_total hc hj
  unfold fitSeries
  rw [h1, bind_ok]
  have ht : ∃ t, isSeriesCategorical s.kind r (s.cells.filterMap id).dedup.length cfg.catMin = .ok t ∧
      (t = .isCategory → s.kind = .category) ∧ (t = .toCategory → s.kind ≠ .category) ∧ (t = .numerical → s.kind = .uif) := by
    unfold isSeriesCategorical
    rcases r with _ | _ | _ <;> cases hk' : s.kind <;> simp_all
    split <;> simp
  obtain ⟨t, h2, k1, k2, k3⟩ := ht
  rw [h2, bind_ok]
  cases t with
  | isCategory =>
    refine ⟨_, rfl, ?_, ?_, ?_⟩
    · simp [FitCol.nBins, Series.categories, k1 rfl]
    · intro cs h; cases h; simp [Series.categories, k1 rfl]
    · intro thr h; cases h
  | toCategory =>
    refine ⟨_, rfl, ?_, ?_, ?_⟩
    · simp [FitCol.nBins, Series.categories, k2 rfl]
    · intro cs h; cases h; simp [Series.categories, k2 rfl]
    · intro thr h; cases h
  | numerical =>
    obtain ⟨thr, h3, h4⟩ := fitNumerical_total (cv := cv) hm .typeError (by rw [hg.1]; exact hs) (hf (k3 rfl))
    refine ⟨_, h3, ?_, ?_, ?_⟩
    · simp only [FitCol.nBins]; omega
    · intro cs h; cases h
    · intro _ _; exact hf (k3 rfl)

theorem fitArrayCol_total {cv : Conv V K} {cfg : EncCfg K} (hm : 1 ≤ cfg.maxBins) {subset : Option (List Nat)} {d j n : Nat} {kind : Kind}
    (hc : ∀ m, cfg.isCategorical = some m → m.length = d) (hj : j < d) {c : List (Option V)} (hg : c.length = n)
    (hs : ∀ l, subset = some l → ∀ i ∈ l, i < n)
    (hf : (kind = .uif ∧ ∀ v, some v ∈ c → (cv.toFloat v).isSome) ∨
      (kind = .bOSU ∧ ((∀ v, some v ∈ c → (cv.toFloat v).isSome ∧ (cv.toFloat32 v).isSome) ∨
        ((∃ v, some v ∈ c ∧ cv.toFloat32 v = none) ∧ ∀ m, cfg.isCategorical = some m → m[j]? ≠ some false)))) :
    ∃ fc, fitArrayCol cv cfg subset kind j c = .ok fc ∧
      ColFit cv cfg.maxBins (if kind = .uif then cv.toFloat else cv.toFloat32) c (cv.catsOf c) fc := by
  obtain ⟨r, h1, h1'⟩ := declared_total hc hj
  unfold fitArrayCol
  rw [h1, bind_ok]
  simp only
  have hr : r = some false → ∃ m, cfg.isCategorical = some m := by
    intro hr
    cases hcc : cfg.isCategorical with
    | some m => exact ⟨m, rfl⟩
    | none => simp only [declared, hcc] at h1; cases h1; cases hr
  have ht : ∀ ca : Bool, (ca = true ↔ ∀ v, some v ∈ c → (cv.toFloat32 v).isSome) →
      ∃ t, arrayColCategorical kind r c.dedup.length cfg.catMin ca = .ok t ∧ (t = false → (∀ v, some v ∈ c → (cv.toFloat v).isSome) ∧
        ∀ v, some v ∈ c → ((if kind = .uif then cv.toFloat else cv.toFloat32) v).isSome) := by
    intro ca hca
    rcases hf with ⟨rfl, hf⟩ | ⟨rfl, hf | ⟨⟨v, hv, hv'⟩, hf⟩⟩
    · unfold arrayColCategorical
      rcases r with _ | _ | _ <;> simp
      · rcases Nat.lt_or_ge cfg.catMin c.dedup.length with h | h
        · exact Or.inl ⟨h, hf⟩
        · exact Or.inr h
      · exact hf
    · have k2 : ∀ v, some v ∈ c → (cv.toFloat32 v).isSome := fun v hv => (hf v hv).2
      have k1 : ∀ v, some v ∈ c → (cv.toFloat v).isSome := fun v hv => (hf v hv).1
      rw [hca.2 k2]
      unfold arrayColCategorical
      rcases r with _ | _ | _ <;> simp
      · rcases Nat.lt_or_ge cfg.catMin c.dedup.length with h | h
        · exact Or.inl ⟨h, k1, k2⟩
        · exact Or.inr h
      · exact ⟨k1, k2⟩
    · have : ca = false := by
        rw [← Bool.not_eq_true, hca]
        intro h
        have := h v hv
        rw [hv'] at this
        cases this
      rw [this]
      have : r ≠ some false := by
        intro hrf
        obtain ⟨m, hcc⟩ := hr hrf
        exact hf m hcc (by rw [h1' m hcc, hrf])
      unfold arrayColCategorical
      rcases r with _ | _ | _ <;> simp at this ⊢
  generalize hca : (c.all _) = ca
  replace ht := ht ca (by
    rw [← hca, List.all_eq_true]
    constructor
    · intro h v hv; exact h _ hv
    · intro h x hx
      cases x with
      | none => rfl
      | some v => exact h v hx)
  obtain ⟨t, h2, k⟩ := ht
  rw [h2, bind_ok]
  cases t with
  | true =>
    refine ⟨.cat (cv.catsOf c), rfl, ?_, ?_, ?_⟩
    · simp [FitCol.nBins]
    · intro cs h; cases h; exact fun _ h => h
    · intro thr h; cases h
  | false =>
    obtain ⟨k1, k2⟩ := k rfl
    obtain ⟨thr, h3, h4⟩ := fitNumerical_total (cv := cv) hm .valueError (by rw [hg]; exact hs) k1
    refine ⟨_, h3, ?_, ?_, ?_⟩
    · simp only [FitCol.nBins]; omega
    · intro cs h; cases h
    · intro _ _; exact k2

theorem zip_range_mapM {α : Type} {X : List α} {Fn : Nat → α → M (FitCol V K)} (h : ∀ (j : Nat) (hj : j < X.length), ∃ fc, Fn j X[j] = .ok fc) :
    ∃ enc, ((List.range X.length).zip X).mapM (fun p => Fn p.1 p.2) = .ok enc := by
  refine mapM_total fun p hp => ?_
  obtain ⟨k, hk, rfl⟩ := List.getElem_of_mem hp
  simp at hk ⊢
  exact h k hk

/-- `fit` succeeds; the fitted encoder is small and accepts the data. -/
theorem encoderFit_total {cv : Conv V K} {cfg : EncCfg K} (hm : 1 ≤ cfg.maxBins) (hm' : cfg.maxBins < 2 ^ 63) {subset : Option (List Nat)}
    {n : Nat} (hn : n < 2 ^ 63) {D : Dataset N V} (hg : GoodInput n D) (hsm : SmallDtypes D)
    (hc : ∀ m, cfg.isCategorical = some m → m.length = nCols D) (hs : ∀ l, subset = some l → ∀ i ∈ l, i < n)
    (hf : Fittable cv cfg.isCategorical D) :
    ∃ enc, encoderFit cv cfg subset D = .ok enc ∧ FittedOn cv cfg D enc ∧ (∀ fc ∈ enc, fc.nBins < 2 ^ 63) ∧
      Acceptable cv cfg enc D := by
  cases D with
  | frame X =>
    obtain ⟨_, hX⟩ := hg
    have hcol : ∀ (j : Nat) (hj : j < (X.map Prod.snd).length), ∃ fc, fitSeries cv cfg subset j (X.map Prod.snd)[j] = .ok fc ∧
        ColFit cv cfg.maxBins cv.toFloat (X.map Prod.snd)[j].cells ((X.map Prod.snd)[j].categories cv) fc := by
      intro j hj
      have hj' : j < X.length := by simpa using hj
      rw [List.getElem_map]
      have hmem := List.getElem_mem hj'
      exact fitSeries_total hm hc hj' (hX _ hmem) hs (hf _ hmem).1 (hf _ hmem).2
    obtain ⟨enc, he⟩ := zip_range_mapM (fun j hj => let ⟨fc, h, _⟩ := hcol j hj; ⟨fc, h⟩)
    have hfit : encoderFit cv cfg subset (.frame X) = .ok enc := by
      simp only [encoderFit, fitDataFrame]
      cases hcc : cfg.isCategorical with
      | none => exact he
      | some m =>
        have := hc m hcc
        simp only [nCols] at this
        simp only [List.length_map, this, ne_eq, not_true_eq_false, if_false]
        simpa using he
    obtain ⟨hl, hfc⟩ := fit_mapM he
    have hlX : enc.length = X.length := by simpa using hl
    have key : ∀ (j : Nat) (hj : j < X.length), ColFit cv cfg.maxBins cv.toFloat X[j].2.cells (X[j].2.categories cv) (enc[j]'(by omega)) := by
      intro j hj
      obtain ⟨fc, h1, h2⟩ := hcol j (by simpa using hj)
      rw [hfc j (by simpa using hj)] at h1
      injection h1 with h1
      subst h1
      simpa using h2
    refine ⟨enc, hfit, ⟨subset, hfit, n, hX⟩, ?_, hlX.symm, ?_, ?_⟩
    · intro fc hfc
      obtain ⟨j, hj, rfl⟩ := List.getElem_of_mem hfc
      have hj' : j < X.length := by omega
      have hb := (key j hj').bins
      have hcl : (X[j].2.categories cv).length < 2 ^ 63 := by
        unfold Series.categories
        split
        · exact hsm _ (List.getElem_mem hj')
        · have h1 := catsOf_length cv X[j].2.cells
          have h2 := (hX _ (List.getElem_mem hj')).1
          omega
      omega
    · intro i j v thr hj hcell
      obtain ⟨hj', he⟩ := List.getElem?_eq_some_iff.1 hj
      have hjX : j < X.length := by omega
      simp only [cell, Option.bind_eq_some_iff] at hcell
      obtain ⟨p, hp, hcell⟩ := hcell
      obtain ⟨_, rfl⟩ := List.getElem?_eq_some_iff.1 hp
      exact (key j hjX).numbers thr he v (List.mem_of_getElem? hcell)
    · intro _ j p cs hp hj
      obtain ⟨_, rfl⟩ := List.getElem?_eq_some_iff.1 hp
      obtain ⟨_, he⟩ := List.getElem?_eq_some_iff.1 hj
      exact (key j _).known cs he
  | array kind X =>
    have hk : kind = .uif ∨ kind = .bOSU := by
      cases kind <;> simp [Fittable] at hf ⊢
    have hcol : ∀ (j : Nat) (hj : j < X.length), ∃ fc, fitArrayCol cv cfg subset kind j X[j] = .ok fc ∧
        ColFit cv cfg.maxBins (if kind = .uif then cv.toFloat else cv.toFloat32) X[j] (cv.catsOf X[j]) fc := by
      intro j hj
      have hmem := List.getElem_mem hj
      refine fitArrayCol_total hm hc hj (hg.1 _ hmem) hs ?_
      rcases hk with rfl | rfl
      · exact Or.inl ⟨rfl, hf _ hmem⟩
      · exact Or.inr ⟨rfl, hf j _ (List.getElem?_eq_getElem hj)⟩
    obtain ⟨enc, he⟩ := zip_range_mapM (fun j hj => let ⟨fc, h, _⟩ := hcol j hj; ⟨fc, h⟩)
    have hfit : encoderFit (N := N) cv cfg subset (.array kind X) = .ok enc := by
      simp only [encoderFit, fitArray]
      cases hcc : cfg.isCategorical with
      | none => exact he
      | some m =>
        have := hc m hcc
        simp only [nCols] at this
        simp only [this, ne_eq, not_true_eq_false, if_false]
        exact he
    obtain ⟨hlX, hfc⟩ := fit_mapM he
    have key : ∀ (j : Nat) (hj : j < X.length), ColFit cv cfg.maxBins (if kind = .uif then cv.toFloat else cv.toFloat32) X[j]
        (cv.catsOf X[j]) (enc[j]'(by omega)) := by
      intro j hj
      obtain ⟨fc, h1, h2⟩ := hcol j hj
      rw [hfc j hj] at h1
      injection h1 with h1
      subst h1
      exact h2
    refine ⟨enc, hfit, ⟨subset, hfit, by rcases hk with rfl | rfl <;> dsimp only <;> decide⟩, ?_, hlX.symm, ?_, by rcases hk with rfl | rfl <;> decide, ?_⟩
    · intro fc hfc
      obtain ⟨j, hj, rfl⟩ := List.getElem_of_mem hfc
      have hj' : j < X.length := by omega
      have hb := (key j hj').bins
      have h1 := catsOf_length cv X[j]
      have h2 := hg.1 _ (List.getElem_mem hj')
      omega
    · intro i j v thr hj hcell
      obtain ⟨hj', he⟩ := List.getElem?_eq_some_iff.1 hj
      have hjX : j < X.length := by omega
      simp only [cell, Option.bind_eq_some_iff] at hcell
      obtain ⟨p, hp, hcell⟩ := hcell
      obtain ⟨_, rfl⟩ := List.getElem?_eq_some_iff.1 hp
      have := (key j hjX).numbers thr he v (List.mem_of_getElem? hcell)
      simp only [numOf]
      split <;> simp_all
    · intro _ j c cs hp hj v hv
      obtain ⟨_, rfl⟩ := List.getElem?_eq_some_iff.1 hp
      obtain ⟨_, he⟩ := List.getElem?_eq_some_iff.1 hj
      exact (key j _).known cs he v ((cv.mem_catsOf _ _).2 hv)

end Verif
