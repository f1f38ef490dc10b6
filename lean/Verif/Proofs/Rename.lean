import Verif.Proofs.RecodeEst
import Verif.Spec.Rename

/-! # Encoding and fitting with other names for categories -/
set_option linter.unusedSectionVars false
namespace Verif

open Spec

section
variable {V K : Type} [DecidableEq V] [LinearOrder K]

/-- The stored column with renamed categories. -/
def FitCol.rename (g : V → V) : FitCol V K → FitCol V K
  | .cat cs => .cat (cs.map g)
  | .num thr => .num thr

theorem FitCol.rename_id (fc : FitCol V K) : fc.rename id = fc := by cases fc <;> simp [FitCol.rename]

theorem FitCol.isCat_rename (g : V → V) (fc : FitCol V K) : (fc.rename g).isCat = fc.isCat := by cases fc <;> rfl

theorem idxOf_map {g : V → V} (hg : Function.Injective g) (l : List V) (v : V) : (l.map g).idxOf (g v) = l.idxOf v := by
  induction l with
  | nil => rfl
  | cons a l ih =>
    rw [List.map_cons, List.idxOf_cons, List.idxOf_cons, ih]
    by_cases h : a = v
    · subst h; simp
    · have : g a ≠ g v := fun e => h (hg e)
      simp [beq_eq_false_iff_ne.2 h, beq_eq_false_iff_ne.2 this]

theorem catCodes_map {g : V → V} (hg : Function.Injective g) (cs : List V) (cells : List (Option V)) :
    catCodes (cs.map g) (cells.map (Option.map g)) = catCodes cs cells := by
  unfold catCodes
  rw [List.map_map]
  refine List.map_congr_left fun c _ => ?_
  cases c with
  | none => simp
  | some v => simp [idxOf_map hg, hg.eq_iff]

/-- What a column has to satisfy. -/
def Renamable (g : V → V) (fc : FitCol V K) : Prop := g = id ∨ Function.Injective g ∧ ∃ cs, fc = .cat cs

theorem binnedCol_rename {f : V → Option K} (e : Err) {fc : FitCol V K} {g : V → V} (h : Renamable g fc) (mv : Nat) (cells : List (Option V)) :
    binnedCol f e (fc.rename g) mv (cells.map (Option.map g)) = binnedCol f e fc mv cells := by
  rcases h with rfl | ⟨hg, cs, rfl⟩
  · rw [FitCol.rename_id]; simp
  · simp only [FitCol.rename, binnedCol, catCodes_map hg]

theorem colMaxValue_rename {cfg : EncCfg K} {fc : FitCol V K} {g : V → V} (h : Renamable g fc) (hm : Bool) {cats cats' : List V}
    (hc : ∀ v, v ∈ cats' ↔ ∃ u ∈ cats, g u = v) : colMaxValue cfg (fc.rename g) hm cats' = colMaxValue cfg fc hm cats := by
  cases fc with
  | num thr => rfl
  | cat cs =>
    have hu : (cats'.any fun v => decide (v ∉ cs.map g)) = cats.any fun v => decide (v ∉ cs) := by
      rw [Bool.eq_iff_iff]
      simp only [List.any_eq_true, decide_eq_true_eq, hc]
      have hinj : Function.Injective g := by
        rcases h with rfl | h
        · exact Function.injective_id
        · exact h.1
      constructor
      · rintro ⟨_, ⟨u, hu, rfl⟩, h⟩
        exact ⟨u, hu, fun h' => h (List.mem_map_of_mem h')⟩
      · rintro ⟨u, hu, h⟩
        exact ⟨_, ⟨u, hu, rfl⟩, fun h' => h (by simpa [hinj.eq_iff] using h')⟩
    simp only [FitCol.rename, colMaxValue, hu, List.length_map]

variable [Field K]

theorem mem_catsOf_map (cv : Conv V K) (g : V → V) (cells : List (Option V)) (v : V) :
    v ∈ cv.catsOf (cells.map (Option.map g)) ↔ ∃ u ∈ cv.catsOf cells, g u = v := by
  simp only [cv.mem_catsOf, List.mem_map, Option.map_eq_some_iff]
  constructor
  · rintro ⟨_, h, u, rfl, rfl⟩; exact ⟨u, h, rfl⟩
  · rintro ⟨u, h, rfl⟩; exact ⟨_, h, u, rfl, rfl⟩

theorem encoderTransform_rename {N : Type} [DecidableEq N] {cv : Conv V K} {cfg : EncCfg K} {enc : List (FitCol V K)} {g : Nat → Word} {n : Nat}
    {ch : Nat → V → V} {D : Dataset N V} (hD : DistinctNames D) (hR : ∀ j fc, enc[j]? = some fc → Renamable (ch j) fc) :
    encoderTransform cv cfg (enc.mapIdx fun j fc => fc.rename (ch j)) g n (rename ch D) = encoderTransform cv cfg enc g n D := by
  have hR' : ∀ j (h : j < enc.length), Renamable (ch j) enc[j] := fun j h => hR j _ (List.getElem?_eq_getElem h)
  cases D with
  | frame X =>
    simp only [rename, encoderTransform]
    by_cases hX : X.length = enc.length
    · have hN : ((X.mapIdx fun j p => ((p.1, { kind := p.2.kind, cells := p.2.cells.map (Option.map (ch j)), dtypeCats := p.2.dtypeCats.map (ch j) }) :
          N × Series V)).map Prod.fst) = X.map Prod.fst := by
        refine List.ext_getElem (by simp) ?_
        intro i h1 h2
        simp
      rw [transformDataFrame_eq cv cfg enc g n X hX hD, transformDataFrame_eq cv cfg _ g n _ (by simpa using hX) (by rw [hN]; exact hD)]
      have hmv : (((enc.mapIdx fun j fc => fc.rename (ch j)).zip (X.mapIdx fun j p =>
            ((p.1, { kind := p.2.kind, cells := p.2.cells.map (Option.map (ch j)), dtypeCats := p.2.dtypeCats.map (ch j) }) : N × Series V))).mapM fun p =>
            colMaxValue cfg p.1 (p.2.2.cells.any (·.isNone)) (p.2.2.categories cv)) =
          (enc.zip X).mapM fun p => colMaxValue cfg p.1 (p.2.2.cells.any (·.isNone)) (p.2.2.categories cv) := by
        rw [mapM_zip_range _ _ (by simpa using hX), mapM_zip_range enc X hX, List.length_mapIdx]
        refine mapM_congr_mem fun j hj => ?_
        have hj : j < enc.length := by simpa using hj
        have h2 : j < X.length := by omega
        rw [rd_of_lt hj, rd_of_lt (by simpa using hj), rd_of_lt h2, rd_of_lt (by simpa using h2)]
        simp only [bind_ok, List.getElem_mapIdx, any_isNone_map]
        refine colMaxValue_rename (hR' j hj) _ fun v => ?_
        simp only [Series.categories]
        split
        · simp
        · exact mem_catsOf_map cv _ _ v
      rw [hmv]
      congr 1
      funext mvs
      unfold fillLoop
      rw [List.length_mapIdx]
      apply foldlM_congr_mem
      intro j hj b
      have hj : j < enc.length := by simpa using hj
      have h2 : j < X.length := by omega
      have h1 : j < (enc.mapIdx fun j fc => fc.rename (ch j)).length := by simpa using hj
      have h3 : j < (X.map fun p => p.2.cells).length := by simpa using h2
      have h4 : j < ((X.mapIdx fun j p => ((p.1, { kind := p.2.kind, cells := p.2.cells.map (Option.map (ch j)), dtypeCats := p.2.dtypeCats.map (ch j) }) :
          N × Series V)).map fun p => p.2.cells).length := by simpa using h2
      rw [rd_of_lt hj, rd_of_lt h1, rd_of_lt h3, rd_of_lt h4]
      simp only [bind_ok, List.getElem_mapIdx, List.getElem_map, binnedCol_rename _ (hR' j hj)]
    · unfold transformDataFrame
      rw [if_pos (by simpa using hX), if_pos hX]
  | array kind X =>
    simp only [rename, encoderTransform]
    unfold transformArray
    by_cases hX : X.length = enc.length
    · rw [if_neg (by simpa using hX), if_neg (not_not.2 hX)]
      by_cases hk : kind = .other
      · rw [if_pos hk, if_pos hk]
      rw [if_neg hk, if_neg hk]
      have hmv : (((enc.mapIdx fun j fc => fc.rename (ch j)).zip (X.mapIdx fun j c => c.map (Option.map (ch j)))).mapM fun p =>
            colMaxValue cfg p.1 (decide (kind = .uif) && p.2.any (·.isNone)) (cv.catsOf p.2)) =
          (enc.zip X).mapM fun p => colMaxValue cfg p.1 (decide (kind = .uif) && p.2.any (·.isNone)) (cv.catsOf p.2) := by
        rw [mapM_zip_range _ _ (by simpa using hX), mapM_zip_range enc X hX, List.length_mapIdx]
        refine mapM_congr_mem fun j hj => ?_
        have hj : j < enc.length := by simpa using hj
        have h2 : j < X.length := by omega
        rw [rd_of_lt hj, rd_of_lt (by simpa using hj), rd_of_lt h2, rd_of_lt (by simpa using h2)]
        simp only [bind_ok, List.getElem_mapIdx, any_isNone_map]
        exact colMaxValue_rename (hR' j hj) _ (mem_catsOf_map cv _ _)
      rw [hmv]
      congr 1
      funext mvs
      rw [List.length_mapIdx]
      apply foldlM_congr_mem
      intro j hj b
      have hj : j < enc.length := by simpa using hj
      have h2 : j < X.length := by omega
      have h1 : j < (enc.mapIdx fun j fc => fc.rename (ch j)).length := by simpa using hj
      have h3 : j < (X.mapIdx fun j c => c.map (Option.map (ch j))).length := by simpa using h2
      rw [rd_of_lt hj, rd_of_lt h1, rd_of_lt h2, rd_of_lt h3]
      simp only [bind_ok, List.getElem_mapIdx, binnedCol_rename _ (hR' j hj)]
    · rw [if_pos (by simpa using hX), if_pos hX]

/-! ## `fit` -/

variable [IsStrictOrderedRing K]

theorem fitSeries_rename {cv : Conv V K} {cfg : EncCfg K} {subset : Option (List Nat)} {j : Nat} {s : Series V} {g : V → V}
    (hg : Function.Injective g) (ho : s.kind = .category ∨ cv.catsOf (s.cells.map (Option.map g)) = (cv.catsOf s.cells).map g) {cs : List V}
    (h : fitSeries cv cfg subset j s = .ok (.cat cs)) :
    fitSeries cv cfg subset j { kind := s.kind, cells := s.cells.map (Option.map g), dtypeCats := s.dtypeCats.map g } = .ok (.cat (cs.map g)) := by
  unfold fitSeries at h ⊢
  rw [bind_eq_ok] at h
  obtain ⟨d, hd, h⟩ := h
  rw [bind_eq_ok] at h
  obtain ⟨t, ht, h⟩ := h
  rw [hd]
  simp only [bind_ok, (nunique_same (cells := s.cells) fun v w _ _ => @hg v w).1]
  rw [ht]
  simp only [bind_ok]
  cases t with
  | isCategory => injection h with h; injection h with h; subst h; rfl
  | toCategory =>
    injection h with h; injection h with h; subst h
    rcases ho with ho | ho
    · rw [ho] at ht
      unfold isSeriesCategorical at ht
      rw [if_pos (.inl rfl)] at ht
      split at ht <;> cases ht
    · simp only [ho]; rfl
  | numerical =>
    exfalso
    obtain ⟨x, -, h⟩ := bind_eq_ok.1 h
    obtain ⟨x, -, h⟩ := bind_eq_ok.1 h
    obtain ⟨x, -, h⟩ := bind_eq_ok.1 h
    injection h with h; cases h

theorem fitArrayCol_rename {cv : Conv V K} {cfg : EncCfg K} {subset : Option (List Nat)} {kind : Kind} {j : Nat} {cells : List (Option V)} {g : V → V}
    (hg : Function.Injective g) (ho : cv.catsOf (cells.map (Option.map g)) = (cv.catsOf cells).map g)
    (hn : ∀ v, some v ∈ cells → (cv.toFloat32 (g v)).isSome = (cv.toFloat32 v).isSome) {cs : List V}
    (h : fitArrayCol cv cfg subset kind j cells = .ok (.cat cs)) :
    fitArrayCol cv cfg subset kind j (cells.map (Option.map g)) = .ok (.cat (cs.map g)) := by
  have hc : ((cells.map (Option.map g)).all fun c => match c with
      | none => true
      | some v => (cv.toFloat32 v).isSome) = cells.all fun c => match c with
      | none => true
      | some v => (cv.toFloat32 v).isSome := by
    rw [List.all_map, Bool.eq_iff_iff]
    simp only [List.all_eq_true]
    refine forall_congr' fun c => forall_congr' fun hc => ?_
    cases c with
    | none => rfl
    | some v => simp only [Function.comp, Option.map_some, hn v hc]
  unfold fitArrayCol at h ⊢
  rw [bind_eq_ok] at h
  obtain ⟨d, hd, h⟩ := h
  rw [hd]
  simp only [bind_ok] at h ⊢
  rw [(nunique_same (cells := cells) fun v w _ _ => @hg v w).2]
  rw [bind_eq_ok] at h
  obtain ⟨t, ht, h⟩ := h
  refine bind_eq_ok.2 ⟨t, (congrArg _ hc).trans ht, ?_⟩
  cases t with
  | true => injection h with h; injection h with h; subst h; simp only [ho]; rfl
  | false =>
    exfalso
    simp only [Bool.false_eq_true, if_false] at h
    obtain ⟨x, -, h⟩ := bind_eq_ok.1 h
    obtain ⟨x, -, h⟩ := bind_eq_ok.1 h
    obtain ⟨x, -, h⟩ := bind_eq_ok.1 h
    injection h with h; cases h

theorem mapM_ok_mapIdx {α β γ δ : Type _} {F : Nat → α → M β} {G : Nat → α → γ} {H : Nat → γ → M δ} {R : Nat → β → δ} {l : List α} {r : List β}
    (h : ((List.range l.length).zip l).mapM (fun p => F p.1 p.2) = .ok r)
    (hs : ∀ j (hj : j < l.length) b, r[j]? = some b → F j l[j] = .ok b → H j (G j l[j]) = .ok (R j b)) :
    ((List.range (l.mapIdx G).length).zip (l.mapIdx G)).mapM (fun p => H p.1 p.2) = .ok (r.mapIdx R) := by
  rw [mapM_eq_ok, List.forall₂_iff_get] at h ⊢
  obtain ⟨h1, h2⟩ := h
  have hl : l.length = r.length := by simpa using h1
  refine ⟨by simp [hl], fun i hi hi' => ?_⟩
  have hi1 : i < l.length := by simpa using hi
  have := h2 i (by simpa using hi1) (by omega)
  simp only [List.get_eq_getElem, List.getElem_zip, List.getElem_range, List.getElem_mapIdx] at this ⊢
  exact hs i hi1 _ (List.getElem?_eq_getElem (by omega)) this

theorem fitDataFrame_ok {cv : Conv V K} {cfg : EncCfg K} {subset : Option (List Nat)} {X : List (Series V)} {enc : List (FitCol V K)} :
    fitDataFrame cv cfg subset X = .ok enc ↔ (∀ m, cfg.isCategorical = some m → m.length = X.length) ∧
      ((List.range X.length).zip X).mapM (fun p => fitSeries cv cfg subset p.1 p.2) = .ok enc := by
  unfold fitDataFrame
  cases cfg.isCategorical with
  | none => simp
  | some m =>
    by_cases h : m.length = X.length
    · simp [h]
    · simp only [ne_eq, h, not_false_eq_true, if_true, Option.some.injEq, forall_eq', false_and, iff_false]
      intro h; cases h

theorem fitArray_ok {cv : Conv V K} {cfg : EncCfg K} {subset : Option (List Nat)} {kind : Kind} {X : List (List (Option V))} {enc : List (FitCol V K)} :
    fitArray cv cfg subset kind X = .ok enc ↔ (∀ m, cfg.isCategorical = some m → m.length = X.length) ∧
      ((List.range X.length).zip X).mapM (fun p => fitArrayCol cv cfg subset kind p.1 p.2) = .ok enc := by
  unfold fitArray
  cases cfg.isCategorical with
  | none => simp
  | some m =>
    by_cases h : m.length = X.length
    · simp [h]
    · simp only [ne_eq, h, not_false_eq_true, if_true, Option.some.injEq, forall_eq', false_and, iff_false]
      intro h; cases h

theorem encoderFit_rename {N : Type} {cv : Conv V K} {cfg : EncCfg K} {subset : Option (List Nat)} {D : Dataset N V} {ch : Nat → V → V}
    {enc : List (FitCol V K)} (h : encoderFit cv cfg subset D = .ok enc)
    (hch : ∀ j fc, enc[j]? = some fc → ch j = id ∨ (∃ cs, fc = .cat cs) ∧ Renames cv D j (ch j)) :
    encoderFit cv cfg subset (rename ch D) = .ok (enc.mapIdx fun j fc => fc.rename (ch j)) := by
  cases D with
  | frame X =>
    simp only [encoderFit, rename] at h ⊢
    have hX : ((X.mapIdx fun j p => ((p.1, { kind := p.2.kind, cells := p.2.cells.map (Option.map (ch j)), dtypeCats := p.2.dtypeCats.map (ch j) }) :
        N × Series V)).map Prod.snd) = (X.map Prod.snd).mapIdx fun j s =>
          ({ kind := s.kind, cells := s.cells.map (Option.map (ch j)), dtypeCats := s.dtypeCats.map (ch j) } : Series V) := by
      refine List.ext_getElem (by simp) fun i h1 h2 => by simp
    rw [hX]
    obtain ⟨hu, h⟩ := fitDataFrame_ok.1 h
    refine fitDataFrame_ok.2 ⟨by simpa using hu, ?_⟩
    refine mapM_ok_mapIdx (F := fun j s => fitSeries cv cfg subset j s) (H := fun j s => fitSeries cv cfg subset j s) h fun j hj b hb hf => ?_
    have hj' : j < X.length := by simpa using hj
    rcases hch j b hb with hid | ⟨⟨cs, rfl⟩, hr⟩
    · rw [hid, FitCol.rename_id]
      simpa using hf
    · refine fitSeries_rename hr.inj ?_ hf
      rcases hr.order with ho | ho
      · obtain ⟨p, hp, hk⟩ := ho
        rw [List.getElem?_eq_getElem hj'] at hp
        obtain rfl := Option.some.inj hp
        left; simpa using hk
      · right
        simpa [cellsOf, List.getElem?_eq_getElem hj'] using ho
  | array kind X =>
    simp only [encoderFit, rename] at h ⊢
    obtain ⟨hu, h⟩ := fitArray_ok.1 h
    refine fitArray_ok.2 ⟨by simpa using hu, ?_⟩
    refine mapM_ok_mapIdx (F := fun j s => fitArrayCol cv cfg subset kind j s) (H := fun j s => fitArrayCol cv cfg subset kind j s) h fun j hj b hb hf => ?_
    rcases hch j b hb with hid | ⟨⟨cs, rfl⟩, hr⟩
    · rw [hid, FitCol.rename_id]
      simpa using hf
    · refine fitArrayCol_rename hr.inj ?_ ?_ hf
      · rcases hr.order with ho | ho
        · exact ho.elim
        · simpa [cellsOf, List.getElem?_eq_getElem hj] using ho
      · intro v hv
        refine hr.number v ?_
        obtain ⟨i, hi, e⟩ := List.getElem_of_mem hv
        exact ⟨i, by simp [cell, List.getElem?_eq_getElem hj, List.getElem?_eq_getElem hi, e]⟩

end

section
variable {L V K F Y P G W N : Type} [LinearOrder L] [DecidableEq V] [DecidableEq N] [LinearOrder K] [Field K] [IsStrictOrderedRing K]
  [FloorSemiring K] [Num F]

theorem nCols_rename (ch : Nat → V → V) (D : Dataset N V) : nCols (rename ch D) = nCols D := by
  cases D <;> simp [rename, nCols]

/-- The second half of `fit`, and encoding, with other names. -/
theorem fitRest_renameCats {lib : Lib V K F G W} {a : FitArgs N V} {p : FitData F Y P G} {s s' : World L V K F P G W} {ch : Nat → V → V}
    (hX : DistinctNames a.X) (h : fitRest lib a p s = (.ok (), s'))
    (hch : ∀ j, ch j = id ∨ s'.self.isCategorical_[j]? = some true ∧ Renames lib.conv a.X j (ch j)) :
    ∃ enc', fitRest lib { a with X := rename ch a.X } p s = (.ok (), { s' with self := withEncoder s'.self enc' }) ∧
      ∀ (N' : Type) [DecidableEq N'] (n : Nat) (E : Dataset N' V), DistinctNames E →
        (withEncoder s'.self enc').encode lib n (rename ch E) = s'.self.encode lib n E := by
  obtain ⟨o, rfl⟩ := fitRest_inv h
  have hcol : ∀ j fc, o.enc[j]? = some fc → ch j = id ∨ (∃ cs, fc = .cat cs) ∧ Renames lib.conv a.X j (ch j) := by
    intro j fc hfc
    rcases hch j with h | ⟨h1, h2⟩
    · exact .inl h
    · refine .inr ⟨?_, h2⟩
      simp only [Outcome.est, List.getElem?_map, hfc, Option.map_some, Option.some.injEq] at h1
      cases fc with
      | cat cs => exact ⟨cs, rfl⟩
      | num _ => cases h1
  have hR : ∀ j fc, o.enc[j]? = some fc → Renamable (ch j) fc := by
    intro j fc hfc
    rcases hcol j fc hfc with h | ⟨h1, h2⟩
    · exact .inl h
    · exact .inr ⟨h2.inj, h1⟩
  have henc' := encoderFit_rename o.henc hcol
  have hisc : (o.enc.mapIdx fun j fc => fc.rename (ch j)).map FitCol.isCat = o.enc.map FitCol.isCat := by
    refine List.ext_getElem (by simp) fun j h1 h2 => by simp [FitCol.isCat_rename]
  refine ⟨some (s.self.encCfg lib a.nRows o.ic, o.enc.mapIdx fun j fc => fc.rename (ch j)), ?_, fun N' _ n E hE => ?_⟩
  · let o' : Outcome lib { a with X := rename ch a.X } p s.self s.np :=
      { mf := o.mf, ic := o.ic, enc := o.enc.mapIdx fun j fc => fc.rename (ch j), fba := o.fba, trees := o.trees
        hmf := by simp only [nCols_rename]; exact o.hmf
        hrs := o.hrs
        hic := by simp only [nCols_rename]; exact o.hic
        hacc := o.hacc
        henc := henc'
        hfba := (encoderTransform_rename hX hR).trans o.hfba
        htrees := by rw [hisc]; exact o.htrees }
    rw [fitRest_ok o']
    simp only [Outcome.est, nCols_rename, withEncoder]
    rw [show o'.enc.map FitCol.isCat = o.enc.map FitCol.isCat from hisc]
    rfl
  · simp only [Est.encode, withEncoder, Outcome.est]
    exact encoderTransform_rename hE hR

end

end Verif
