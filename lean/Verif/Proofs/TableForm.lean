import Verif.Spec.TableForm
import Verif.Proofs.Encoder
import Verif.Proofs.ParamsEst
import Verif.Proofs.Recode

/-! The encoder treats a numerical table in the same way as a dataframe and as an array. -/
namespace Verif
open Spec

section
variable {V K N : Type} [DecidableEq V] [LinearOrder K] [Field K]

/-- The number of distinct cells also counts a missing cell. -/
theorem dedup_missing (c : List (Option V)) : c.dedup.length = (c.filterMap id).dedup.length + if none ∈ c then 1 else 0 := by
  induction c with
  | nil => rfl
  | cons a c ih =>
    cases a with
    | none =>
      by_cases h : none ∈ c
      · rw [List.dedup_cons_of_mem h, ih]
        simp [h]
      · rw [List.dedup_cons_of_notMem h, List.length_cons, ih]
        simp [h]
    | some v =>
      by_cases h : some v ∈ c
      · have h' : v ∈ c.filterMap id := by simpa using h
        rw [List.dedup_cons_of_mem h, ih, List.filterMap_cons_some (f := id) rfl, List.dedup_cons_of_mem h']
        simp
      · have h' : v ∉ c.filterMap id := by simpa using h
        rw [List.dedup_cons_of_notMem h, List.length_cons, ih, List.filterMap_cons_some (f := id) rfl, List.dedup_cons_of_notMem h']
        simp
        omega

omit [DecidableEq V] [LinearOrder K] [Field K] in
theorem toFloats_total {f : V → Option K} (e e' : Err) {cells : List (Option V)} (h : ∀ v, some v ∈ cells → (f v).isSome) :
    toFloats f e cells = toFloats f e' cells := by
  unfold toFloats
  refine mapM_congr_mem fun c hc => ?_
  cases c with
  | none => rfl
  | some v =>
    obtain ⟨y, hy⟩ := Option.isSome_iff_exists.1 (h v hc)
    simp [hy]

omit [DecidableEq V] in
theorem takeSubset_mem {subset : Option (List Nat)} {cells cells' : List (Option V)} (h : takeSubset subset cells = .ok cells') : ∀ c ∈ cells', c ∈ cells := by
  cases subset with
  | none => cases h; exact fun _ h => h
  | some idx =>
    have := mapM_eq_ok.1 h
    intro c hc
    obtain ⟨i, hi, rfl⟩ := List.getElem_of_mem hc
    have h2 := List.forall₂_iff_get.1 this
    have := h2.2 i (by rw [h2.1]; exact hi) hi
    exact List.mem_of_getElem? (rd_ok.1 this)

theorem fitCol_table (cv : Conv V K) (cfg : EncCfg K) (subset : Option (List Nat)) (j : Nat) {cells : List (Option V)}
    (hnum : ∀ v, some v ∈ cells → (cv.toFloat v).isSome)
    (hlim : cfg.isCategorical = none → none ∈ cells → (cells.filterMap id).dedup.length ≠ cfg.catMin) :
    fitSeries cv cfg subset j { kind := .uif, cells := cells } = fitArrayCol cv cfg subset .uif j cells := by
  have key : (takeSubset subset cells >>= fun cells => toFloats cv.toFloat .typeError cells >>= fun xs => findBinningThresholds cfg.cap xs cfg.maxBins >>= fun thr =>
      (pure (.num thr) : M (FitCol V K))) = (takeSubset subset cells >>= fun cells => toFloats cv.toFloat .valueError cells >>= fun xs =>
      findBinningThresholds cfg.cap xs cfg.maxBins >>= fun thr => pure (.num thr)) := by
    cases h : takeSubset subset cells with
    | error e => rfl
    | ok cells' =>
      rw [bind_ok, bind_ok, toFloats_total .typeError .valueError fun v hv => hnum v (takeSubset_mem h _ hv)]
  unfold fitSeries fitArrayCol
  unfold declared
  cases hc : cfg.isCategorical with
  | none =>
    simp only [bind_ok]
    simp only [isSeriesCategorical, arrayColCategorical, reduceCtorEq, or_self, if_false, if_true]
    have hl : (cells.filterMap id).dedup.length ≤ cfg.catMin ↔ cells.dedup.length ≤ cfg.catMin := by
      rw [dedup_missing]
      by_cases h : none ∈ cells
      · have := hlim hc h
        simp only [h, if_true]
        omega
      · simp [h]
    by_cases h : (cells.filterMap id).dedup.length ≤ cfg.catMin
    · rw [if_pos h, if_pos (hl.1 h)]
      rfl
    · rw [if_neg h, if_neg (fun h' => h (hl.2 h'))]
      exact key
  | some m =>
    simp only
    cases h : rd m j with
    | error e => rfl
    | ok b => cases b with
      | false => exact key
      | true => rfl

variable [DecidableEq N]

omit [DecidableEq V] [DecidableEq N] in
theorem zip_map_snd {names : List N} {cols : List (List (Option V))} (h : names.length = cols.length) :
    ((names.zip cols).map fun p => (p.1, ({ kind := .uif, cells := p.2 } : Series V))).map Prod.snd = cols.map fun c => { kind := .uif, cells := c } := by
  rw [List.map_map]
  show (names.zip cols).map ((fun c => ({ kind := .uif, cells := c } : Series V)) ∘ Prod.snd) = _
  rw [← List.map_map, List.map_snd_zip h.ge]

omit [DecidableEq N] in
theorem encoderFit_table {cv : Conv V K} {cfg : EncCfg K} (subset : Option (List Nat)) {names : List N} {cols : List (List (Option V))}
    (ht : IsTable cv.toFloat names cols) (hlim : cfg.isCategorical = none → NoneAtLimit cfg.catMin cols) :
    encoderFit cv cfg subset (tableFrame names cols) = encoderFit cv cfg subset (tableArray cols : Dataset N V) := by
  have key : ((List.range cols.length).zip (cols.map fun c => ({ kind := .uif, cells := c } : Series V))).mapM (fun p => fitSeries cv cfg subset p.1 p.2) =
      ((List.range cols.length).zip cols).mapM fun p => fitArrayCol cv cfg subset .uif p.1 p.2 := by
    rw [List.zip_map_right, List.mapM_map]
    refine mapM_congr_mem fun p hp => ?_
    have hm := (List.of_mem_zip hp).2
    exact fitCol_table cv cfg subset p.1 (ht.numbers _ hm) fun h => hlim h _ hm
  simp only [encoderFit, tableFrame, tableArray, fitDataFrame, fitArray, zip_map_snd ht.columns, List.length_map]
  cases cfg.isCategorical with
  | none => exact key
  | some m =>
    simp only
    by_cases h : m.length ≠ cols.length
    · rw [if_pos h, if_pos h]
      rfl
    · rw [if_neg h, if_neg h]
      exact key

omit [Field K] in
theorem encoderTransform_table {cv : Conv V K} {cfg : EncCfg K} {enc : List (FitCol V K)} (g : Nat → Word) (n : Nat) {names : List N} {cols : List (List (Option V))}
    (ht : IsTable cv.toFloat names cols) :
    encoderTransform cv cfg enc g n (tableFrame names cols) = encoderTransform cv cfg enc g n (tableArray cols : Dataset N V) := by
  have hl := ht.columns
  simp only [encoderTransform, tableFrame, tableArray, transformDataFrame, transformArray, decide_true, Bool.true_and, if_true]
  have hlen : ((names.zip cols).map fun p => (p.1, ({ kind := .uif, cells := p.2 } : Series V))).length = cols.length := by
    simp [hl]
  rw [hlen]
  by_cases he : cols.length ≠ enc.length
  · rw [if_pos he, if_pos he]
  rw [if_neg he, if_neg he, if_neg (by simp)]
  rw [dict_of_nodup _ (by
    rw [List.map_map]
    show ((names.zip cols).map Prod.fst).Nodup
    rw [List.map_fst_zip hl.le]
    exact ht.distinct)]
  have hmv : (enc.zip ((names.zip cols).map fun p => (p.1, ({ kind := .uif, cells := p.2 } : Series V)))).mapM
        (fun p => colMaxValue cfg p.1 (p.2.2.cells.any (·.isNone)) (p.2.2.categories cv)) =
      (enc.zip cols).mapM fun p => colMaxValue cfg p.1 (p.2.any (·.isNone)) (cv.catsOf p.2) := by
    have : cols = (names.zip cols).map Prod.snd := (List.map_snd_zip hl.ge).symm
    conv_rhs => rw [this]
    rw [List.zip_map_right, List.zip_map_right, List.mapM_map, List.mapM_map]
    refine mapM_congr_mem fun p _ => ?_
    simp [Series.categories]
  rw [hmv]
  cases h : (enc.zip cols).mapM fun p => colMaxValue cfg p.1 (p.2.any (·.isNone)) (cv.catsOf p.2) with
  | error e => rfl
  | ok mv =>
    rw [bind_ok, bind_ok, hlen]
    have hz : (List.range cols.length).zip ((names.zip cols).map fun p => (p.1, ({ kind := .uif, cells := p.2 } : Series V))) =
        (List.range cols.length).attach.map fun i => (i.1, ((names.zip cols)[i.1]'(by have := List.mem_range.1 i.2; simp [hl]; omega)).1,
          ({ kind := .uif, cells := ((names.zip cols)[i.1]'(by have := List.mem_range.1 i.2; simp [hl]; omega)).2 } : Series V)) := by
      apply List.ext_getElem
      · simp [hl]
      · intro i h1 h2
        simp
    rw [hz, List.foldlM_map]
    have hr : List.range enc.length = (List.range cols.length).attach.map Subtype.val := by
      rw [List.attach_map_subtype_val]
      congr 1
      omega
    rw [hr, List.foldlM_map]
    refine foldlM_congr_mem fun i _ b => ?_
    have hi := List.mem_range.1 i.2
    have hrd : rd cols i.1 = .ok cols[i.1] := rd_ok.2 (List.getElem?_eq_getElem hi)
    rw [hrd]
    simp only [bind_ok, List.getElem_zip]
    refine bind_congr fun fc => bind_congr fun m => ?_
    congr 1
    cases fc with
    | cat cs => rfl
    | num thr =>
      simp only [binnedCol]
      rw [toFloats_total .typeError .valueError (ht.numbers _ (List.getElem_mem hi))]

end

theorem Py.bind_congr_ok {S α β : Type} {m : Py S α} {f g : α → Py S β} {s : S} (h : ∀ a s', m s = (.ok a, s') → f a s' = g a s') : (m >>= f) s = (m >>= g) s := by
  show Py.bind m f s = Py.bind m g s
  unfold Py.bind
  split
  · rename_i a s' hm
    exact h a s' hm
  · rfl

section
variable {L V K F Y P G W N : Type} [LinearOrder L] [DecidableEq V] [DecidableEq N] [LinearOrder K] [Field K] [FloorSemiring K] [Num F]

theorem fitRest_table {lib : Lib V K F G W} {names : List N} {cols : List (List (Option V))} (ht : IsTable lib.conv.toFloat names cols)
    {nRows : Nat} {weights : Option Bool} {cf : CatFeatures} {rd tOK : Bool} (p : FitData F Y P G) {s : World L V K F P G W}
    (hlim : DeclaresColumns cf ∨ NoneAtLimit (s.self.catMin.value lib nRows) cols) :
    fitRest lib ⟨tableFrame names cols, nRows, weights, cf, rd, tOK⟩ p s = fitRest lib ⟨(tableArray cols : Dataset N V), nRows, weights, cf, rd, tOK⟩ p s := by
  have hn : (tableFrame names cols).nFeatures = (tableArray cols : Dataset N V).nFeatures := by
    simp [tableFrame, tableArray, Dataset.nFeatures, ht.columns]
  unfold fitRest
  simp only [hn]
  rw [Py.bind_of_ok (Py.read_apply _ s), Py.bind_of_ok (Py.read_apply _ s)]
  refine Py.bind_congr_ok fun mf _ _ => Py.bind_congr_ok fun _ _ _ => Py.bind_congr_ok fun _ _ _ => Py.bind_congr_ok fun ic s1 hic => Py.bind_congr_ok fun sub _ _ => ?_
  rw [Py.lift_apply] at hic
  have hic := (newEncoder_ok.1 (Prod.mk.inj hic).1).1
  rw [encoderFit_table sub ht (cfg := s.self.encCfg lib nRows ic) (by
    intro (h0 : ic = none)
    rcases hlim with h | h
    · exfalso
      subst h0
      cases cf with
      | none => exact h
      | other n => exact h
      | ints l =>
        have hl : l.length ≠ 0 := fun h' => h (List.length_eq_zero_iff.1 h')
        unfold getIsCategorical at hic
        simp only at hic
        rw [if_neg hl] at hic
        split at hic
        · cases hic
        · obtain ⟨_, _, h2⟩ := bind_eq_ok.1 hic
          cases h2
      | bools l =>
        have hl : l.length ≠ 0 := fun h' => h (List.length_eq_zero_iff.1 h')
        unfold getIsCategorical at hic
        simp only at hic
        rw [if_neg hl] at hic
        split at hic <;> cases hic
    · exact h)]
  refine Py.bind_congr_ok fun enc _ _ => Py.bind_congr_ok fun _ _ _ => ?_
  rw [encoderTransform_table lib.words nRows ht]

omit [LinearOrder L] [Field K] [FloorSemiring K] [Num F] in
theorem encode_table {lib : Lib V K F G W} {names : List N} {cols : List (List (Option V))} (ht : IsTable lib.conv.toFloat names cols)
    (e : Est L V K F P G) (n : Nat) : e.encode lib n (tableFrame names cols) = e.encode lib n (tableArray cols : Dataset N V) := by
  unfold Est.encode
  split
  · rfl
  · exact encoderTransform_table lib.words n ht

end

end Verif
