import Verif.Proofs.Encoder
import Verif.Spec.EncoderObj

/-! Lemmas about the encoder as an object. -/
namespace Verif
open Spec

section
variable {V K F G W N : Type} [DecidableEq V] [DecidableEq N] [LinearOrder K] [Field K]

omit [DecidableEq V] [DecidableEq N] [LinearOrder K] [Field K] in
theorem checkX_eq {o : EncObj V K} {X : Dataset N V} : o.checkX X = true ↔ Looks o.isCategorical X := by
  unfold EncObj.checkX Looks
  rw [Bool.and_eq_true]
  refine and_congr ?_ ?_
  · cases X with
    | frame X => simp
    | array kind X => simp
  · cases o.isCategorical with
    | none => simp
    | some m => simp

omit [DecidableEq V] [DecidableEq N] [LinearOrder K] [Field K] in
theorem fitColAt_eq (enc : List (FitCol V K)) {j : Nat} (h : j < enc.length) : fitColAt enc j = rd enc j := by
  unfold fitColAt
  rw [List.getElem?_eq_getElem h]
  exact (rd_ok.2 (List.getElem?_eq_getElem h)).symm

omit [DecidableEq V] [DecidableEq N] [LinearOrder K] [Field K] in
/-- Looking up the fitted columns one after the other. -/
theorem mapM_fitColAt {α β : Type} (f : FitCol V K × α → M β) (X : List α) (enc : List (FitCol V K)) (h : enc.length = X.length) :
    ((List.range X.length).zip X).mapM (fun p => do let fc ← fitColAt enc p.1; f (fc, p.2)) = (enc.zip X).mapM f := by
  have key : ∀ (X : List α) (enc pre : List (FitCol V K)), enc.length = X.length →
      ((List.range' pre.length X.length).zip X).mapM (fun p => do let fc ← fitColAt (pre ++ enc) p.1; f (fc, p.2)) = (enc.zip X).mapM f := by
    intro X
    induction X with
    | nil => intro enc pre h; simp
    | cons x X ih =>
      intro enc pre h
      cases enc with
      | nil => simp at h
      | cons c enc =>
        rw [List.length_cons, List.range'_succ, List.zip_cons_cons, List.zip_cons_cons, List.mapM_cons, List.mapM_cons]
        have e := ih enc (pre ++ [c]) (by simpa using h)
        rw [List.length_append, List.length_singleton, List.append_assoc, List.singleton_append] at e
        rw [e]
        have : fitColAt (pre ++ c :: enc) pre.length = .ok c := by unfold fitColAt; simp
        simp only [this, bind_ok]
  have := key X enc [] h
  rwa [List.length_nil, List.nil_append, ← List.range_eq_range'] at this

omit [DecidableEq V] in
theorem length_dictFold (X : List (N × Series V)) (d : List (N × Series V)) :
    (X.foldl (fun d p => dictSet d p.1 p.2) d).length ≤ d.length + X.length := by
  induction X generalizing d with
  | nil => simp
  | cons x X ih =>
    rw [List.foldl_cons]
    refine (ih _).trans ?_
    unfold dictSet
    split
    · simp
    · simp [Nat.add_assoc, Nat.add_comm 1]

omit [Field K] in
/-- With as many fitted columns as `n_features_in_` says, `transform` is the function of Model/Encoder.lean. -/
theorem transform_eq (lib : Lib V K F G W) {o : EncObj V K} (hf : o.fitted = true) (hc : o.cols.length = o.nFeatures) (garbage : Nat → Word) (n : Nat)
    (X : Dataset N V) (hl : Looks o.isCategorical X) (cfg : EncCfg K) (hcfg : cfg.handleUnknownError = o.handleUnknownError) :
    o.transform lib garbage n X = encoderTransform lib.conv cfg o.cols garbage n X := by
  unfold EncObj.transform
  rw [hf, checkX_eq.2 hl]
  simp only [Bool.not_true, Bool.false_eq_true, if_false]
  have hcol : ∀ fc b cats, colMaxValue (V := V) (o.cfg lib 0) fc b cats = colMaxValue cfg fc b cats := by
    intro fc b cats
    unfold colMaxValue EncObj.cfg
    rw [hcfg]
  cases X with
  | frame X =>
    simp only [encoderTransform, transformDataFrame]
    rw [hc]
    by_cases hx : (Dataset.frame X).nFeatures = o.nFeatures
    swap
    · rw [if_pos hx, if_pos (show X.length ≠ o.nFeatures from hx)]
    · rw [if_neg (not_not.2 hx), if_neg (show ¬ X.length ≠ o.nFeatures from not_not.2 hx)]
      replace hx : X.length = o.nFeatures := hx
      rw [← mapM_fitColAt (fun p => colMaxValue cfg p.1 (p.2.2.cells.any (·.isNone)) (p.2.2.categories lib.conv)) X o.cols (by rw [hc, hx])]
      simp only [hcol]
      congr 1
      funext mvs
      refine foldlM_congr_mem fun p hp b => ?_
      have := List.of_mem_zip hp
      have hlt : p.1 < o.cols.length := by
        have h1 := List.mem_range.1 this.1
        have h2 := length_dictFold X []
        simp only [List.length_nil, zero_add] at h2
        rw [hc, ← hx]
        omega
      rw [fitColAt_eq _ hlt]
  | array kind X =>
    simp only [encoderTransform, transformArray]
    rw [hc]
    have hk : kind ≠ .other := hl.1 kind X rfl
    simp only [hk, if_false]
    by_cases hx : (Dataset.array (N := N) kind X).nFeatures = o.nFeatures
    swap
    · rw [if_pos hx, if_pos (show X.length ≠ o.nFeatures from hx)]
    · rw [if_neg (not_not.2 hx), if_neg (show ¬ X.length ≠ o.nFeatures from not_not.2 hx)]
      replace hx : X.length = o.nFeatures := hx
      rw [← mapM_fitColAt (fun p => colMaxValue cfg p.1 (decide (kind = .uif) && p.2.any (·.isNone)) (lib.conv.catsOf p.2)) X o.cols (by rw [hc, hx])]
      simp only [hcol]
      congr 1
      funext mvs
      refine foldlM_congr_mem fun j hj b => ?_
      rw [fitColAt_eq _ (by rw [hc]; exact List.mem_range.1 hj)]

omit [DecidableEq V] [LinearOrder K] [Field K] in
theorem inverse_eq {o : EncObj V K} (hf : o.fitted = true) (hc : o.cols.length = o.nFeatures) (b : FBA) :
    o.inverse b = inverseTransform o.cols b := by
  unfold EncObj.inverse inverseTransform
  rw [hf]
  simp only [Bool.not_true, Bool.false_eq_true, if_false]
  congr 1
  funext p
  obtain ⟨_, cols⟩ := p
  simp only
  rw [← hc]
  have key : ∀ (enc pre : List (FitCol V K)),
      (List.range' pre.length enc.length).mapM (fun j => do let c ← rd cols j; let fc ← fitColAt (pre ++ enc) j; inverseCol fc c) =
      ((List.range' pre.length enc.length).zip enc).mapM (fun p => do let c ← rd cols p.1; inverseCol p.2 c) := by
    intro enc
    induction enc with
    | nil => intro pre; simp
    | cons x enc ih =>
      intro pre
      rw [List.length_cons, List.range'_succ, List.zip_cons_cons, List.mapM_cons, List.mapM_cons]
      have e := ih (pre ++ [x])
      rw [List.length_append, List.length_singleton, List.append_assoc, List.singleton_append] at e
      rw [e]
      have : fitColAt (pre ++ x :: enc) pre.length = .ok x := by unfold fitColAt; simp
      simp only [this, bind_ok]
  have := key o.cols []
  rwa [List.length_nil, List.nil_append, ← List.range_eq_range'] at this

omit [DecidableEq N] in
theorem encoderFit_length {cv : Conv V K} {cfg : EncCfg K} {subset : Option (List Nat)} {X : Dataset N V} {cols : List (FitCol V K)}
    (h : encoderFit cv cfg subset X = .ok cols) : cols.length = X.nFeatures := by
  cases X with
  | frame X =>
    have h' : fitDataFrame cv cfg subset (X.map Prod.snd) = .ok cols := h
    unfold fitDataFrame at h'
    have : ∀ (r : M (List (FitCol V K))), r = ((List.range (X.map Prod.snd).length).zip (X.map Prod.snd)).mapM (fun p => fitSeries cv cfg subset p.1 p.2) →
        r = .ok cols → cols.length = X.length := fun r h1 h2 => by
      rw [h1] at h2
      have := (mapM_eq_ok.1 h2).length_eq
      simpa using this.symm
    simp only at h'
    split at h'
    · split at h'
      · cases h'
      · exact this _ rfl h'
    · exact this _ rfl h'
  | array kind X =>
    have h' : fitArray cv cfg subset kind X = .ok cols := h
    unfold fitArray at h'
    have : ∀ (r : M (List (FitCol V K))), r = ((List.range X.length).zip X).mapM (fun p => fitArrayCol cv cfg subset kind p.1 p.2) →
        r = .ok cols → cols.length = X.length := fun r h1 h2 => by
      rw [h1] at h2
      have := (mapM_eq_ok.1 h2).length_eq
      simpa using this.symm
    simp only at h'
    split at h'
    · split at h'
      · cases h'
      · exact this _ rfl h'
    · exact this _ rfl h'

omit [DecidableEq N] in
/-- A call of `fit` that succeeds. -/
theorem encFit_ok {lib : Lib V K F G W} {choose : Nat → Nat → M (List Nat)} {n : Nat} {X : Dataset N V} {o o' : EncObj V K}
    (h : o.fit lib choose n X = (.ok (), o')) :
    Looks o.isCategorical X ∧ 1 ≤ n ∧ 1 ≤ X.nFeatures ∧ ∃ c subset cols, o.catMin = some c ∧ o.subset choose n = .ok subset ∧
      encoderFit lib.conv (o.cfg lib (c.value lib n)) subset X = .ok cols ∧
      o' = { o with nSamples := n, nFeatures := X.nFeatures, catMin_ := c.value lib n, cols := cols, fitted := true } := by
  unfold EncObj.fit at h
  split at h
  · cases h
  · rename_i h1
    split at h
    · cases h
    · rename_i h2
      simp only at h
      split at h
      · cases h
      · rename_i h3
        split at h
        · cases h
        · rename_i subset h4
          split at h
          · cases h
          · rename_i c h5
            split at h
            · cases h
            · rename_i cols h6
              refine ⟨checkX_eq.1 (by simpa using h1), by omega, by omega, c, subset, cols, h5, h4, h6, ?_⟩
              exact (Prod.mk.inj h).2.symm

omit [DecidableEq N] in
/-- A call of `fit` that fails. -/
theorem encFit_error {lib : Lib V K F G W} {choose : Nat → Nat → M (List Nat)} {n : Nat} {X : Dataset N V} {o o' : EncObj V K} {e : Err}
    (h : o.fit lib choose n X = (.error e, o')) :
    SameSettings o o' ∧ o'.fitted = o.fitted ∧ o'.cols = o.cols ∧
      (o'.nFeatures = o.nFeatures ∨ (o'.nFeatures = X.nFeatures ∧ 1 ≤ n ∧ 1 ≤ X.nFeatures ∧ Looks o.isCategorical X)) := by
  unfold EncObj.fit at h
  split at h
  · cases h; exact ⟨⟨rfl, rfl, rfl, rfl, rfl⟩, rfl, rfl, .inl rfl⟩
  · rename_i h1
    have hl := checkX_eq.1 (by simpa using h1)
    split at h
    · cases h; exact ⟨⟨rfl, rfl, rfl, rfl, rfl⟩, rfl, rfl, .inl rfl⟩
    · rename_i h2
      simp only at h
      split at h
      · cases h; exact ⟨⟨rfl, rfl, rfl, rfl, rfl⟩, rfl, rfl, .inl rfl⟩
      · rename_i h3
        split at h
        · cases h; exact ⟨⟨rfl, rfl, rfl, rfl, rfl⟩, rfl, rfl, .inr ⟨rfl, by omega, by omega, hl⟩⟩
        · split at h
          · cases h; exact ⟨⟨rfl, rfl, rfl, rfl, rfl⟩, rfl, rfl, .inr ⟨rfl, by omega, by omega, hl⟩⟩
          · split at h
            · cases h; exact ⟨⟨rfl, rfl, rfl, rfl, rfl⟩, rfl, rfl, .inr ⟨rfl, by omega, by omega, hl⟩⟩
            · cases h

omit [DecidableEq V] in
/-- What an assignment can do. -/
theorem encAssign_except [FloorSemiring K] (s : EncSetting K) (o : EncObj V K) : SameExcept s o (o.assign s).2 := by
  have hrefl : SameExcept s o o := ⟨.inr rfl, .inr rfl, .inr rfl, .inr rfl, .inr rfl, rfl, rfl, rfl, rfl, rfl⟩
  cases s with
  | maxBins v =>
    unfold EncObj.assign
    simp only
    repeat' split
    all_goals first
      | exact hrefl
      | exact ⟨.inl ⟨_, rfl⟩, .inr rfl, .inr rfl, .inr rfl, .inr rfl, rfl, rfl, rfl, rfl, rfl⟩
  | subsample v =>
    unfold EncObj.assign
    simp only
    repeat' split
    all_goals first
      | exact hrefl
      | exact ⟨.inr rfl, .inl ⟨_, rfl⟩, .inr rfl, .inr rfl, .inr rfl, rfl, rfl, rfl, rfl, rfl⟩
  | catMin v =>
    unfold EncObj.assign
    simp only
    repeat' split
    all_goals first
      | exact hrefl
      | exact ⟨.inr rfl, .inr rfl, .inl ⟨_, rfl⟩, .inr rfl, .inr rfl, rfl, rfl, rfl, rfl, rfl⟩
  | isCategorical v =>
    unfold EncObj.assign
    simp only
    repeat' split
    all_goals first
      | exact hrefl
      | exact ⟨.inr rfl, .inr rfl, .inr rfl, .inl ⟨_, rfl⟩, .inr rfl, rfl, rfl, rfl, rfl, rfl⟩
  | handleUnknown v =>
    unfold EncObj.assign
    simp only
    repeat' split
    all_goals first
      | exact hrefl
      | exact ⟨.inr rfl, .inr rfl, .inr rfl, .inr rfl, .inl ⟨_, rfl⟩, rfl, rfl, rfl, rfl, rfl⟩

/-- A fitted encoder keeps its columns. -/
theorem later_keeps [FloorSemiring K] {lib : Lib V K F G W} {d : Nat} {o o' : EncObj V K} (h : Later lib d o o') (hd : o.nFeatures = d) :
    o'.fitted = o.fitted ∧ o'.cols = o.cols ∧ o'.nFeatures = d := by
  induction h with
  | refl => exact ⟨rfl, rfl, hd⟩
  | assign s _ ih =>
    obtain ⟨-, -, -, -, -, h1, -, h2, -, h3⟩ := encAssign_except s _
    exact ⟨h1.trans ih.1, h3.trans ih.2.1, h2.trans ih.2.2⟩
  | @fitFails N o' e choose n X _ he hx ih =>
    obtain ⟨-, h1, h2, h3⟩ := encFit_error (Prod.ext he rfl : o'.fit lib choose n X = (.error e, (o'.fit lib choose n X).2))
    refine ⟨h1.trans ih.1, h2.trans ih.2.1, ?_⟩
    rcases h3 with h3 | ⟨h3, h4, h5, h6⟩
    · exact h3.trans ih.2.2
    · rcases hx with hx | hx | hx | hx
      · omega
      · omega
      · exact h3.trans hx
      · exact absurd h6 hx

end

section
variable {K : Type}

theorem pyInt_iff {v : PyVal K} {i : Int} : v.int? = some i ↔ IsInt v i := by
  cases v with
  | bool b => cases b <;> simp [PyVal.int?, IsInt, eq_comm]
  | _ => simp [PyVal.int?, IsInt]

theorem pyInt_none {v : PyVal K} : v.int? = none ↔ ∀ i, ¬ IsInt v i := by
  constructor
  · intro h i hi
    rw [pyInt_iff.2 hi] at h
    cases h
  · intro h
    cases hv : v.int? with
    | none => rfl
    | some i => exact absurd (pyInt_iff.1 hv) (h i)

end

end Verif
