import Verif.Proofs.EncoderObj
import Verif.Props.MoreTrees

/-! # C85, C86: the encoder as an object -/
namespace Verif
open Spec

section
variable {V K F G W N : Type} [DecidableEq V] [DecidableEq N] [LinearOrder K] [Field K] [FloorSemiring K]

/-! ## C85 -/

omit [DecidableEq V] [LinearOrder K] [Field K] [FloorSemiring K] in
theorem subset_rows {choose : Nat → Nat → M (List Nat)} {o : EncObj V K} {n : Nat} {subset : Option (List Nat)} (h : o.subset choose n = .ok subset) :
    RowsFor choose o.subsample n subset := by
  unfold EncObj.subset at h
  cases hs : o.subsample with
  | none =>
    rw [hs] at h
    cases h
    exact .inl ⟨rfl, fun k hk => by cases hk⟩
  | some k =>
    rw [hs] at h
    simp only at h
    split at h
    · next hk =>
      cases hc : choose n k with
      | error e => rw [hc] at h; cases h
      | ok l =>
        rw [hc] at h
        cases h
        exact .inr ⟨k, l, rfl, hk, hc, rfl⟩
    · next hk =>
      cases h
      exact .inl ⟨rfl, fun k' hk' => by cases hk'; omega⟩

omit [DecidableEq N] in
/-- **C85**, partial: after a successful `fit`, and whatever assignments to hyperparameters and failed calls of `fit` on data with the same number of
columns follow, `transform` is determined by what `fit` computed from its data with the hyperparameters of that time, by the current value of
`handle_unknown`, and by the size of the current mask `is_categorical`; `inverse_transform` by the first alone. Missing: failed calls of `fit` on
data with another number of columns, see `C85_violated`. -/
theorem C85_partial {lib : Lib V K F G W} {choose : Nat → Nat → M (List Nat)} {n : Nat} {X : Dataset N V} {o o1 o2 : EncObj V K}
    (h : o.fit lib choose n X = (.ok (), o1)) (hl : Later lib X.nFeatures o1 o2) :
    ∃ c subset cols, o.catMin = some c ∧ RowsFor choose o.subsample n subset ∧ encoderFit lib.conv (o.cfg lib (c.value lib n)) subset X = .ok cols ∧
      o2.nFeaturesIn = .ok X.nFeatures ∧ (∀ b, o2.inverse b = inverseTransform cols b) ∧
      ∀ (N' : Type) [DecidableEq N'] (garbage : Nat → Word) (m : Nat) (X' : Dataset N' V),
        (Looks o2.isCategorical X' → o2.transform lib garbage m X' =
          encoderTransform lib.conv { o.cfg lib (c.value lib n) with handleUnknownError := o2.handleUnknownError } cols garbage m X') ∧
        (¬ Looks o2.isCategorical X' → o2.transform lib garbage m X' = .error .valueError) := by
  obtain ⟨-, -, -, c, subset, cols, hc, hs, hf, rfl⟩ := encFit_ok h
  obtain ⟨h1, h2, h3⟩ := later_keeps hl rfl
  simp only at h1 h2
  have hlen : o2.cols.length = o2.nFeatures := by rw [h2, h3]; exact encoderFit_length hf
  refine ⟨c, subset, cols, hc, subset_rows hs, hf, ?_, fun b => ?_, fun N' _ garbage m X' => ⟨fun hL => ?_, fun hL => ?_⟩⟩
  · unfold EncObj.nFeaturesIn
    rw [h1, h3]
    rfl
  · rw [inverse_eq h1 hlen, h2]
  · rw [transform_eq lib h1 hlen garbage m X' hL { o.cfg lib (c.value lib n) with handleUnknownError := o2.handleUnknownError } rfl, h2]
  · unfold EncObj.transform
    rw [h1, Bool.eq_false_iff.2 fun h => hL (checkX_eq.1 h)]
    simp

omit [DecidableEq N] [FloorSemiring K] in
/-- **C85** A new `fit` forgets everything that happened to the encoder before: with the same hyperparameters it raises the same
exception or none as an encoder that has never been fitted, and in the latter case the two are equal. -/
theorem C85_refit {lib : Lib V K F G W} {choose : Nat → Nat → M (List Nat)} {n : Nat} {X : Dataset N V} {o o' : EncObj V K} (h : SameSettings o o') :
    (o'.fit lib choose n X).1 = (o.fit lib choose n X).1 ∧ ((o.fit lib choose n X).1 = .ok () → (o'.fit lib choose n X).2 = (o.fit lib choose n X).2) := by
  obtain ⟨b, s, c, ic, hu, f, ns, nf, cm, cols⟩ := o
  obtain ⟨b', s', c', ic', hu', f', ns', nf', cm', cols'⟩ := o'
  obtain ⟨h1, h2, h3, h4, h5⟩ := h
  simp only at h1 h2 h3 h4 h5
  subst h1 h2 h3 h4 h5
  have hbad : ∀ e : Err, (Except.error e : M Unit) = .ok () → False := fun _ h => by cases h
  unfold EncObj.fit
  rw [show EncObj.checkX ⟨b', s', c', ic', hu', f', ns', nf', cm', cols'⟩ X = EncObj.checkX ⟨b', s', c', ic', hu', f, ns, nf, cm, cols⟩ X from rfl]
  cases EncObj.checkX ⟨b', s', c', ic', hu', f, ns, nf, cm, cols⟩ X with
  | false => exact ⟨rfl, fun h => (hbad _ h).elim⟩
  | true =>
    simp only [Bool.not_true, Bool.false_eq_true, if_false]
    by_cases hn : n < 1
    · simp only [hn, if_true]
      exact ⟨trivial, fun h => (hbad _ h).elim⟩
    · by_cases hx : X.nFeatures < 1
      · simp only [hn, hx, if_true, if_false]
        exact ⟨trivial, fun h => (hbad _ h).elim⟩
      · simp only [hn, hx, if_false]
        rw [show EncObj.subset choose ⟨b', s', c', ic', hu', f', ns', nf', cm', cols'⟩ n = EncObj.subset choose ⟨b', s', c', ic', hu', f, ns, nf, cm, cols⟩ n from rfl]
        cases EncObj.subset choose ⟨b', s', c', ic', hu', f, ns, nf, cm, cols⟩ n with
        | error e => exact ⟨rfl, fun h => (hbad _ h).elim⟩
        | ok subset =>
          cases c' with
          | none => exact ⟨rfl, fun h => (hbad _ h).elim⟩
          | some c =>
            simp only
            rw [show EncObj.cfg lib ⟨b', s', some c, ic', hu', f', ns', nf', cm', cols'⟩ (c.value lib n) =
              EncObj.cfg lib ⟨b', s', some c, ic', hu', f, ns, nf, cm, cols⟩ (c.value lib n) from rfl]
            cases encoderFit lib.conv (EncObj.cfg lib ⟨b', s', some c, ic', hu', f, ns, nf, cm, cols⟩ (c.value lib n)) subset X with
            | error e => exact ⟨rfl, fun h => (hbad _ h).elim⟩
            | ok cols => exact ⟨rfl, fun _ => rfl⟩

omit [DecidableEq N] [FloorSemiring K] in
/-- **C85** is violated by a failed `fit` on data with another number of columns: the encoder still works with the columns of the earlier `fit`, but
`n_features_in_` comes from the data of the failed one, and `transform` rejects all data that it accepted before. -/
theorem C85_violated {lib : Lib V K F G W} {choose : Nat → Nat → M (List Nat)} {n : Nat} {X : Dataset N V} {o : EncObj V K} {e : Err}
    (hf : o.fitted = true) (hn : 1 ≤ n) (hx : 1 ≤ X.nFeatures) (hl : Looks o.isCategorical X) (hd : X.nFeatures ≠ o.nFeatures)
    (he : (o.fit lib choose n X).1 = .error e) :
    ∃ o', o.fit lib choose n X = (.error e, o') ∧ o'.cols = o.cols ∧ o'.nFeaturesIn = .ok X.nFeatures ∧ o'.nSamplesIn = .ok n ∧
      ∀ (N' : Type) [DecidableEq N'] (garbage : Nat → Word) (m : Nat) (X' : Dataset N' V) (b : FBA), o.transform lib garbage m X' = .ok b →
        o'.transform lib garbage m X' = .error .valueError := by
  have h : o.fit lib choose n X = (.error e, (o.fit lib choose n X).2) := Prod.ext he rfl
  have hs : (o.fit lib choose n X).2.nSamples = n ∧ (o.fit lib choose n X).2.nFeatures = X.nFeatures := by
    clear h
    unfold EncObj.fit at he ⊢
    rw [checkX_eq.2 hl] at he ⊢
    simp only [Bool.not_true, Bool.false_eq_true, if_false] at he ⊢
    rw [if_neg (by omega), if_neg (by omega)] at he ⊢
    repeat' split
    all_goals exact ⟨rfl, rfl⟩
  obtain ⟨-, h1, h2, -⟩ := encFit_error h
  refine ⟨_, h, h2, ?_, ?_, fun N' _ garbage m X' b hb => ?_⟩
  · unfold EncObj.nFeaturesIn; rw [h1, hf, hs.2]; rfl
  · unfold EncObj.nSamplesIn; rw [h1, hf, hs.1]; rfl
  · have : X'.nFeatures = o.nFeatures := by
      by_contra hne
      unfold EncObj.transform at hb
      rw [hf, if_neg (by simp), if_pos hne] at hb
      cases hb
    unfold EncObj.transform
    rw [h1, hf, hs.2, if_neg (by simp), if_pos (by rw [this]; exact hd.symm)]

theorem mapM_error_at {α β : Type} {f : α → M β} {e : Err} {x : α} {l2 : List α} (hx : f x = .error e) :
    ∀ {l1 : List α}, (∀ a ∈ l1, ∃ b, f a = .ok b) → (l1 ++ x :: l2).mapM f = .error e
  | [], _ => by rw [List.nil_append, List.mapM_cons, hx]; rfl
  | a :: l1, h => by
    obtain ⟨b, hb⟩ := h a (by simp)
    rw [List.cons_append, List.mapM_cons, hb, bind_ok, mapM_error_at hx (fun a ha => h a (by simp [ha]))]
    rfl

omit [Field K] [FloorSemiring K] [LinearOrder K] in
theorem colMaxValue_lenient {cfg : EncCfg K} (hu : cfg.handleUnknownError = false) {fc : FitCol V K} (hne : ∀ cats, fc = .cat cats → cats ≠ []) (b : Bool) (cats : List V) :
    ∃ m, colMaxValue cfg fc b cats = .ok m := by
  unfold colMaxValue
  cases fc with
  | cat fitCats =>
    have : 0 < fitCats.length := List.length_pos_of_ne_nil (hne _ rfl)
    simp only [hu, Bool.and_false, Bool.false_eq_true, if_false]
    split <;> exact ⟨_, if_pos (by omega)⟩
  | num thr =>
    simp only
    split <;> exact ⟨_, if_pos (by omega)⟩

omit [LinearOrder K] [Field K] [FloorSemiring K] in
theorem maxValues_indexError {cfg : EncCfg K} (hu : cfg.handleUnknownError = false) {cols : List (FitCol V K)} (hne : ∀ cats, FitCol.cat cats ∈ cols → cats ≠ [])
    {α : Type} (X : List α) (hm : α → Bool) (cats : α → List V) (hlen : cols.length < X.length) :
    (((List.range X.length).zip X).mapM fun p => do
      let fc ← fitColAt cols p.1
      colMaxValue cfg fc (hm p.2) (cats p.2)) = .error .indexError := by
  have hsplit : (List.range X.length).zip X = ((List.range X.length).zip X).take cols.length ++
      (cols.length, X[cols.length]) :: ((List.range X.length).zip X).drop (cols.length + 1) := by
    have hk : cols.length < ((List.range X.length).zip X).length := by simp [hlen]
    conv_lhs => rw [← List.take_append_drop cols.length ((List.range X.length).zip X), List.drop_eq_getElem_cons hk]
    simp
  rw [hsplit]
  refine mapM_error_at ?_ fun a ha => ?_
  · simp [fitColAt, bind, Except.bind]
  · obtain ⟨i, hi, rfl⟩ := List.mem_iff_getElem.1 ha
    simp only [List.length_take, List.length_zip, List.length_range, Nat.min_self] at hi
    have hic : i < cols.length := by omega
    simp only [List.getElem_take, List.getElem_zip, List.getElem_range]
    have : fitColAt cols i = .ok cols[i] := by simp [fitColAt, List.getElem?_eq_getElem hic]
    rw [this, bind_ok]
    exact colMaxValue_lenient hu (fun c hc => hne c (hc ▸ List.getElem_mem hic)) _ _

omit [DecidableEq N] [FloorSemiring K] in
/-- **C85** is violated by a failed `fit` on data with more columns: when unknown categories are allowed (and every fitted categorical column has a category), `transform`
then raises IndexError for all data with the new number of columns, because the attributes of the missing columns do not exist. -/
theorem C85_violated_more {lib : Lib V K F G W} {choose : Nat → Nat → M (List Nat)} {n : Nat} {X : Dataset N V} {o : EncObj V K} {e : Err}
    (hf : o.fitted = true) (hn : 1 ≤ n) (hl : Looks o.isCategorical X) (hd : o.cols.length < X.nFeatures) (hu : o.handleUnknownError = false)
    (hne : ∀ cats, FitCol.cat cats ∈ o.cols → cats ≠ []) (he : (o.fit lib choose n X).1 = .error e) :
    ∃ o', o.fit lib choose n X = (.error e, o') ∧ ∀ (N' : Type) [DecidableEq N'] (garbage : Nat → Word) (m : Nat) (X' : Dataset N' V),
      X'.nFeatures = X.nFeatures → Looks o.isCategorical X' → o'.transform lib garbage m X' = .error .indexError := by
  have h : o.fit lib choose n X = (.error e, (o.fit lib choose n X).2) := Prod.ext he rfl
  have hs : (o.fit lib choose n X).2.nFeatures = X.nFeatures ∧ (o.fit lib choose n X).2.handleUnknownError = o.handleUnknownError ∧
      (o.fit lib choose n X).2.isCategorical = o.isCategorical := by
    clear h
    unfold EncObj.fit at he ⊢
    rw [checkX_eq.2 hl] at he ⊢
    simp only [Bool.not_true, Bool.false_eq_true, if_false] at he ⊢
    rw [if_neg (by omega), if_neg (by omega)] at he ⊢
    repeat' split
    all_goals exact ⟨rfl, rfl, rfl⟩
  obtain ⟨-, h1, h2, -⟩ := encFit_error h
  refine ⟨_, h, fun N' _ garbage m X' hX hL => ?_⟩
  have hcx : EncObj.checkX (o.fit lib choose n X).2 X' = true := checkX_eq.2 (by rw [hs.2.2]; exact hL)
  unfold EncObj.transform
  rw [h1, hf, hs.1, if_neg (by simp), if_neg (by simp [hX]), hcx, if_neg (by simp)]
  have hu' : ((o.fit lib choose n X).2.cfg lib 0).handleUnknownError = false := hs.2.1.trans hu
  rw [h2]
  cases X' with
  | frame X' =>
    have := maxValues_indexError hu' hne X' (fun p => p.2.cells.any (·.isNone)) (fun p => p.2.categories lib.conv) (by rw [← hX] at hd; exact hd)
    simp only [this]
    rfl
  | array kind X' =>
    have := maxValues_indexError hu' hne X' (fun p => decide (kind = .uif) && p.any (·.isNone)) (fun p => lib.conv.catsOf p) (by rw [← hX] at hd; exact hd)
    simp only [this]
    rfl

/-! ## C86 -/

omit [DecidableEq V] in
/-- **C86**, partial: an assignment of a documented value is stored, and changes nothing else; any other assignment raises an exception and changes
nothing. Missing: values for `cat_min_categories` which are neither integers nor strings, see `C86_violated`. -/
theorem C86_assign_partial [IsStrictOrderedRing K] (s : EncSetting K) (o : EncObj V K) :
    (Documented s → ∃ o', o.assign s = (.ok (), o') ∧ HoldsValue o' s ∧ SameExcept s o o') ∧
    (¬ Documented s → ¬ StrangeCatMin s → ∃ e, o.assign s = (.error e, o)) := by
  refine ⟨fun h => ?_, fun h hs => ?_⟩
  · suffices hh : ∃ o', o.assign s = (.ok (), o') ∧ HoldsValue o' s by
      obtain ⟨o', h1, h2⟩ := hh
      refine ⟨o', h1, h2, ?_⟩
      have := encAssign_except s o
      rwa [h1] at this
    cases s with
    | maxBins v =>
      obtain ⟨i, hi, h3⟩ := h
      refine ⟨{ o with maxBins := i.toNat }, ?_, ?_⟩
      · simp only [EncObj.assign, pyInt_iff.2 hi]
        rw [if_neg (by omega)]
      · simp only [HoldsValue, Int.toNat_of_nonneg (by omega : 0 ≤ i)]
        exact hi
    | subsample v =>
      rcases h with rfl | ⟨i, hi, h3⟩ | ⟨x, rfl, h3⟩
      · exact ⟨_, rfl, .inl ⟨rfl, rfl⟩⟩
      · refine ⟨{ o with subsample := some i.toNat }, ?_, .inr ⟨_, rfl, .inl ?_⟩⟩
        · rcases hi with rfl | ⟨rfl, rfl⟩ | ⟨rfl, rfl⟩
          · simp only [EncObj.assign, PyVal.int?]
            rw [if_pos h3]
          · omega
          · omega
        · rw [Int.toNat_of_nonneg (by omega : 0 ≤ i)]; exact hi
      · refine ⟨{ o with subsample := some ⌊x⌋₊ }, ?_, .inr ⟨_, rfl, .inr ⟨x, rfl, ?_, ?_⟩⟩⟩
        · simp only [EncObj.assign]
          rw [if_pos h3]
        · exact Nat.floor_le ((by norm_num : (0 : K) ≤ 50000).trans h3)
        · exact Nat.lt_floor_add_one x
    | catMin v =>
      rcases h with rfl | rfl | ⟨i, hi, h3⟩
      · exact ⟨_, rfl, .inl ⟨rfl, rfl⟩⟩
      · exact ⟨_, rfl, .inr (.inl ⟨rfl, rfl⟩)⟩
      · refine ⟨{ o with catMin := some (.int i.toNat) }, ?_, .inr (.inr ⟨_, rfl, ?_⟩)⟩
        · rcases hi with rfl | ⟨rfl, rfl⟩ | ⟨rfl, rfl⟩
          · simp only [EncObj.assign, PyVal.int?]
            rw [if_neg (by omega)]
          · omega
          · omega
        · rw [Int.toNat_of_nonneg (by omega : 0 ≤ i)]; exact hi
    | isCategorical v =>
      rcases h with rfl | ⟨l, rfl⟩
      · exact ⟨_, rfl, .inl ⟨rfl, rfl⟩⟩
      · exact ⟨_, rfl, .inr ⟨l, rfl, rfl⟩⟩
    | handleUnknown v =>
      rcases h with rfl | rfl
      · exact ⟨_, rfl, .inl ⟨rfl, rfl⟩⟩
      · exact ⟨_, rfl, .inr ⟨rfl, rfl⟩⟩
  · cases s with
    | maxBins v =>
      simp only [EncObj.assign]
      cases hv : v.int? with
      | none => exact ⟨_, rfl⟩
      | some i =>
        simp only
        rw [if_pos (by by_contra h3; exact h ⟨i, pyInt_iff.1 hv, by omega⟩)]
        exact ⟨_, rfl⟩
    | subsample v =>
      cases v with
      | none => exact absurd (.inl rfl) h
      | float x =>
        cases x with
        | none => exact ⟨_, rfl⟩
        | some x =>
          simp only [EncObj.assign]
          rw [if_neg fun h3 => h (.inr (.inr ⟨x, rfl, h3⟩))]
          exact ⟨_, rfl⟩
      | int i =>
        simp only [EncObj.assign, PyVal.int?]
        rw [if_neg fun h3 => h (.inr (.inl ⟨i, .inl rfl, h3⟩))]
        exact ⟨_, rfl⟩
      | bool b => cases b <;> exact ⟨_, rfl⟩
      | str t => exact ⟨_, rfl⟩
      | rng i => exact ⟨_, rfl⟩
      | other i => exact ⟨_, rfl⟩
    | catMin v =>
      have hq : ∀ v : PyVal K, v.int? = none → (∀ t, v ≠ .str t) → StrangeCatMin (.catMin v) := fun v h1 h2 => ⟨v, rfl, pyInt_none.1 h1, h2⟩
      cases v with
      | none => exact absurd (hq _ rfl (by simp)) hs
      | float x => exact absurd (hq _ rfl (by simp)) hs
      | rng i => exact absurd (hq _ rfl (by simp)) hs
      | other i => exact absurd (hq _ rfl (by simp)) hs
      | str t =>
        simp only [EncObj.assign]
        rw [if_neg fun h3 => h (.inl (by rw [h3])), if_neg fun h3 => h (.inr (.inl (by rw [h3])))]
        exact ⟨_, rfl⟩
      | int i =>
        simp only [EncObj.assign, PyVal.int?]
        rw [if_pos (by by_contra h3; exact h (.inr (.inr ⟨i, .inl rfl, by omega⟩)))]
        exact ⟨_, rfl⟩
      | bool b => cases b <;> exact ⟨_, rfl⟩
    | isCategorical v =>
      cases v with
      | none => exact absurd (.inl rfl) h
      | flat l => exact absurd (.inr ⟨l, rfl⟩) h
      | dims => exact ⟨_, rfl⟩
      | bad e => exact ⟨_, rfl⟩
    | handleUnknown v =>
      cases v with
      | str t =>
        simp only [EncObj.assign]
        rw [if_neg fun h3 => h (.inl (by rw [h3])), if_neg fun h3 => h (.inr (by rw [h3]))]
        exact ⟨_, rfl⟩
      | none => exact ⟨_, rfl⟩
      | float x => exact ⟨_, rfl⟩
      | int i => exact ⟨_, rfl⟩
      | bool b => exact ⟨_, rfl⟩
      | rng i => exact ⟨_, rfl⟩
      | other i => exact ⟨_, rfl⟩

/-- **C86**, partial: whatever a program does with an encoder, its hyperparameters have documented values. Missing: `cat_min_categories` may not
exist, see `C86_violated`. -/
theorem C86_always_partial [IsStrictOrderedRing K] {lib : Lib V K F G W} {o : EncObj V K} (h : EncReach lib o) :
    3 ≤ o.maxBins ∧ (∀ k, o.subsample = some k → 50000 ≤ k) ∧ ∀ k, o.catMin = some (.int k) → 3 < k := by
  have key : ∀ (s : EncSetting K) (o : EncObj V K), (∀ k, o.subsample = some k → 50000 ≤ k) ∧ (∀ k, o.catMin = some (.int k) → 3 < k) →
      ((∀ k, (o.assign s).2.subsample = some k → 50000 ≤ k) ∧ ∀ k, (o.assign s).2.catMin = some (.int k) → 3 < k) ∧
      (3 ≤ o.maxBins ∨ ((∃ v, s = .maxBins v) ∧ (o.assign s).1 = .ok ()) → 3 ≤ (o.assign s).2.maxBins) := by
    intro s o ⟨h1, h2⟩
    by_cases hd : Documented s
    · obtain ⟨o', ho, hv, e1, e2, e3, e4, e5, -⟩ := (C86_assign_partial s o).1 hd
      rw [ho]
      simp only
      cases s with
      | maxBins v =>
        obtain ⟨i, hi, h3⟩ := hd
        have : (o'.maxBins : ℤ) = i := by
          have a := pyInt_iff.2 hv
          rw [pyInt_iff.2 hi] at a
          injection a with a
          exact a.symm
        rw [e2.resolve_left (by simp), e3.resolve_left (by simp)]
        exact ⟨⟨h1, h2⟩, fun _ => by omega⟩
      | subsample v =>
        rw [e1.resolve_left (by simp), e3.resolve_left (by simp)]
        refine ⟨⟨fun k hk => ?_, h2⟩, fun h => h.resolve_right (by simp)⟩
        rcases hv with ⟨-, hv⟩ | ⟨k', hk', hv⟩
        · rw [hv] at hk; cases hk
        · rw [hk] at hk'
          injection hk' with hk'
          subst hk'
          rcases hd with rfl | ⟨i, hi, h3⟩ | ⟨x, rfl, h3⟩
          · rcases hv with hv | ⟨x, hx, -⟩
            · simp [IsInt] at hv
            · cases hx
          · rcases hv with hv | ⟨x, rfl, -⟩
            · have a := pyInt_iff.2 hv
              rw [pyInt_iff.2 hi] at a
              injection a with a
              omega
            · simp [IsInt] at hi
          · rcases hv with hv | ⟨x', hx, h4, h5⟩
            · simp [IsInt] at hv
            · injection hx with hx
              injection hx with hx
              subst hx
              by_contra hlt
              have : ((k + 1 : Nat) : K) ≤ 50000 := by
                have : ((k + 1 : Nat) : K) ≤ ((50000 : Nat) : K) := Nat.cast_le.2 (by omega)
                simpa using this
              rw [Nat.cast_add, Nat.cast_one] at this
              exact absurd (h5.trans_le (this.trans h3)) (lt_irrefl _)
      | catMin v =>
        rw [e1.resolve_left (by simp), e2.resolve_left (by simp)]
        refine ⟨⟨h1, fun k hk => ?_⟩, fun h => h.resolve_right (by simp)⟩
        rcases hv with ⟨-, hv⟩ | ⟨-, hv⟩ | ⟨k', hk', hv⟩
        · rw [hv] at hk; cases hk
        · rw [hv] at hk; cases hk
        · rw [hk] at hk'
          injection hk' with hk'
          injection hk' with hk'
          subst hk'
          rcases hd with rfl | rfl | ⟨i, hi, h3⟩
          · simp [IsInt] at hv
          · simp [IsInt] at hv
          · have a := pyInt_iff.2 hv
            rw [pyInt_iff.2 hi] at a
            injection a with a
            omega
      | isCategorical v =>
        rw [e1.resolve_left (by simp), e2.resolve_left (by simp), e3.resolve_left (by simp)]
        exact ⟨⟨h1, h2⟩, fun h => h.resolve_right (by simp)⟩
      | handleUnknown v =>
        rw [e1.resolve_left (by simp), e2.resolve_left (by simp), e3.resolve_left (by simp)]
        exact ⟨⟨h1, h2⟩, fun h => h.resolve_right (by simp)⟩
    · by_cases hs : StrangeCatMin s
      · obtain ⟨v, rfl, hi, ht⟩ := hs
        have : o.assign (.catMin v) = (.ok (), o) := by
          cases v with
          | str t => exact absurd rfl (ht t)
          | int i => exact absurd (.inl rfl) (hi i)
          | bool b => cases b
                      · exact absurd (.inr (.inr ⟨rfl, rfl⟩)) (hi 0)
                      · exact absurd (.inr (.inl ⟨rfl, rfl⟩)) (hi 1)
          | none => rfl
          | float x => rfl
          | rng i => rfl
          | other i => rfl
        rw [this]
        exact ⟨⟨h1, h2⟩, fun h => h.resolve_right (by simp)⟩
      · obtain ⟨e, ho⟩ := (C86_assign_partial s o).2 hd hs
        rw [ho]
        exact ⟨⟨h1, h2⟩, fun h => h.resolve_right (by simp)⟩
  induction h with
  | @new a b c d m o h =>
    unfold EncObj.construct at h
    simp only [EncObj.assignEach] at h
    have hrun : ∀ (l : List (EncSetting K)) (o o' : EncObj V K), EncObj.assignEach l o = (.ok (), o') → 3 ≤ o.maxBins →
        (∀ k, o.subsample = some k → 50000 ≤ k) → (∀ k, o.catMin = some (.int k) → 3 < k) →
        3 ≤ o'.maxBins ∧ (∀ k, o'.subsample = some k → 50000 ≤ k) ∧ ∀ k, o'.catMin = some (.int k) → 3 < k := by
      intro l
      induction l with
      | nil => intro o o' h a1 a2 a3; cases h; exact ⟨a1, a2, a3⟩
      | cons s l ih =>
        intro o o' h a1 a2 a3
        obtain ⟨_, t, h1, h2⟩ := Py.bind_inv h
        have hk := key s o ⟨a2, a3⟩
        rw [h1] at hk
        exact ih t o' h2 (hk.2 (.inl a1)) hk.1.1 hk.1.2
    split at h
    · rename_i o' heq
      injection h with h
      subst h
      obtain ⟨_, t, h1, h2⟩ := Py.bind_inv heq
      have hk := key (.maxBins a) (⟨0, none, none, none, false, false, 0, 0, 0, []⟩ : EncObj V K) ⟨by simp, by simp⟩
      rw [h1] at hk
      exact hrun [.subsample b, .catMin c, .isCategorical m, .handleUnknown d] t o' h2 (hk.2 (.inr ⟨⟨a, rfl⟩, rfl⟩)) hk.1.1 hk.1.2
    · cases h
  | assign s _ ih =>
    have hk := key s _ ⟨ih.2.1, ih.2.2⟩
    exact ⟨hk.2 (.inl ih.1), hk.1⟩
  | @fit N o choose n X _ ih =>
    cases hr : o.fit lib choose n X with
    | mk r o' =>
      cases r with
      | ok u =>
        obtain ⟨-, -, -, c, subset, cols, -, -, -, rfl⟩ := encFit_ok hr
        exact ih
      | error e =>
        obtain ⟨⟨e1, e2, e3, -⟩, -⟩ := encFit_error hr
        simp only [e1, e2, e3]
        exact ih

omit [DecidableEq N] in
/-- **C86** is violated by `cat_min_categories`: a value that is neither an integer nor a string, such as `4.5` or None, is silently ignored. An
encoder constructed with it has no such hyperparameter, and `fit` raises AttributeError on all data. -/
theorem C86_violated {v : PyVal K} (hi : ∀ i, ¬ IsInt v i) (ht : ∀ t, v ≠ .str t) :
    ¬ Documented (.catMin v) ∧ (∀ o : EncObj V K, o.assign (.catMin v) = (.ok (), o)) ∧
    ∃ o : EncObj V K, EncObj.construct (.int 256) .none v .none (.str "error") = .ok o ∧
      ∀ (lib : Lib V K F G W) (choose : Nat → Nat → M (List Nat)) (n : Nat) (X : Dataset N V), 1 ≤ n → 1 ≤ X.nFeatures → Looks none X →
        (o.fit lib choose n X).1 = .error .attributeError := by
  have key : ∀ o : EncObj V K, o.assign (.catMin v) = (.ok (), o) := by
    intro o
    cases v with
    | str t => exact absurd rfl (ht t)
    | int i => exact absurd (.inl rfl) (hi i)
    | bool b =>
      cases b
      · exact absurd (.inr (.inr ⟨rfl, rfl⟩)) (hi 0)
      · exact absurd (.inr (.inl ⟨rfl, rfl⟩)) (hi 1)
    | none => rfl
    | float x => rfl
    | rng i => rfl
    | other i => rfl
  refine ⟨?_, key, ⟨256, none, none, none, true, false, 0, 0, 0, []⟩, ?_, fun lib choose n X hn hx hl => ?_⟩
  · rintro (h | h | ⟨i, h, -⟩)
    · exact ht _ h
    · exact ht _ h
    · exact hi i h
  · have : EncObj.assignEach [.maxBins (.int 256), .subsample .none, .catMin v, .isCategorical .none, .handleUnknown (.str "error")]
        (⟨0, none, none, none, false, false, 0, 0, 0, []⟩ : EncObj V K) = (.ok (), ⟨256, none, none, none, true, false, 0, 0, 0, []⟩) := by
      unfold EncObj.assignEach
      rw [Py.bind_of_ok (show EncObj.assign (.maxBins (.int 256)) _ = (.ok (), (⟨256, none, none, none, false, false, 0, 0, 0, []⟩ : EncObj V K)) from rfl)]
      unfold EncObj.assignEach
      rw [Py.bind_of_ok (show EncObj.assign (.subsample .none) _ = (.ok (), (⟨256, none, none, none, false, false, 0, 0, 0, []⟩ : EncObj V K)) from rfl)]
      unfold EncObj.assignEach
      rw [Py.bind_of_ok (key _)]
      rfl
    unfold EncObj.construct
    rw [this]
  · unfold EncObj.fit
    rw [checkX_eq.2 (show Looks (⟨256, none, none, none, true, false, 0, 0, 0, []⟩ : EncObj V K).isCategorical X from hl)]
    simp only [Bool.not_true, Bool.false_eq_true, if_false]
    rw [if_neg (by omega), if_neg (by omega)]
    rfl

end

/-! ## Examples -/

/-- The encoder with default values for `max_bins` and `cat_min_categories` which considers unknown categories as missing. -/
def encNew : EncObj Nat ℚ := ⟨256, some 200000, some .log, none, false, false, 0, 0, 0, []⟩

/-- Two columns of words. -/
def encTwo : Dataset String Nat :=
  .frame [("a", { kind := .bOSU, cells := [some 2, some 0, none] }), ("b", { kind := .bOSU, cells := [some 5, some 5, some 6] })]

/-- One column with dates, which are not supported. -/
def encDates : Dataset String Nat := .frame [("a", { kind := .other, cells := [some 7, some 8] })]

/-- One column of words. -/
def encOne : Dataset String Nat := .frame [("a", { kind := .bOSU, cells := [some 0, some 9] })]

/-- `encNew` after `fit` on two columns. -/
def encFitted : EncObj Nat ℚ := (encNew.fit moreLib (fun _ _ => .ok []) 3 encTwo).2

theorem encFitted_ok : encNew.fit moreLib (fun _ _ => .ok []) 3 encTwo = (.ok (), encFitted) :=
  Prod.ext (by decide +kernel) rfl

/-- The constructor gives `encNew`. -/
example : EncObj.construct (V := Nat) (K := ℚ) (.int 256) (.float (some 200000)) (.str "log") .none (.str "consider_missing") = .ok encNew := by
  have : EncObj.assignEach [.maxBins (.int 256), .subsample (.float (some 200000)), .catMin (.str "log"), .isCategorical .none, .handleUnknown (.str "consider_missing")]
      (⟨0, none, none, none, false, false, 0, 0, 0, []⟩ : EncObj Nat ℚ) = (.ok (), encNew) := by
    unfold EncObj.assignEach
    rw [Py.bind_of_ok (show EncObj.assign (.maxBins (.int 256)) _ = (.ok (), (⟨256, none, none, none, false, false, 0, 0, 0, []⟩ : EncObj Nat ℚ)) from rfl)]
    unfold EncObj.assignEach
    rw [Py.bind_of_ok (show EncObj.assign (.subsample (.float (some (200000 : ℚ)))) _ =
      (.ok (), (⟨256, some 200000, none, none, false, false, 0, 0, 0, []⟩ : EncObj Nat ℚ)) by
        simp only [EncObj.assign]
        rw [if_pos (by norm_num), show ⌊(200000 : ℚ)⌋₊ = 200000 by norm_num])]
    rfl
  unfold EncObj.construct
  rw [this]

/-- `C85_partial`: two columns are fitted, `max_bins` is assigned twice, once with an exception, `handle_unknown` once, and then `fit` fails on another table with two columns. -/
example : ∃ o2, Later moreLib 2 encFitted o2 ∧ o2.maxBins = 17 ∧ o2.handleUnknownError = true ∧ o2.nFeaturesIn = .ok 2 := by
  have hl : Later moreLib 2 encFitted ((((((encFitted.assign (.maxBins (.int 17))).2).assign (.maxBins (.int 2))).2).assign (.handleUnknown (.str "error"))).2.fit moreLib
      (fun _ _ => .ok []) 2 (.frame [("a", { kind := .bOSU, cells := [some 7, some 8] }), ("b", { kind := .other, cells := [some 7, some 8] })] : Dataset String Nat)).2 :=
    .fitFails (e := .valueError) _ _ _ (.assign _ (.assign _ (.assign _ .refl))) (by decide +kernel) (.inr (.inr (.inl rfl)))
  obtain ⟨c, subset, cols, -, -, -, h, -⟩ := C85_partial encFitted_ok hl
  exact ⟨_, hl, by decide +kernel, by decide +kernel, h⟩

/-- `C85_refit`: `encFitted` has the hyperparameters of `encNew`. -/
example : (encFitted.fit moreLib (fun _ _ => .ok []) 2 encOne).2 = (encNew.fit moreLib (fun _ _ => .ok []) 2 encOne).2 :=
  (C85_refit (o := encNew) ⟨by decide +kernel, by decide +kernel, by rw [(by rfl : encFitted.catMin = some .log)]; rfl, by decide +kernel, by decide +kernel⟩).2 (by decide +kernel)

/-- `C85_violated`: after the failed `fit` on one column the table with two columns, which was fitted, is rejected, and a table with one column
is accepted and encoded with the first column of the old table. -/
example : ∃ o', encFitted.fit moreLib (fun _ _ => .ok []) 2 encDates = (.error .valueError, o') ∧
    (∃ b, encFitted.transform moreLib (fun _ => 0) 3 encTwo = .ok b) ∧ o'.transform moreLib (fun _ => 0) 3 encTwo = .error .valueError ∧
    encFitted.transform moreLib (fun _ => 0) 2 encOne = .error .valueError ∧ ∃ b, o'.transform moreLib (fun _ => 0) 2 encOne = .ok b := by
  have hb : ∃ b, encFitted.transform moreLib (fun _ => 0) 3 encTwo = .ok b := by
    have : (encFitted.transform moreLib (fun _ => 0) 3 encTwo).toBool = true := by decide +kernel
    cases h : encFitted.transform moreLib (fun _ => 0) 3 encTwo with
    | ok b => exact ⟨b, rfl⟩
    | error e => rw [h] at this; cases this
  obtain ⟨o', h1, -, -, -, h2⟩ := C85_violated (lib := moreLib) (choose := fun _ _ => .ok []) (n := 2) (X := encDates) (o := encFitted) (e := .valueError) (by decide +kernel)
    (by norm_num) (by decide) ⟨fun _ _ h => (by cases h), fun m h => (by rw [(by decide +kernel : encFitted.isCategorical = none)] at h; cases h)⟩ (by decide +kernel)
    (by decide +kernel)
  obtain ⟨b, hb'⟩ := hb
  refine ⟨o', h1, ⟨b, hb'⟩, h2 String _ _ _ b hb', ?_, ?_⟩
  · unfold EncObj.transform
    rw [(by decide +kernel : encFitted.fitted = true), if_neg (by simp), if_pos (by decide +kernel)]
  · have h3 : o' = (encFitted.fit moreLib (fun _ _ => .ok []) 2 encDates).2 := by rw [h1]
    have : (o'.transform moreLib (fun _ => 0) 2 encOne).toBool = true := by rw [h3]; decide +kernel
    cases h : o'.transform moreLib (fun _ => 0) 2 encOne with
    | ok b => exact ⟨b, rfl⟩
    | error e => rw [h] at this; cases this

/-- The encoder `encNew` fitted on one column. -/
def encFittedOne : EncObj Nat ℚ := (encNew.fit moreLib (fun _ _ => .ok []) 2 encOne).2

/-- `C85_violated_more`: one column is fitted, then `fit` fails on two columns of dates; a table with two columns then gives an IndexError. -/
example : ∃ o', encFittedOne.fit moreLib (fun _ _ => .ok []) 2
      (.frame [("a", { kind := .other, cells := [some 7, some 8] }), ("b", { kind := .other, cells := [some 7, some 8] })] : Dataset String Nat) = (.error .valueError, o') ∧
    o'.transform moreLib (fun _ => 0) 3 encTwo = .error .indexError := by
  have hc : encFittedOne.isCategorical = none := by decide +kernel
  obtain ⟨o', h1, h2⟩ := C85_violated_more (lib := moreLib) (choose := fun _ _ => .ok []) (n := 2) (o := encFittedOne) (e := .valueError)
    (X := (.frame [("a", { kind := .other, cells := [some 7, some 8] }), ("b", { kind := .other, cells := [some 7, some 8] })] : Dataset String Nat)) (by decide +kernel)
    (by norm_num) ⟨fun _ _ h => (by cases h), fun m h => (by rw [hc] at h; cases h)⟩ (by decide +kernel) (by decide +kernel)
    (by rw [show encFittedOne.cols = [.cat [0, 9]] by rfl]; simp) (by decide +kernel)
  exact ⟨o', h1, h2 String _ _ _ (by decide) ⟨fun _ _ h => (by cases h), fun m h => (by rw [hc] at h; cases h)⟩⟩

/-- `C86_assign_partial`: a float for `subsample`, and a number of bins that is too small. -/
example : Documented (.subsample (.float (some (60000.5 : ℚ)))) ∧ ¬ Documented (K := ℚ) (.maxBins (.int 2)) ∧ ¬ StrangeCatMin (K := ℚ) (.maxBins (.int 2)) := by
  refine ⟨.inr (.inr ⟨_, rfl, by norm_num⟩), ?_, ?_⟩
  · rintro ⟨i, hi, h3⟩
    simp [IsInt] at hi
    omega
  · rintro ⟨v, h, -⟩
    cases h

/-- `C86_always_partial`: an encoder that was constructed, fitted and changed. -/
example {o : EncObj Nat ℚ} (h : EncObj.construct (.int 5) .none (.int 4) .none (.str "error") = .ok o) :
    EncReach moreLib ((o.fit moreLib (fun _ _ => .ok []) 3 encTwo).2.assign (.maxBins (.int 4))).2 := .assign _ (.fit _ _ _ (.new h))

/-- `C86_violated`: `4.5`. -/
example : (∀ i, ¬ IsInt (.float (some (4.5 : ℚ))) i) ∧ ∀ t, (.float (some (4.5 : ℚ)) : PyVal ℚ) ≠ .str t := by
  constructor
  · intro i h; simp [IsInt] at h
  · intro t h; cases h

end Verif
