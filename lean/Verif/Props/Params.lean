import Verif.Proofs.ParamsEst
import Verif.Proofs.EstFail
import Verif.Proofs.EstToy
import Verif.Props.Estimator
import Verif.Props.EstimatorRandom

/-! # C68 and C69: hyperparameters always hold allowed values; `fit`, `get_params` and `clone` respect them -/
namespace Verif
open Spec
set_option linter.unusedSectionVars false

section
variable {K : Type} [Field K] [LinearOrder K]

/-! ## C68 -/

/-- **C68** An assignment changes no other hyperparameter; the one it names keeps its value or gets the new one; an exception leaves the object as
it was. -/
theorem C68_effect (p : Param) (v : PyVal K) (o : PObj K) :
    ∃ r o', assign p v o = (r, o') ∧ o'.kind = o.kind ∧ o'.fitted = o.fitted ∧ (∀ q, q ≠ p → o'.vals q = o.vals q) ∧
      (o'.vals p = o.vals p ∨ o'.vals p = some v) ∧ ∀ e, r = .error e → o' = o := by
  obtain ⟨h1, h2, h3, h4, h5⟩ := assign_after p v o
  exact ⟨_, _, rfl, h1, h2, h3, h4.imp id And.left, h5⟩

/-- **C68**, partial: an assignment of an allowed value is stored, unless the hyperparameter is locked after `fit`; all other assignments raise
and change nothing. Before `fit` the exception is ValueError. Missing: `random_state`, NaN, and the three hyperparameters that are not checked before
`fit`, see `C68_violated_random_state`, `C68_violated_nan` and `C68_violated_unchecked`. -/
theorem C68_assign_partial {p : Param} {v : PyVal K} {o : PObj K} (hp : HasParam o.kind p) (hc : Checked p) (hr : p ≠ .randomState)
    (hn : ¬ NanPasses p v) :
    (Allowed o.kind p v → ¬ (o.fitted = true ∧ Locked o.kind p) → ∃ o', assign p v o = (.ok (), o') ∧ o'.vals p = some v) ∧
    (¬ Allowed o.kind p v ∨ (o.fitted = true ∧ Locked o.kind p) → ∃ e, assign p v o = (.error e, o) ∧ (o.fitted = false → e = .valueError)) := by
  constructor
  · intro ha hl
    exact ⟨_, assign_store ((setter_free hp hc hr hn hl).1 ha), Function.update_self ..⟩
  · intro h
    by_cases hl : o.fitted = true ∧ Locked o.kind p
    · obtain ⟨e, he⟩ := setter_locked v hl.2
      rw [← hl.1] at he
      exact ⟨e, assign_raise he, fun h => by rw [hl.1] at h; cases h⟩
    · exact ⟨_, assign_raise ((setter_free hp hc hr hn hl).2 (h.resolve_right hl)), fun _ => rfl⟩

/-- **C68**, partial: whatever a program does with a forest, calls of the constructor, assignments, `set_params` and `fit`, with and without
exceptions, every hyperparameter has an allowed value. Missing: as in `C68_assign_partial`; `random_state` may not exist. -/
theorem C68_always_partial {k : ForestKind} {o : PObj K} (h : Reach k o) (p : Param) (hp : HasParam k p) :
    (p ≠ .randomState → ∃ v, o.vals p = some v) ∧
    (Checked p → ∀ v, o.vals p = some v → Allowed k p v ∨ NanPasses p v) := by
  have hs := Reach.sound h
  refine ⟨hs.exist p hp, fun hc v hv => ?_⟩
  by_contra hno
  simp only [not_or] at hno
  have hst := hs.stored p v hv
  by_cases hr : p = .randomState
  · subst hr
    refine hno.1 ?_
    simp only [setter, Bool.false_eq_true, if_false] at hst
    split at hst
    · exact .inl rfl
    · split at hst
      · rename_i h; exact .inr (.inl (intGe_iff.1 h))
      · cases hst
  · rw [(setter_free hp hc hr hno.2 (fitted := false) (by simp)).2 hno.1] at hst
    cases hst

/-- **C68**, partial: with allowed arguments the constructor gives an object whose hyperparameters are these arguments; with an argument that is not
allowed it raises ValueError. Missing: as in `C68_assign_partial`. -/
theorem C68_construct_partial (k : ForestKind) (args : Param → PyVal K) :
    ((∀ p, HasParam k p → Allowed k p (args p)) → (∀ id, args .randomState ≠ .rng id) →
      ∃ o, construct k args = .ok o ∧ o.kind = k ∧ o.fitted = false ∧ ∀ p, HasParam k p → o.vals p = some (args p)) ∧
    (∀ p, HasParam k p → Checked p → p ≠ .randomState → ¬ NanPasses p (args p) → ¬ Allowed k p (args p) → construct k args = .error .valueError) := by
  constructor
  · intro ha hrng
    refine construct_ok fun p hp => ?_
    exact setter_allowed hp (ha p hp) (fun hr => by subst hr; exact hrng) (by simp)
  · intro p hp hc hr hn ha
    cases h : construct k args with
    | error e => rw [construct_error h]
    | ok o =>
      obtain ⟨-, -, h3, -⟩ := construct_inv h
      have := (setter_free hp hc hr hn (fitted := false) (by simp)).2 ha
      rcases h3 p hp with ⟨h', -⟩ | ⟨h', -⟩ <;> rw [this] at h' <;> cases h'

/-- **C68** `set_params` is not atomic: it stores the values in their order up to the first one that is refused. `l` are arguments with
allowed values; after them comes nothing, a name that is no hyperparameter of the class, or a value that is not allowed, and then anything. -/
theorem C68_set_params {k : ForestKind} {o : PObj K} (h : Reach k o) (hex : (o.vals .randomState).isSome) {l : List (Param × PyVal K)}
    {rest : List (Option Param × PyVal K)} (hn : (l.map (·.1)).Nodup)
    (hl : ∀ x ∈ l, HasParam k x.1 ∧ Allowed k x.1 x.2 ∧ (x.1 = .randomState → ∀ id, x.2 ≠ .rng id) ∧ ¬ (o.fitted = true ∧ Locked k x.1))
    (hrest : rest = [] ∨ (∃ v r, rest = (none, v) :: r) ∨ (∃ p v r, rest = (some p, v) :: r ∧ ¬ HasParam k p) ∨
      ∃ p v r, rest = (some p, v) :: r ∧ HasParam k p ∧ Checked p ∧ p ≠ .randomState ∧ ¬ NanPasses p v ∧ ¬ Allowed k p v) :
    ∃ r o', setParams (l.map (fun x => (some x.1, x.2)) ++ rest) o = (r, o') ∧ (r = .ok () ↔ rest = []) ∧ (∀ x ∈ l, o'.vals x.1 = some x.2) ∧
      ∀ p, p ∉ l.map (·.1) → o'.vals p = o.vals p := by
  have hs := Reach.sound h
  obtain rfl := hs.kind
  have hset : ∀ x ∈ l, HasParam o.kind x.1 ∧ setter o.kind o.fitted x.1 x.2 = .store := fun x hx => by
    obtain ⟨h1, h2, h3, h4⟩ := hl x hx
    exact ⟨h1, setter_allowed h1 h2 h3 h4⟩
  obtain ⟨o', h1, h2, h3, h4, h5⟩ := setAll_ok rest hn hset
  have hend : ∃ r, setAll rest o' = (r, o') ∧ (r = .ok () ↔ rest = []) := by
    rcases hrest with rfl | ⟨v, r, rfl⟩ | ⟨p, v, r, rfl, hp⟩ | ⟨p, v, r, rfl, hp, hc, hr, hna, ha⟩
    · exact ⟨.ok (), rfl, by simp⟩
    · refine ⟨.error .valueError, rfl, by simp⟩
    · refine ⟨.error .valueError, ?_, by simp⟩
      unfold setAll
      rw [Py.bind_of_ok (Py.read_apply _ o')]
      simp only
      rw [if_neg (by rw [h2]; exact fun h => hp (hasParam_iff.2 h))]
      rfl
    · obtain ⟨e, he⟩ : ∃ e, setter o.kind o.fitted p v = .raise e := by
        by_cases hlk : o.fitted = true ∧ Locked o.kind p
        · obtain ⟨e, he⟩ := setter_locked v hlk.2
          exact ⟨e, by rw [hlk.1]; exact he⟩
        · exact ⟨_, (setter_free hp hc hr hna hlk).2 ha⟩
      refine ⟨.error e, ?_, by simp⟩
      unfold setAll
      rw [Py.bind_of_ok (Py.read_apply _ o')]
      simp only
      rw [if_pos (by rw [h2]; exact hasParam_iff.1 hp), Py.bind_of_error (assign_raise (by rw [h2, h3]; exact he))]
  obtain ⟨r, hr, hr0⟩ := hend
  have hg : ∃ ps, getParams o = .ok ps := ⟨_, getParams_ok (f := fun p => (o.vals p).getD .none) fun p hp => by
    by_cases hr : p = .randomState
    · subst hr
      obtain ⟨v, hv⟩ := Option.isSome_iff_exists.1 hex
      rw [hv]; rfl
    · obtain ⟨v, hv⟩ := hs.exist p hp hr
      rw [hv]; rfl⟩
  obtain ⟨ps, hg⟩ := hg
  refine ⟨r, o', ?_, hr0, h4, h5⟩
  cases hkvs : l.map (fun x => (some x.1, x.2)) ++ rest with
  | nil =>
    rw [hkvs] at h1
    simp only [List.append_eq_nil_iff, List.map_eq_nil_iff] at hkvs
    obtain ⟨rfl, rfl⟩ := hkvs
    have : (Except.ok (), o) = (r, o') := h1.trans hr
    exact this
  | cons x l' =>
    unfold setParams
    simp only
    rw [hg, ← hkvs, h1, hr]

/-- **C68** is violated by NaN: the setters of `step`, `dirichlet` and `max_features` store it. -/
theorem C68_violated_nan (o : PObj K) (p : Param) (hp : p = .step ∨ p = .dirichlet ∨ p = .maxFeatures) :
    ∃ o', assign p (.float none) o = (.ok (), o') ∧ o'.vals p = some (.float none) ∧ ¬ Allowed o.kind p (.float none : PyVal K) := by
  refine ⟨_, assign_store ?_, Function.update_self .., ?_⟩
  · rcases hp with rfl | rfl | rfl
    · rfl
    · cases hk : o.kind <;> rfl
    · rfl
  · rcases hp with rfl | rfl | rfl <;> simp [Allowed, IsInt]

/-- **C68** is violated by `random_state`: a negative number, or any other object, among them the `RandomState` instances that the documentation
allows, is dropped without an exception, and the old value remains. -/
theorem C68_violated_random_state (o : PObj K) (hf : o.fitted = false) :
    (∀ i : Int, i < 0 → ¬ Allowed o.kind .randomState (.int i : PyVal K) ∧ assign .randomState (.int i) o = (.ok (), o)) ∧
    (∀ id, Allowed o.kind .randomState (.rng id : PyVal K) ∧ assign .randomState (.rng id) o = (.ok (), o)) := by
  refine ⟨fun i hi => ⟨by simp [Allowed, IsInt]; omega, ?_⟩, fun id => ⟨.inr (.inr ⟨id, rfl⟩), ?_⟩⟩
  · unfold assign
    simp only [setter, hf, Bool.false_eq_true, if_false, PyVal.intGe, PyVal.int?, decide_eq_true_eq]
    rw [if_neg (by omega)]
  · unfold assign
    simp [setter, hf, PyVal.intGe, PyVal.int?]

/-- **C68** is violated by the settings of the encoder: any value is stored. -/
theorem C68_violated_unchecked (o : PObj K) (p : Param) (hp : p = .handleUnknown ∨ p = .catMinCategories ∨ p = .subsample) (v : PyVal K) :
    ∃ o', assign p v o = (.ok (), o') ∧ o'.vals p = some v := by
  refine ⟨_, assign_store ?_, Function.update_self ..⟩
  rcases hp with rfl | rfl | rfl <;> rfl

end

/-! ## The hyperparameters at `fit` -/

section
variable {L V K F P G W N : Type} [LinearOrder L] [DecidableEq V] [DecidableEq N] [LinearOrder K] [Field K] [IsStrictOrderedRing K] [FloorSemiring K] [Num F]

/-- **C68** What a forest has gone through before `fit` guarantees what the theorems about `fit` ask of its hyperparameters: it is the estimator
of a constructor with valid parameters and holds the values of the object, provided that `random_state` exists, no value is NaN, the settings of the encoder, which are not checked before, are
allowed, an integer `max_features` is at most the number of features, and `max_bins` is below `2 ^ 63`. -/
theorem C68_ready {k : ForestKind} {o : PObj K} (h : Reach k o) (toF : Option K → F) (cats : PyVal K → CatFeatures) {d : Nat}
    (hr : (o.vals .randomState).isSome) (hnan : ∀ p, o.vals p ≠ some (.float none))
    (henc : ∀ p, ¬ Checked p → ∀ v, o.vals p = some v → Allowed k p v)
    (hmf : ∀ v i, o.vals .maxFeatures = some v → IsInt v i → i ≤ d) (hmb : ∀ v i, o.vals .maxBins = some v → IsInt v i → i < 2 ^ 63) :
    ∃ e : Est L V K F P G, o.toEst toF cats = some e ∧ SameValues toF cats o e ∧ Fresh e ∧ ParamsValid e d ∧ (k = .regressor → e.ovr = false) ∧
      (k = .classifier → ∃ x, o.vals .dirichlet = some (.float (some x)) ∧ 0 ≤ x ∧ e.dirichlet = toF (some x)) := by
  have hal : ∀ p, HasParam k p → p ≠ .randomState → ∃ v, o.vals p = some v ∧ Allowed k p v := fun p hp hr => by
    obtain ⟨h1, h2⟩ := C68_always_partial h p hp
    obtain ⟨v, hv⟩ := h1 hr
    refine ⟨v, hv, ?_⟩
    by_cases hc : Checked p
    · exact (h2 hc v hv).resolve_right fun hn => hnan p (hn.1 ▸ hv)
    · exact henc p hc v hv
  have hb : ∀ p, p ≠ .dirichlet → p ≠ .classWeight → p ≠ .multiclass → p ≠ .catSplitStrategy → HasParam k p := fun p h1 h2 h3 h4 => .inr ⟨h1, h2, h3, h4⟩
  have hk := (Reach.sound h).kind
  have hrs : ∃ v, o.vals .randomState = some v ∧ (v = .none ∨ ∃ i, IsInt v i ∧ 0 ≤ i) := by
    obtain ⟨v, hv⟩ := Option.isSome_iff_exists.1 hr
    refine ⟨v, hv, ?_⟩
    have hst := (Reach.sound h).stored _ v hv
    simp only [setter, Bool.false_eq_true, if_false] at hst
    split at hst
    · exact .inl rfl
    · split at hst
      · rename_i hg; exact .inr (intGe_iff.1 hg)
      · cases hst
  suffices hs : ∃ e : Est L V K F P G, o.toEst toF cats = some e ∧ Fresh e ∧ ParamsValid e d ∧ (k = .regressor → e.ovr = false) ∧
      (k = .classifier → ∃ x, o.vals .dirichlet = some (.float (some x)) ∧ 0 ≤ x ∧ e.dirichlet = toF (some x)) by
    obtain ⟨e, he, hs⟩ := hs
    exact ⟨e, he, toEst_values hk hal hrs he, hs⟩
  obtain ⟨v1, e1, i1, hi1, g1⟩ := hal .nEstimators (hb _ (by simp) (by simp) (by simp) (by simp)) (by simp)
  obtain ⟨v2, e2, x2, rfl, g2⟩ := hal .step (hb _ (by simp) (by simp) (by simp) (by simp)) (by simp)
  obtain ⟨v3, e3, b3, rfl⟩ := hal .aggregation (hb _ (by simp) (by simp) (by simp) (by simp)) (by simp)
  obtain ⟨v4, e4, g4⟩ := hal .maxDepth (hb _ (by simp) (by simp) (by simp) (by simp)) (by simp)
  obtain ⟨v5, e5, i5, hi5, g5⟩ := hal .minSamplesSplit (hb _ (by simp) (by simp) (by simp) (by simp)) (by simp)
  obtain ⟨v6, e6, i6, hi6, g6⟩ := hal .minSamplesLeaf (hb _ (by simp) (by simp) (by simp) (by simp)) (by simp)
  obtain ⟨v7, e7, i7, hi7, g7⟩ := hal .maxBins (hb _ (by simp) (by simp) (by simp) (by simp)) (by simp)
  obtain ⟨v8, e8, -⟩ := hal .categoricalFeatures (hb _ (by simp) (by simp) (by simp) (by simp)) (by simp)
  obtain ⟨v9, e9, g9⟩ := hal .maxFeatures (hb _ (by simp) (by simp) (by simp) (by simp)) (by simp)
  obtain ⟨v10, e10, g10⟩ := hal .subsample (hb _ (by simp) (by simp) (by simp) (by simp)) (by simp)
  obtain ⟨v11, e11, g11⟩ := hal .catMinCategories (hb _ (by simp) (by simp) (by simp) (by simp)) (by simp)
  obtain ⟨v12, e12, g12⟩ := hal .handleUnknown (hb _ (by simp) (by simp) (by simp) (by simp)) (by simp)
  obtain ⟨vr, er⟩ := Option.isSome_iff_exists.1 hr
  obtain ⟨dep, hdep⟩ : ∃ r, v4.maxDepth? = some r := by
    rcases g4 with rfl | ⟨i, hi, -⟩
    · exact ⟨_, rfl⟩
    · rcases hi with rfl | ⟨rfl, rfl⟩ | ⟨rfl, rfl⟩ <;> exact ⟨_, rfl⟩
  obtain ⟨sub, hsub, hsub'⟩ := subsample?_allowed (by exact g10)
  obtain ⟨cm, hcm, hcm'⟩ := catMin?_allowed (by exact g11)
  obtain ⟨mf, hmf', hacc, hin⟩ : ∃ m, v9.maxFeatures? = some m ∧ setMaxFeatures m = .ok m ∧ ((∀ i : Int, m = .int i → i ≤ d) ∧ m ≠ .float none) := by
    have hint : ∀ i, IsInt v9 i → 1 ≤ i → ∃ m, v9.maxFeatures? = some m ∧ setMaxFeatures m = .ok m ∧ ((∀ i : Int, m = .int i → i ≤ d) ∧ m ≠ .float none) := by
      intro i hi h1
      have hle := hmf v9 i e9 hi
      refine ⟨.int i, ?_, ?_, ?_, by simp⟩
      · rcases hi with rfl | ⟨rfl, rfl⟩ | ⟨rfl, rfl⟩ <;> rfl
      · simp only [setMaxFeatures]; rw [if_neg (by omega)]
      · intro j hj; injection hj with hj; omega
    rcases g9 with rfl | rfl | rfl | rfl | ⟨i, hi, h1⟩ | ⟨x, rfl, h1, h2⟩
    · exact ⟨_, rfl, rfl, by simp, by simp⟩
    · exact ⟨_, rfl, by simp [setMaxFeatures], by simp, by simp⟩
    · exact ⟨_, rfl, by simp [setMaxFeatures], by simp, by simp⟩
    · exact ⟨_, rfl, by simp [setMaxFeatures], by simp, by simp⟩
    · exact hint i hi h1
    · refine ⟨_, rfl, ?_, by simp, by simp⟩
      simp only [setMaxFeatures]
      rw [if_neg (by rw [not_or, not_lt, not_le]; exact ⟨h2, h1⟩)]
  have hi7' := hmb v7 i7 e7 hi7
  cases k with
  | regressor =>
    refine ⟨_, by
      unfold PObj.toEst
      simp only [e1, e2, e3, e4, e5, e6, e7, e8, e9, e10, e11, e12, hk, Option.bind_eq_bind, Option.bind_some, int?_iff.2 hi1, int?_iff.2 hi5,
        int?_iff.2 hi6, int?_iff.2 hi7, hdep, hsub, hcm, hmf']
      rfl, ?_⟩
    refine ⟨⟨rfl, rfl, ⟨rfl, rfl, rfl, rfl, rfl, rfl⟩, ⟨rfl, rfl, rfl⟩, rfl⟩, ?_, fun _ => rfl, fun h => by cases h⟩
    refine ⟨?_, ⟨?_, ?_⟩, hacc, hin, ?_, ?_, hsub', hcm'⟩
    · show 1 ≤ i1.toNat; omega
    · show 3 ≤ i7.toNat; omega
    · show i7.toNat < 2 ^ 63; omega
    · show 1 ≤ i5.toNat; omega
    · exact ⟨_, by show Option.map _ (o.vals .randomState) = _; rw [er]; rfl⟩
  | classifier =>
    obtain ⟨v13, e13, -⟩ := hal .criterion (.inl rfl) (by simp)
    obtain ⟨v14, e14, x14, rfl, g14⟩ := hal .dirichlet (.inl rfl) (by simp)
    obtain ⟨v15, e15, -⟩ := hal .classWeight (.inl rfl) (by simp)
    obtain ⟨v16, e16, -⟩ := hal .multiclass (.inl rfl) (by simp)
    obtain ⟨v17, e17, g17⟩ := hal .catSplitStrategy (.inl rfl) (by simp)
    obtain ⟨st, hst⟩ : ∃ st, v17.strategy? = some st := by
      rcases g17 with rfl | rfl | rfl
      · exact ⟨.binary, rfl⟩
      · exact ⟨.all, rfl⟩
      · exact ⟨.random, rfl⟩
    refine ⟨_, by
      unfold PObj.toEst
      simp only [e1, e2, e3, e4, e5, e6, e7, e8, e9, e10, e11, e12, e13, e14, e15, e16, e17, hk, Option.bind_eq_bind, Option.bind_some, int?_iff.2 hi1,
        int?_iff.2 hi5, int?_iff.2 hi6, int?_iff.2 hi7, hdep, hsub, hcm, hmf', hst]
      rfl, ?_⟩
    refine ⟨⟨rfl, rfl, ⟨rfl, rfl, rfl, rfl, rfl, rfl⟩, ⟨rfl, rfl, rfl⟩, rfl⟩, ?_, fun h => (by cases h), fun _ => ⟨x14, e14, g14, rfl⟩⟩
    refine ⟨?_, ⟨?_, ?_⟩, hacc, hin, ?_, ?_, hsub', hcm'⟩
    · show 1 ≤ i1.toNat; omega
    · show 3 ≤ i7.toNat; omega
    · show i7.toNat < 2 ^ 63; omega
    · show 1 ≤ i5.toNat; omega
    · exact ⟨_, by show Option.map _ (o.vals .randomState) = _; rw [er]; rfl⟩

/-- **C68** Values of `subsample` and `cat_min_categories` that are not allowed, which the setters let pass, are refused by `fit` (and so is `max_bins` below 3);
the trees and the encoder stay as they were. -/
theorem C68_fit_refuses {lib : Lib V K F G W} {a : FitArgs N V} {y : List F} {s : World L V K F F G W}
    (h : s.self.maxBins < 3 ∨ (∃ k, s.self.subsample = some k ∧ k < 50000) ∨ ∃ k, s.self.catMin = .int k ∧ k ≤ 3) :
    ∃ e s', fitRegressor lib a y s = (.error e, s') ∧ s'.self.trees = s.self.trees ∧ s'.self.encoder = s.self.encoder ∧ s'.self.fitted = s.self.fitted := by
  have h0 := fitChecks_settings (L := L) (K := K) (P := F) (G := G) (W := W) a y.length s
  have h1 := fitChecks_keeps (fun s : World L V K F F G W => (s.self.trees, s.self.encoder, s.self.fitted)) a y.length (fun _ => rfl) s
  unfold fitRegressor
  cases hm : fitChecks a y.length s with
  | mk r s1 =>
    rw [hm] at h0 h1
    simp only [Prod.mk.injEq] at h1
    cases r with
    | error e => exact ⟨e, s1, by rw [Py.bind_of_error hm], h1.1, h1.2.1, h1.2.2⟩
    | ok sw =>
      rw [Py.bind_of_ok hm, Py.bind_of_ok (a := (⟨fun _ => regressorTask lib.argsort, false, [y], [sw]⟩ : FitData F (F × F) F G)) (s' := s1)
        (m := prepRegressor lib y sw) rfl]
      obtain ⟨e, s', h2, h3, h4, h5⟩ := fitRest_refused (lib := lib) (a := a) (p := (⟨fun _ => regressorTask lib.argsort, false, [y], [sw]⟩ : FitData F (F × F) F G))
        (settings_refused h h0)
      exact ⟨e, s', h2, h3.trans h1.1, h4.trans h1.2.1, h5.trans h1.2.2⟩

/-- **C68** The same for a classifier. -/
theorem C68_fit_refuses_classifier {lib : Lib V K F G W} {a : FitArgs N V} {y : List L} {s : World L V K F (List F) G W}
    (h : s.self.maxBins < 3 ∨ (∃ k, s.self.subsample = some k ∧ k < 50000) ∨ ∃ k, s.self.catMin = .int k ∧ k ≤ 3) :
    ∃ e s', fitClassifier lib a y s = (.error e, s') ∧ s'.self.trees = s.self.trees ∧ s'.self.encoder = s.self.encoder ∧ s'.self.fitted = s.self.fitted := by
  have h0 := fitChecks_settings (L := L) (K := K) (P := List F) (G := G) (W := W) a y.length s
  have h1 := fitChecks_keeps (fun s : World L V K F (List F) G W => (s.self.trees, s.self.encoder, s.self.fitted)) a y.length (fun _ => rfl) s
  unfold fitClassifier
  cases hm : fitChecks a y.length s with
  | mk r s1 =>
    rw [hm] at h0 h1
    simp only [Prod.mk.injEq] at h1
    cases r with
    | error e => exact ⟨e, s1, by rw [Py.bind_of_error hm], h1.1, h1.2.1, h1.2.2⟩
    | ok sw =>
      have k0 := prepClassifier_settings lib a y sw s1
      have k1 := prepClassifier_trees lib a y sw s1
      rw [Py.bind_of_ok hm]
      cases hm2 : prepClassifier lib a y sw s1 with
      | mk r2 s2 =>
        rw [hm2] at k0 k1
        simp only [Prod.mk.injEq] at k1
        cases r2 with
        | error e => exact ⟨e, s2, by rw [Py.bind_of_error hm2], k1.1.trans h1.1, k1.2.1.trans h1.2.1, k1.2.2.trans h1.2.2⟩
        | ok p =>
          rw [Py.bind_of_ok hm2]
          obtain ⟨e, s', h2, h3, h4, h5⟩ := fitRest_refused (lib := lib) (a := a) (p := p) (settings_refused h (k0.trans h0))
          exact ⟨e, s', h2, h3.trans (k1.1.trans h1.1), h4.trans (k1.2.1.trans h1.2.1), h5.trans (k1.2.2.trans h1.2.2)⟩

end

section
variable {L V K G W N : Type} [LinearOrder L] [DecidableEq V] [DecidableEq N] [LinearOrder K] [Field K] [IsStrictOrderedRing K] [FloorSemiring K]

/-- **C68** From the constructor to predictions: whatever assignments a program made to a regressor, `fit` succeeds on valid data, and the predictions
lie between the smallest and the largest label. -/
theorem C68_regressor {o : PObj K} (h : Reach .regressor o) (toF : Option K → ℝ) (cats : PyVal K → CatFeatures)
    {lib : Lib V K ℝ G W} {a : FitArgs N V} {y w : List ℝ} {np : W} {lo hi : ℝ}
    (hr : (o.vals .randomState).isSome) (hnan : ∀ p, o.vals p ≠ some (.float none))
    (henc : ∀ p, ¬ Checked p → ∀ v, o.vals p = some v → Allowed .regressor p v)
    (hmf : ∀ v i, o.vals .maxFeatures = some v → IsInt v i → i ≤ nCols a.X) (hmb : ∀ v i, o.vals .maxBins = some v → IsInt v i → i < 2 ^ 63)
    (hlib : LibOK lib a.nRows) (hd : ∀ e : Est L V K ℝ ℝ G, DataValid lib.conv a (⟨e, w, np⟩ : World L V K ℝ ℝ G W) y.length)
    (hw : ∀ x ∈ w, 0 < x) (hy : ∀ v ∈ y, lo ≤ v ∧ v ≤ hi) :
    ∃ (e : Est L V K ℝ ℝ G) (s' : World L V K ℝ ℝ G W), o.toEst toF cats = some e ∧ fitRegressor lib a y ⟨e, w, np⟩ = (.ok (), s') ∧
      ∀ (N' : Type) [DecidableEq N'] (n : Nat) (X : Dataset N' V), 0 < n → GoodInput n X → AcceptedBy lib s'.self X →
        ∃ out, s'.self.predictReg lib n X = .ok out ∧ out.length = n ∧ ∀ v ∈ out, lo ≤ v ∧ v ≤ hi := by
  obtain ⟨e, he, -, -, hp, ho, -⟩ := C68_ready (L := L) (V := V) (F := ℝ) (P := ℝ) (G := G) h toF cats hr hnan henc hmf hmb
  obtain ⟨s', h1, -, -, h2⟩ := C54_regressor (s := ⟨e, w, np⟩) hlib hp (hd e) (ho rfl) hw hy
  exact ⟨e, s', he, h1, h2⟩

/-- **C68** The same for a classifier. -/
theorem C68_classifier {o : PObj K} (h : Reach .classifier o) (toF : Option K → ℝ) (hF : ∀ x, 0 < x → 0 < toF (some x)) (cats : PyVal K → CatFeatures)
    {lib : Lib V K ℝ G W} {a : FitArgs N V} {y : List L} {w : List ℝ} {np : W} {eps : ℝ} (heps : 0 ≤ eps)
    (hr : (o.vals .randomState).isSome) (hnan : ∀ p, o.vals p ≠ some (.float none))
    (henc : ∀ p, ¬ Checked p → ∀ v, o.vals p = some v → Allowed .classifier p v)
    (hmf : ∀ v i, o.vals .maxFeatures = some v → IsInt v i → i ≤ nCols a.X) (hmb : ∀ v i, o.vals .maxBins = some v → IsInt v i → i < 2 ^ 63)
    (hdir : o.vals .dirichlet ≠ some (.float (some 0))) (hst : ∀ st, StrategyOK y.dedup.length st)
    (hlib : LibOK lib a.nRows) (hd : ∀ e : Est L V K ℝ (List ℝ) G, DataValid lib.conv a (⟨e, w, np⟩ : World L V K ℝ (List ℝ) G W) y.length)
    (ht : a.targetsOK = true) (hw : ∀ x ∈ w, 0 ≤ x) :
    ∃ (e : Est L V K ℝ (List ℝ) G) (s' : World L V K ℝ (List ℝ) G W), o.toEst toF cats = some e ∧ fitClassifier lib a y ⟨e, w, np⟩ = (.ok (), s') ∧
      ∀ (N' : Type) [DecidableEq N'] (n : Nat) (X : Dataset N' V), 0 < n → GoodInput n X → AcceptedBy lib s'.self X →
        ∃ proba, s'.self.predictProba lib eps n X = .ok proba ∧ proba.length = n ∧ ∀ p ∈ proba, Distribution s'.self.classes.length p := by
  obtain ⟨e, he, -, hfr, hp, -, hdi⟩ := C68_ready (L := L) (V := V) (F := ℝ) (P := List ℝ) (G := G) h toF cats hr hnan henc hmf hmb
  obtain ⟨x, hx, hx0, hex⟩ := hdi rfl
  have hpos : 0 < e.dirichlet := by
    rw [hex]
    exact hF x (lt_of_le_of_ne hx0 fun h0 => hdir (h0 ▸ hx))
  obtain ⟨s', h1, -, -, -, h2⟩ := C54_classifier (s := ⟨e, w, np⟩) heps hlib hp (hd e) ht (fun _ hf => by rw [hfr.fitted] at hf; cases hf) (hst _) hpos.le
    (fun _ => hpos) hw (.inl hpos)
  refine ⟨e, s', he, h1, fun N' _ n X hn hX hA => ?_⟩
  obtain ⟨proba, -, h3, h4, h5, -⟩ := h2 N' n X hn hX hA
  exact ⟨proba, h3, h4, h5⟩

end

/-! ## C69 -/

section
variable {K : Type} [Field K] [LinearOrder K]

/-- **C69**, partial: in every state that a program can reach, `clone` gives a forest that is not fitted and has the same hyperparameters. Missing:
`random_state` must exist, see `C69_violated_clone`. -/
theorem C69_clone_partial {k : ForestKind} {o : PObj K} (h : Reach k o) (hr : (o.vals .randomState).isSome) :
    ∃ c, clone o = .ok c ∧ c.kind = k ∧ c.fitted = false ∧ ∀ p, HasParam k p → c.vals p = o.vals p :=
  clone_ok (Reach.sound h) hr

/-- **C69** is violated: a forest constructed with `random_state=RandomState(…)`, which the documentation allows, or with a negative number, exists,
but `get_params`, `clone` and `set_params` raise AttributeError for it. -/
theorem C69_violated_clone {k : ForestKind} {args : Param → PyVal K} (ha : ∀ p, HasParam k p → p ≠ .randomState → Allowed k p (args p))
    (hr : (∃ id, args .randomState = .rng id) ∨ ∃ i : Int, args .randomState = .int i ∧ i < 0) :
    ∃ o, construct k args = .ok o ∧ getParams o = .error .attributeError ∧ clone o = .error .attributeError ∧
      ∀ x l, setParams (x :: l) o = (.error .attributeError, o) := by
  have hig : setter k false .randomState (args .randomState) = .ignore := by
    rcases hr with ⟨id, h⟩ | ⟨i, h, hi⟩
    · rw [h]; rfl
    · rw [h]
      simp only [setter, Bool.false_eq_true, if_false, PyVal.intGe, PyVal.int?, decide_eq_true_eq]
      rw [if_neg (by omega)]
  obtain ⟨o0, h0, -, -, hv0⟩ := (C68_construct_partial k (Function.update args .randomState .none)).1 (fun p hp => by
    by_cases hpr : p = .randomState
    · subst hpr; rw [Function.update_self]; exact .inl rfl
    · rw [Function.update_of_ne hpr]; exact ha p hp hpr) (fun id h => by rw [Function.update_self] at h; cases h)
  obtain ⟨-, -, hs0, -⟩ := construct_inv h0
  have hst : ∀ p, HasParam k p → p ≠ .randomState → setter k false p (args p) = .store := fun p hp hpr => by
    rcases hs0 p hp with ⟨h, -⟩ | ⟨h, -⟩
    · rwa [Function.update_of_ne hpr] at h
    · exact absurd (setter_ignore h) hpr
  obtain ⟨o, hc⟩ : ∃ o, construct k args = .ok o := by
    have hall : ∀ (l : List Param) (o : PObj K), o.kind = k → o.fitted = false → (∀ p ∈ l, HasParam k p) →
        ∃ o', assignEach (l.map fun p => (p, args p)) o = (.ok (), o') := by
      intro l
      induction l with
      | nil => exact fun o _ _ _ => ⟨o, rfl⟩
      | cons p l ih =>
        intro o hk hf hl
        have ha : ∃ o1, assign p (args p) o = (.ok (), o1) ∧ o1.kind = k ∧ o1.fitted = false := by
          by_cases hpr : p = .randomState
          · subst hpr
            refine ⟨o, ?_, hk, hf⟩
            unfold assign
            rw [hk, hf, hig]
          · exact ⟨_, assign_store (by rw [hk, hf]; exact hst p (hl p List.mem_cons_self) hpr), hk, hf⟩
        obtain ⟨o1, h1, h2, h3⟩ := ha
        obtain ⟨o', h'⟩ := ih o1 h2 h3 fun q hq => hl q (List.mem_cons_of_mem _ hq)
        refine ⟨o', ?_⟩
        rw [List.map_cons]
        unfold assignEach
        rw [Py.bind_of_ok h1, h']
    obtain ⟨o', h'⟩ := hall (ctorOrder k) ⟨k, false, fun _ => none⟩ rfl rfl fun p hp => hasParam_iff.2 hp
    exact ⟨o', by unfold construct; rw [h']⟩
  obtain ⟨hk, -, hv, -⟩ := construct_inv hc
  have hnone : o.vals .randomState = none := by
    rcases hv .randomState (.inr (by simp)) with ⟨h, -⟩ | ⟨-, h⟩
    · rw [hig] at h; cases h
    · exact h
  have hsome : ∀ p, HasParam k p → p ≠ .randomState → o.vals p = some (args p) := fun p hp hpr => by
    rcases hv p hp with ⟨-, h⟩ | ⟨h, -⟩
    · exact h
    · rw [hst p hp hpr] at h; cases h
  have hg : getParams o = .error .attributeError := by
    unfold getParams
    have hall : ∀ l : List Param, .randomState ∈ l → (l.mapM fun p => match o.vals p with
        | some v => (.ok (p, v) : M (Param × PyVal K))
        | none => .error .attributeError) = .error .attributeError := by
      intro l
      induction l with
      | nil => intro h; cases h
      | cons q l ih =>
        intro hl
        rw [List.mapM_cons]
        cases hq : o.vals q with
        | none => rfl
        | some v =>
          have : Param.randomState ∈ l := by
            rcases List.mem_cons.1 hl with h | h
            · rw [← h, hnone] at hq; cases hq
            · exact h
          simp only [ih this]
          rfl
    exact hall _ (hasParam_iff.1 (.inr (by simp)))
  refine ⟨o, hc, hg, by unfold clone; rw [hg]; rfl, fun x l => ?_⟩
  unfold setParams
  simp only
  rw [hg]

end

section
variable {L V K F P G W N : Type} [LinearOrder L] [DecidableEq V] [DecidableEq N] [LinearOrder K] [Field K] [IsStrictOrderedRing K] [FloorSemiring K] [Num F]

/-- **C69**, partial: a call of `fit` of a classifier, whether it succeeds or raises, leaves the hyperparameters as they were. Missing: the argument
`categorical_features` of `fit`, and `multiclass="ovr"` with at most two classes, see `C69_violated_categorical` and `C69_violated_multiclass`. -/
theorem C69_classifier_partial (lib : Lib V K F G W) (a : FitArgs N V) (y : List L) (s : World L V K F (List F) G W)
    (hcat : a.categorical = .none) (hovr : s.self.ovr = true → 2 < y.dedup.length) :
    ∃ r s', fitClassifier lib a y s = (r, s') ∧ SameHyper s.self s'.self ∧ s'.self.categoricalFeatures = s.self.categoricalFeatures ∧ s'.self.ovr = s.self.ovr := by
  refine ⟨(fitClassifier lib a y s).1, (fitClassifier lib a y s).2, rfl, sameHyper_of (fitClassifier_hyper lib a y s), ?_, ?_⟩
  · rw [fitClassifier_categorical, hcat]; rfl
  · rcases fitClassifier_ovr lib a y s with h | ⟨h, -, h2, -⟩
    · exact h
    · have := hovr h
      rw [sortedUnique_length] at h2
      omega

/-- **C69**, partial, for regressors. Missing: the argument `categorical_features` of `fit`. -/
theorem C69_regressor_partial (lib : Lib V K F G W) (a : FitArgs N V) (y : List F) (s : World L V K F F G W) (hcat : a.categorical = .none) :
    ∃ r s', fitRegressor lib a y s = (r, s') ∧ SameHyper s.self s'.self ∧ s'.self.categoricalFeatures = s.self.categoricalFeatures ∧ s'.self.ovr = s.self.ovr := by
  refine ⟨(fitRegressor lib a y s).1, (fitRegressor lib a y s).2, rfl, sameHyper_of (fitRegressor_hyper lib a y s), ?_, fitRegressor_ovr lib a y s⟩
  rw [fitRegressor_categorical, hcat]; rfl

/-- **C69** is violated: the argument `categorical_features` of `fit` replaces the hyperparameter of the same name, even when `fit` raises. -/
theorem C69_violated_categorical (lib : Lib V K F G W) (a : FitArgs N V) (y : List F) (s : World L V K F F G W) (hcat : a.categorical ≠ .none) :
    (fitRegressor lib a y s).2.self.categoricalFeatures = a.categorical := by
  rw [fitRegressor_categorical]
  unfold catAfter
  split
  · rename_i h; exact absurd h hcat
  · rfl

/-- **C69**, partial: a clone of a fitted regressor repeats the fit: with an integer `random_state` it ends in the same estimator, in any state
of the global generator. Missing: as in `C69_regressor_partial` and C40. -/
theorem C69_refit_partial {lib : Lib V K F G W} {a : FitArgs N V} {y : List F} {s s' : World L V K F F G W} (np : W) {r : Nat}
    (h : fitRegressor lib a y s = (.ok (), s')) (hf : Fresh s.self) (hcat : a.categorical = .none) (hr : s.self.randomState = some (some r))
    (hd : a.randomizedDepth = false) (hsub : ∀ k, s.self.subsample = some k → a.nRows ≤ k) :
    ∃ (c : Est L V K F F G) (s2 : World L V K F F G W), s'.self.clone = .ok c ∧ fitRegressor lib a y ⟨c, s.weights, np⟩ = (.ok (), s2) ∧ s2.self = s'.self := by
  obtain ⟨r', s1, h1, h2, h3, h4⟩ := C69_regressor_partial lib a y s hcat
  rw [h] at h1
  obtain ⟨-, rfl⟩ := Prod.mk.inj h1
  have hc := clone_fresh h2 h3 h4 hf ⟨_, hr⟩
  have hsame := C40_regressor_partial lib a y s np hr hd hsub
  rw [h] at hsame
  obtain ⟨e1, e2, -⟩ := hsame
  refine ⟨s.self, (fitRegressor lib a y { s with np := np }).2, hc, ?_, e2.symm⟩
  exact Prod.ext e1.symm rfl

/-- **C69**, partial: the same for classifiers. Missing: as in `C69_classifier_partial` and C40. -/
theorem C69_refit_classifier_partial {lib : Lib V K F G W} {a : FitArgs N V} {y : List L} {s s' : World L V K F (List F) G W} (np : W) {r : Nat}
    (h : fitClassifier lib a y s = (.ok (), s')) (hf : Fresh s.self) (hcat : a.categorical = .none) (hovr : s.self.ovr = true → 2 < y.dedup.length)
    (hr : s.self.randomState = some (some r)) (hd : a.randomizedDepth = false) (hsub : ∀ k, s.self.subsample = some k → a.nRows ≤ k) :
    ∃ (c : Est L V K F (List F) G) (s2 : World L V K F (List F) G W), s'.self.clone = .ok c ∧ fitClassifier lib a y ⟨c, s.weights, np⟩ = (.ok (), s2) ∧
      s2.self = s'.self := by
  obtain ⟨r', s1, h1, h2, h3, h4⟩ := C69_classifier_partial lib a y s hcat hovr
  rw [h] at h1
  obtain ⟨-, rfl⟩ := Prod.mk.inj h1
  have hc := clone_fresh h2 h3 h4 hf ⟨_, hr⟩
  have hsame := C40_classifier_partial lib a y s np hr hd hsub
  rw [h] at hsame
  obtain ⟨e1, e2, -⟩ := hsame
  refine ⟨s.self, (fitClassifier lib a y { s with np := np }).2, hc, ?_, e2.symm⟩
  exact Prod.ext e1.symm rfl

end

section
variable {L V K G W N : Type} [LinearOrder L] [DecidableEq V] [DecidableEq N] [LinearOrder K] [Field K] [IsStrictOrderedRing K] [FloorSemiring K]

/-- **C69** is violated: `fit` of a classifier with `multiclass="ovr"` on data with at most two classes sets `multiclass` to "multinomial". A clone
of the fitted forest, fitted on data with more classes, is then a multinomial forest with fewer trees than the one that was asked for. -/
theorem C69_violated_multiclass {lib : Lib V K ℝ G W} {a a3 : FitArgs N V} {y y3 : List L} {s : World L V K ℝ (List ℝ) G W}
    (ho : s.self.ovr = true) (hf : s.self.fitted = false) (hy : y.dedup.length ≤ 2) (hy3 : 2 < y3.dedup.length)
    (hlib : LibOK lib a.nRows) (hlib3 : LibOK lib a3.nRows) (hp : ParamsValid s.self (nCols a.X)) (hp3 : ParamsValid s.self (nCols a3.X))
    (hd : DataValid lib.conv a s y.length) (hd3 : ∀ e, DataValid lib.conv a3 (⟨e, s.weights, s.np⟩ : World L V K ℝ (List ℝ) G W) y3.length)
    (ht : a.targetsOK = true) (ht3 : a3.targetsOK = true) (hdir : 0 < s.self.dirichlet) (hst : StrategyOK y.dedup.length s.self.strategy)
    (hst3 : StrategyOK y3.dedup.length s.self.strategy) :
    ∃ s' c s3 s3', fitClassifier lib a y s = (.ok (), s') ∧ s'.self.ovr = false ∧ s'.self.clone = .ok c ∧
      fitClassifier lib a3 y3 ⟨c, s.weights, s.np⟩ = (.ok (), s3) ∧ s3.self.trees.length = s.self.nEstimators ∧
      fitClassifier lib a3 y3 s = (.ok (), s3') ∧ s3'.self.trees.length = s.self.nEstimators * y3.dedup.length := by
  have hlen : ∀ l : List L, (sortedUnique l).length = l.dedup.length := sortedUnique_length
  have hd0 : ∀ e : Est L V K ℝ (List ℝ) G, e.dirichlet = s.self.dirichlet →
      e.aggregation = true → ¬(Num.le e.dirichlet Num.zero = true ∧ Num.le Num.zero e.dirichlet = true) := by
    intro e he _ h
    simp only [Num.le, Num.zero, decide_eq_true_eq] at h
    rw [he] at h
    linarith [h.1]
  have hN : ∀ m k : Nat, k < m → Num.toNat (Num.ofNat k : ℝ) = k := fun m k _ => by simp [Num.toNat, Num.ofNat]
  obtain ⟨e0, o, he0, h1, -⟩ := fitClassifier_ok (okW := fun _ => True) hlib hp hd ht (fun _ h => by rw [hf] at h; cases h) (hd0 s.self rfl)
    (by rw [hlen]; exact hst) (hN _) (fun _ _ => trivial)
  have hovr : o.est.ovr = false := by
    show e0.ovr = false
    rw [he0]
    show staysOvr (withCategorical a.categorical s.self) y = false
    unfold staysOvr
    rw [hlen]
    simp
    intro _; exact hy
  obtain ⟨r, hr⟩ := hp.state
  have hsame := sameHyper_of (fitClassifier_hyper lib a y s)
  rw [h1] at hsame
  have hcl : ∃ c, o.est.clone = .ok c ∧ c.ovr = false ∧ SameHyper o.est c ∧ c.fitted = false := by
    unfold Est.clone
    have : o.est.randomState = some r := hsame.randomState.trans hr
    rw [this]
    exact ⟨_, rfl, hovr, ⟨rfl, rfl, rfl, rfl, rfl, rfl, rfl, rfl, rfl, rfl, rfl, rfl, rfl, this.symm, rfl, rfl⟩, rfl⟩
  obtain ⟨c, hc, hco, hcs, hcf⟩ := hcl
  have hpc : ParamsValid c (nCols a3.X) := by
    obtain ⟨q1, q2, q3, q4, q5, q6, q7⟩ := hp3
    refine ⟨?_, ?_, ?_, ?_, ?_, ?_, ?_⟩
    · rw [hcs.nEstimators, hsame.nEstimators]; exact q1
    · rw [hcs.maxBins, hsame.maxBins]; exact q2
    · rw [hcs.maxFeatures, hsame.maxFeatures]; exact q3
    · rw [hcs.maxFeatures, hsame.maxFeatures]; exact q4
    · rw [hcs.minSplit, hsame.minSplit]; exact q5
    · rw [hcs.randomState, hsame.randomState]; exact q6
    · rw [hcs.subsample, hsame.subsample, hcs.catMin, hsame.catMin]; exact q7
  obtain ⟨e1, o1, he1, h2, hf1⟩ := fitClassifier_ok (okW := fun _ => True) (s := (⟨c, s.weights, s.np⟩ : World L V K ℝ (List ℝ) G W)) hlib3 hpc (hd3 c) ht3
    (fun h => by
      rw [show (⟨c, s.weights, s.np⟩ : World L V K ℝ (List ℝ) G W).self.ovr = c.ovr from rfl, hco] at h
      cases h)
    (hd0 c (hcs.dirichlet.trans hsame.dirichlet)) (by
      rw [hlen, show (⟨c, s.weights, s.np⟩ : World L V K ℝ (List ℝ) G W).self.strategy = s.self.strategy from hcs.strategy.trans hsame.strategy]
      exact hst3) (hN _) (fun _ _ => trivial)
  obtain ⟨e2, o2, he2, h3, hf2⟩ := fitClassifier_ok (okW := fun _ => True) (s := s) hlib3 hp3 (hd3 s.self) ht3
    (fun _ h => by rw [hf] at h; cases h) (hd0 s.self rfl) (by rw [hlen]; exact hst3) (hN _) (fun _ _ => trivial)
  refine ⟨_, c, _, _, h1, hovr, hc, h2, ?_, h3, ?_⟩
  · have hn := hf1.nTrees
    have hov : e1.ovr = false := by
      rw [he1]
      show staysOvr (withCategorical a3.categorical c) y3 = false
      unfold staysOvr
      rw [show (withCategorical a3.categorical c).ovr = c.ovr from rfl, hco]
      rfl
    rw [hov, if_neg (by simp)] at hn
    rw [show e1.nEstimators = c.nEstimators from by rw [he1]; rfl, hcs.nEstimators, hsame.nEstimators] at hn
    exact hn
  · have hn := hf2.nTrees
    have hov : e2.ovr = true := by
      rw [he2]
      show staysOvr (withCategorical a3.categorical s.self) y3 = true
      unfold staysOvr
      rw [show (withCategorical a3.categorical s.self).ovr = s.self.ovr from rfl, ho, hlen]
      simpa using hy3
    rw [hov, if_pos rfl] at hn
    rw [show e2.nEstimators = s.self.nEstimators from by rw [he2]; rfl, show e2.nClasses = (sortedUnique y3).length from by rw [he2]; rfl, hlen] at hn
    exact hn

end

/-! ## Examples -/

/-- Arguments of the constructor. -/
def parArgs (k : ForestKind) : Param → PyVal ℚ
  | .nEstimators => .int 2
  | .criterion => .str (match k with | .classifier => "entropy" | .regressor => "mse")
  | .loss => .str (match k with | .classifier => "log" | .regressor => "mse")
  | .step => .float (some 1)
  | .aggregation => .bool true
  | .dirichlet => .float (some (1 / 2))
  | .maxDepth => .int 6
  | .minSamplesSplit => .int 2
  | .minSamplesLeaf => .int 1
  | .maxBins => .int 5
  | .categoricalFeatures => .none
  | .maxFeatures => .float (some (3 / 4))
  | .handleUnknown => .str "error"
  | .catMinCategories => .int 4
  | .subsample => .float (some 200000)
  | .nJobs => .int (-1)
  | .randomState => .int 7
  | .verbose => .bool false
  | .classWeight => .none
  | .multiclass => .str "ovr"
  | .catSplitStrategy => .str "binary"

theorem parArgs_allowed (k : ForestKind) (p : Param) : Allowed k p (parArgs k p) := by
  cases k <;> cases p <;> simp [Allowed, parArgs, IsInt] <;> norm_num

theorem par_object (k : ForestKind) : ∃ o, construct k (parArgs k) = .ok o ∧ o.kind = k ∧ o.fitted = false ∧ ∀ p, HasParam k p → o.vals p = some (parArgs k p) :=
  (C68_construct_partial k (parArgs k)).1 (fun p _ => parArgs_allowed k p) (fun id h => by simp [parArgs] at h)

/-- `C68_effect` on a refused value. -/
example (o : PObj ℚ) : ∃ r o', assign .nEstimators (.int 0) o = (r, o') ∧ (∀ e, r = .error e → o' = o) := by
  obtain ⟨r, o', h1, -, -, -, -, h⟩ := C68_effect .nEstimators (.int 0) o
  exact ⟨r, o', h1, h⟩

/-- Both parts of `C68_assign_partial`: `max_bins = 4` is stored, `max_bins = 2` raises ValueError. -/
example : ∃ o o' : PObj ℚ, construct .classifier (parArgs .classifier) = .ok o ∧ assign .maxBins (.int 4) o = (.ok (), o') ∧
    o'.vals .maxBins = some (.int 4) ∧ assign .maxBins (.int 2) o = (.error .valueError, o) := by
  obtain ⟨o, h1, hk, hf, -⟩ := par_object .classifier
  have h (v) := C68_assign_partial (p := .maxBins) (v := v) (o := o) (.inl hk) (by simp [Checked]) (by simp) (by simp [NanPasses])
  obtain ⟨o', h2, h3⟩ := (h (.int 4)).1 (by simp [Allowed, IsInt]) (by simp [hf])
  obtain ⟨e, h4, h5⟩ := (h (.int 2)).2 (.inl (by simp [Allowed, IsInt]))
  rw [h5 hf] at h4
  exact ⟨o, o', h1, h2, h3, h4⟩

/-- `set_params(max_depth=3, n_estimators=0, step=2.0)` raises; `max_depth` is changed, `step` is not. -/
example : ∃ o r o', construct .classifier (parArgs .classifier) = .ok o ∧
    setParams [(some .maxDepth, .int 3), (some .nEstimators, .int 0), (some .step, .float (some 2))] o = (r, o') ∧ r ≠ .ok () ∧
    o'.vals .maxDepth = some (.int 3) ∧ o'.vals .step = some (.float (some 1)) := by
  obtain ⟨o, h1, -, hf, hv⟩ := par_object .classifier
  obtain ⟨r, o', h2, h3, h4, h5⟩ := C68_set_params (Reach.new h1) (by rw [hv _ (.inl rfl)]; rfl) (l := [(.maxDepth, .int 3)])
    (rest := [(some .nEstimators, .int 0), (some .step, .float (some 2))]) (by simp)
    (by simp [Allowed, HasParam, IsInt, hf]) (.inr (.inr (.inr ⟨_, _, _, rfl, .inl rfl, by simp [Checked], by simp, by simp [NanPasses],
      by simp [Allowed, IsInt]⟩)))
  exact ⟨o, r, o', h1, h2, fun h => by simpa using h3.1 h, h4 _ List.mem_cons_self, (h5 _ (by simp)).trans (hv _ (.inl rfl))⟩

/-- `C68_always_partial` after a refused assignment, a call of `set_params` that raises, and a `fit` that changed `multiclass`. -/
example : ∃ o o' : PObj ℚ, Reach .classifier o' ∧ FitMay o o' ∧ o'.fitted = true ∧ o'.vals .multiclass = some (.str "multinomial") ∧
    ∃ v, o'.vals .maxDepth = some v ∧ Allowed .classifier .maxDepth v := by
  obtain ⟨o, h1, -, hf, hv⟩ := par_object .classifier
  obtain ⟨r, o1, h2, -, -, h5⟩ := C68_set_params (Reach.new h1) (by rw [hv _ (.inl rfl)]; rfl) (l := [(.maxDepth, .int 3)])
    (rest := [(some .nEstimators, .int 0)]) (by simp)
    (by simp [Allowed, HasParam, IsInt, hf]) (.inr (.inr (.inr ⟨_, _, _, rfl, .inl rfl, by simp [Checked], by simp, by simp [NanPasses],
      by simp [Allowed, IsInt]⟩)))
  have hr : Reach .classifier o1 := by
    have h := (Reach.new h1).setParams ([(Param.maxDepth, PyVal.int 3)].map (fun x => (some x.1, x.2)) ++ [(some .nEstimators, .int 0)])
    rwa [h2] at h
  have hm : o1.vals .multiclass = some (.str "ovr") := (h5 _ (by simp)).trans (hv _ (.inl rfl))
  have hup : Function.update o1.vals .multiclass (some (.str "multinomial")) .multiclass = some (.str "multinomial") := Function.update_self ..
  have hfm : FitMay o1 ⟨.classifier, true, Function.update o1.vals .multiclass (some (.str "multinomial"))⟩ := by
    refine ⟨(Reach.sound hr).kind.symm, fun _ => rfl, fun p => ?_⟩
    by_cases hp : p = .multiclass
    · subst hp; exact .inr (.inr ⟨rfl, hm, hup⟩)
    · exact .inl (Function.update_of_ne hp ..)
  have hr' := (hr.assign .step (.float (some (-1))) (.inl rfl)).fit (o' := ⟨.classifier, true, Function.update o1.vals .multiclass (some (.str "multinomial"))⟩) (by
    rw [show assign .step (.float (some (-1))) o1 = (.error .valueError, o1) from assign_raise (by simp [setter, Decision.check])]
    exact hfm)
  obtain ⟨h2, h3⟩ := C68_always_partial hr' .maxDepth (.inl rfl)
  obtain ⟨v, hv'⟩ := h2 (by simp)
  exact ⟨o1, _, hr', hfm, rfl, hup, v, hv', (h3 (by simp [Checked]) v hv').resolve_right (by simp [NanPasses])⟩

/-- `C68_violated_nan`, `C68_violated_random_state` and `C68_violated_unchecked` for a concrete object. -/
example : ∃ o : PObj ℚ, construct .regressor (parArgs .regressor) = .ok o ∧ (∃ o', assign .step (.float none) o = (.ok (), o') ∧ o'.vals .step = some (.float none)) ∧
    assign .randomState (.rng 0) o = (.ok (), o) ∧ ∃ o', assign .handleUnknown (.str "foo") o = (.ok (), o') ∧ o'.vals .handleUnknown = some (.str "foo") := by
  obtain ⟨o, h1, -, hf, -⟩ := par_object .regressor
  obtain ⟨o', h2, h3, -⟩ := C68_violated_nan o .step (.inl rfl)
  exact ⟨o, h1, ⟨o', h2, h3⟩, ((C68_violated_random_state o hf).2 0).2, C68_violated_unchecked o .handleUnknown (.inl rfl) (.str "foo")⟩

/-- The second part of `C68_construct_partial`: a number for `dirichlet` must be a float. -/
example : construct .classifier (Function.update (parArgs .classifier) .dirichlet (.int 1)) = .error .valueError :=
  (C68_construct_partial _ _).2 .dirichlet (.inl rfl) (by simp [Checked]) (by simp) (by simp [NanPasses]) (by simp [Allowed])

theorem par_ready (k : ForestKind) {o : PObj ℚ} (hv : ∀ p, HasParam k p → o.vals p = some (parArgs k p)) (hx : ∀ p, ¬ HasParam k p → o.vals p = none) :
    (o.vals .randomState).isSome ∧ (∀ p, o.vals p ≠ some (.float none)) ∧ (∀ p, ¬ Checked p → ∀ v, o.vals p = some v → Allowed k p v) ∧
    (∀ v i, o.vals .maxFeatures = some v → IsInt v i → i ≤ (2 : Nat)) ∧ (∀ v i, o.vals .maxBins = some v → IsInt v i → i < 2 ^ 63) := by
  have hb : ∀ p, p ≠ .dirichlet → p ≠ .classWeight → p ≠ .multiclass → p ≠ .catSplitStrategy → HasParam k p := fun p h1 h2 h3 h4 => .inr ⟨h1, h2, h3, h4⟩
  refine ⟨?_, fun p h => ?_, fun p _ v h => ?_, fun v i h hi => ?_, fun v i h hi => ?_⟩
  · rw [hv _ (hb _ (by simp) (by simp) (by simp) (by simp))]; rfl
  · by_cases hp : HasParam k p
    · rw [hv p hp] at h
      cases p <;> simp [parArgs] at h
    · rw [hx p hp] at h; cases h
  · by_cases hp : HasParam k p
    · rw [hv p hp] at h
      injection h with h
      rw [← h]
      exact parArgs_allowed k p
    · rw [hx p hp] at h; cases h
  · rw [hv _ (hb _ (by simp) (by simp) (by simp) (by simp))] at h
    injection h with h
    subst h
    simp [IsInt, parArgs] at hi
  · rw [hv _ (hb _ (by simp) (by simp) (by simp) (by simp))] at h
    injection h with h
    subst h
    simp [IsInt, parArgs] at hi
    omega

theorem par_none {k : ForestKind} {o : PObj ℚ} (h : construct k (parArgs k) = .ok o) : ∀ p, ¬ HasParam k p → o.vals p = none := (construct_inv h).2.2.2

/-- `C68_ready` and `C68_regressor`. -/
example : ∃ o e s', construct .regressor (parArgs .regressor) = .ok o ∧
    (o.toEst (fun x => ((x.getD 0 : ℚ) : ℝ)) (fun _ => .none) : Option (Est Nat Nat ℚ ℝ ℝ Nat)) = some e ∧
    fitRegressor estLib (estArgs none false) realY (⟨e, realW, 0⟩ : World Nat Nat ℚ ℝ ℝ Nat Nat) = (.ok (), s') := by
  obtain ⟨o, h1, -, -, hv⟩ := par_object .regressor
  obtain ⟨q1, q2, q3, q4, q5⟩ := par_ready .regressor hv (par_none h1)
  obtain ⟨e, s', h2, h3, -⟩ := C68_regressor (L := Nat) (lo := 0) (hi := 1) (Reach.new h1) (fun x => ((x.getD 0 : ℚ) : ℝ)) (fun _ => .none)
    (lib := estLib) (a := estArgs none false) (y := realY) (w := realW) (np := 0) q1 q2 q3 q4 q5 (estLib_ok (n := 6) (by norm_num))
    (fun e => estData_valid_any _ _) (fun w h => realW_pos w h) (by
      intro v hv
      simp only [realY, List.mem_cons, List.not_mem_nil, or_false] at hv
      rcases hv with rfl | rfl | rfl | rfl | rfl | rfl <;> norm_num)
  exact ⟨o, e, s', h1, h2, h3⟩

/-- `C68_classifier`. -/
example : ∃ o e s', construct .classifier (parArgs .classifier) = .ok o ∧
    (o.toEst (fun x => ((x.getD 0 : ℚ) : ℝ)) (fun _ => .none) : Option (Est Nat Nat ℚ ℝ (List ℝ) Nat)) = some e ∧
    fitClassifier estLib (estArgs none false) estY3 (⟨e, realW, 0⟩ : World Nat Nat ℚ ℝ (List ℝ) Nat Nat) = (.ok (), s') := by
  obtain ⟨o, h1, -, -, hv⟩ := par_object .classifier
  obtain ⟨q1, q2, q3, q4, q5⟩ := par_ready .classifier hv (par_none h1)
  obtain ⟨e, s', h2, h3, -⟩ := C68_classifier (eps := 1 / 1000) (Reach.new h1) (fun x => ((x.getD 0 : ℚ) : ℝ)) (fun x hx => by simpa using hx) (fun _ => .none)
    (lib := estLib) (a := estArgs none false) (y := estY3) (w := realW) (np := 0) (by norm_num) q1 q2 q3 q4 q5 (by rw [hv _ (.inl rfl)]; simp [parArgs])
    (fun st => by cases st <;> unfold StrategyOK <;> decide) (estLib_ok (n := 6) (by norm_num))
    (fun e => estData_valid_any _ _) rfl (fun w h => (realW_pos w h).le)
  exact ⟨o, e, s', h1, h2, h3⟩

/-- `C68_fit_refuses`: `subsample=100`. -/
example : ∃ e s', fitRegressor estLib (estArgs none false) realY (⟨estToy ℝ false false .none (some 100), realW, 0⟩ : World Nat Nat ℚ ℝ ℝ Nat Nat) = (.error e, s') ∧
    s'.self.trees = [] := by
  obtain ⟨e, s', h1, h2, -⟩ := C68_fit_refuses (lib := estLib) (a := estArgs none false) (y := realY)
    (s := (⟨estToy ℝ false false .none (some 100), realW, 0⟩ : World Nat Nat ℚ ℝ ℝ Nat Nat)) (.inr (.inl ⟨100, rfl, by norm_num⟩))
  exact ⟨e, s', h1, h2⟩

/-- `C68_fit_refuses_classifier`: `cat_min_categories=3`. -/
example : ∃ e s', fitClassifier estLib (estArgs none false) estY3
    (⟨{ estToy (List ℝ) false false .none none with catMin := .int 3 }, realW, 0⟩ : World Nat Nat ℚ ℝ (List ℝ) Nat Nat) = (.error e, s') ∧ s'.self.fitted = false := by
  obtain ⟨e, s', h1, -, -, h2⟩ := C68_fit_refuses_classifier (lib := estLib) (a := estArgs none false) (y := estY3)
    (s := (⟨{ estToy (List ℝ) false false .none none with catMin := .int 3 }, realW, 0⟩ : World Nat Nat ℚ ℝ (List ℝ) Nat Nat)) (.inr (.inr ⟨3, rfl, by norm_num⟩))
  exact ⟨e, s', h1, h2⟩

/-- `C69_clone_partial`. -/
example : ∃ o c : PObj ℚ, construct .regressor (parArgs .regressor) = .ok o ∧ clone o = .ok c ∧ c.vals .maxBins = some (.int 5) := by
  obtain ⟨o, h1, -, -, hv⟩ := par_object .regressor
  obtain ⟨c, h2, -, -, h3⟩ := C69_clone_partial (Reach.new h1) (by rw [hv _ (.inr (by simp))]; rfl)
  exact ⟨o, c, h1, h2, (h3 _ (.inr (by simp))).trans (hv _ (.inr (by simp)))⟩

/-- `C69_violated_clone`: `random_state=RandomState(…)`. -/
example : ∃ o, construct .classifier (Function.update (parArgs .classifier) .randomState (.rng 0)) = .ok o ∧ clone o = .error .attributeError := by
  obtain ⟨o, h1, -, h2, -⟩ := C69_violated_clone (k := .classifier) (args := Function.update (parArgs .classifier) .randomState (.rng 0))
    (fun p _ hp => by rw [Function.update_of_ne hp]; exact parArgs_allowed _ p) (.inl ⟨0, Function.update_self ..⟩)
  exact ⟨o, h1, h2⟩

/-- `C69_classifier_partial` in one-versus-rest mode with three classes. -/
example : ∃ r s', fitClassifier estLib (estArgs none false) estY3 (estWorld _ true false .none 0) = (r, s') ∧ s'.self.ovr = true ∧ s'.self.nEstimators = 2 := by
  obtain ⟨r, s', h1, h2, -, h4⟩ := C69_classifier_partial estLib (estArgs none false) estY3 (estWorld _ true false .none 0) rfl (fun _ => by decide)
  exact ⟨r, s', h1, h4, h2.nEstimators⟩

/-- `C69_regressor_partial`, here for labels that are too short. -/
example : ∃ r s', fitRegressor estLib (estArgs none false) [0, 1] (estWorld _ false false .none 0) = (r, s') ∧ s'.self.nEstimators = 2 := by
  obtain ⟨r, s', h1, h2, -⟩ := C69_regressor_partial estLib (estArgs none false) [0, 1] (estWorld _ false false .none 0) rfl
  exact ⟨r, s', h1, h2.nEstimators⟩

/-- `C69_violated_categorical`. -/
example : (fitRegressor estLib { estArgs none false with categorical := .bools [true, true] } realY (estWorld ℝ false false .none 0)).2.self.categoricalFeatures =
    .bools [true, true] :=
  C69_violated_categorical estLib _ realY (estWorld ℝ false false .none 0) (by simp)

/-- `C69_refit_partial`. -/
example : ∃ s' c s2, fitRegressor estLib (estArgs none false) realY (estWorld _ false false .none 0) = (.ok (), s') ∧ s'.self.clone = .ok c ∧
    fitRegressor estLib (estArgs none false) realY ⟨c, realW, 41⟩ = (.ok (), s2) ∧ s2.self = s'.self := by
  obtain ⟨s', h1, -⟩ := C54_regressor (L := Nat) (lo := 0) (hi := 1) (a := estArgs none false) (y := realY)
    (s := estWorld _ false false .none 0) (estLib_ok (n := 6) (by norm_num)) (estToy_valid _) (estData_valid _ _) rfl (fun w h => realW_pos w h) (by
      intro v hv
      simp only [realY, List.mem_cons, List.not_mem_nil, or_false] at hv
      rcases hv with rfl | rfl | rfl | rfl | rfl | rfl <;> norm_num)
  obtain ⟨c, s2, h2, h3, h4⟩ := C69_refit_partial 41 (r := 7) h1 ⟨rfl, rfl, ⟨rfl, rfl, rfl, rfl, rfl, rfl⟩, ⟨rfl, rfl, rfl⟩, rfl⟩ rfl rfl rfl (fun k h => by cases h)
  exact ⟨s', c, s2, h1, h2, h3, h4⟩

/-- `C69_refit_classifier_partial`. -/
example : ∃ s' c s2, fitClassifier estLib (estArgs none false) estY3 (estWorld _ true false .none 0) = (.ok (), s') ∧ s'.self.clone = .ok c ∧
    fitClassifier estLib (estArgs none false) estY3 ⟨c, realW, 41⟩ = (.ok (), s2) ∧ s2.self = s'.self := by
  obtain ⟨s', h1, -⟩ := C54_classifier (eps := 1 / 1000) (by norm_num) (estLib_ok (n := 6) (by norm_num)) (estToy_valid _)
    (estData_valid_any (estWorld (List ℝ) true false .none 0) false) (y := estY3) rfl (fun _ h => by cases h)
    est_strategy (by norm_num [estWorld, estToy]) (fun _ => by norm_num [estWorld, estToy]) (fun w h => (realW_pos w h).le)
    (.inl (by norm_num [estWorld, estToy]))
  obtain ⟨c, s2, h2, h3, h4⟩ := C69_refit_classifier_partial 41 (r := 7) h1 ⟨rfl, rfl, ⟨rfl, rfl, rfl, rfl, rfl, rfl⟩, ⟨rfl, rfl, rfl⟩, rfl⟩ rfl
    (fun _ => by decide) rfl rfl (fun k h => by cases h)
  exact ⟨s', c, s2, h1, h2, h3, h4⟩

/-- `C69_violated_multiclass`: two classes first, then three. -/
example : ∃ s' c s3 s3', fitClassifier estLib (estArgs none false) estY (estWorld _ true false .none 0) = (.ok (), s') ∧ s'.self.ovr = false ∧
    s'.self.clone = .ok c ∧ fitClassifier estLib (estArgs none false) estY3 ⟨c, realW, 0⟩ = (.ok (), s3) ∧ s3.self.trees.length = 2 ∧
    fitClassifier estLib (estArgs none false) estY3 (estWorld _ true false .none 0) = (.ok (), s3') ∧ s3'.self.trees.length = 6 :=
  C69_violated_multiclass (a := estArgs none false) (a3 := estArgs none false) (y := estY) (y3 := estY3) (s := estWorld _ true false .none 0) rfl rfl (by decide) (by decide)
    (estLib_ok (n := 6) (by norm_num)) (estLib_ok (n := 6) (by norm_num)) (estToy_valid _) (estToy_valid _) (estData_valid_any _ _) (fun _ => estData_valid_any _ _)
    rfl rfl (by norm_num [estWorld, estToy]) est_strategy est_strategy

end Verif
