import Verif.Spec.Params
import Verif.Proofs.Estimator

/-! # Lemmas on the setters of the hyperparameters (C68, C69) -/
namespace Verif
open Spec
set_option linter.unusedSectionVars false

section
variable {K : Type} [Field K] [LinearOrder K]

theorem int?_iff {v : PyVal K} {i : Int} : v.int? = some i ↔ IsInt v i := by
  unfold IsInt
  cases v with
  | bool b => cases b <;> simp [PyVal.int?, eq_comm]
  | _ => simp [PyVal.int?]

theorem intGe_iff {v : PyVal K} {k : Int} : v.intGe k = true ↔ ∃ i, IsInt v i ∧ k ≤ i := by
  unfold PyVal.intGe
  cases h : v.int? with
  | none =>
    simp only [Bool.false_eq_true, false_iff]
    rintro ⟨i, hi, -⟩
    rw [int?_iff.2 hi] at h
    cases h
  | some i =>
    simp only [decide_eq_true_eq]
    constructor
    · exact fun hk => ⟨i, int?_iff.1 h, hk⟩
    · rintro ⟨j, hj, hk⟩
      rw [int?_iff.2 hj] at h
      injection h with h
      omega

theorem strIn_iff {v : PyVal K} {l : List String} : v.strIn l = true ↔ ∃ s ∈ l, v = .str s := by
  cases v <;> simp [PyVal.strIn]

theorem isBool_iff {v : PyVal K} : v.isBool = true ↔ ∃ b, v = .bool b := by
  cases v <;> simp [PyVal.isBool]

theorem check_store {b : Bool} : Decision.check b = .store ↔ b = true := by cases b <;> simp [Decision.check]

theorem check_raise {b : Bool} (h : b = false) : Decision.check b = .raise .valueError := by subst h; rfl

/-- A property whose setter ends with `check`. -/
theorem check_cases {b : Bool} {A : Prop} (h : b = true ↔ A) :
    (A → Decision.check b = .store) ∧ (¬ A → Decision.check b = .raise .valueError) :=
  ⟨fun a => check_store.2 (h.2 a), fun a => check_raise (by cases hb : b with | false => rfl | true => exact absurd (h.1 hb) a)⟩

/-- Before `fit`, or for hyperparameters that are not locked, the setters accept the allowed values. -/
theorem setter_free {k : ForestKind} {p : Param} {v : PyVal K} (hp : HasParam k p) (hc : Checked p) (hr : p ≠ .randomState) (hn : ¬ NanPasses p v)
    {fitted : Bool} (hl : ¬ (fitted = true ∧ Locked k p)) :
    (Allowed k p v → setter k fitted p v = .store) ∧ (¬ Allowed k p v → setter k fitted p v = .raise .valueError) := by
  have hf : ∀ A : Prop, A → (Locked k p ↔ A) → fitted = false := fun A a h => by
    cases fitted with
    | false => rfl
    | true => exact absurd ⟨rfl, h.2 a⟩ hl
  cases p with
  | nEstimators =>
    rw [hf True trivial (by simp [Locked])]
    exact check_cases intGe_iff
  | criterion => cases k <;> exact check_cases (strIn_iff.trans (by simp [Allowed]))
  | loss => cases k <;> exact check_cases (strIn_iff.trans (by simp [Allowed]))
  | step =>
    cases v with
    | float x =>
      cases x with
      | none => exact absurd ⟨rfl, .inl rfl⟩ hn
      | some x => exact check_cases (by simp [Allowed])
    | _ => exact ⟨fun h => by (obtain ⟨x, hx, -⟩ := h; cases hx), fun _ => rfl⟩
  | aggregation => exact check_cases isBool_iff
  | dirichlet =>
    rcases hp with rfl | h
    · cases v with
      | float x =>
        cases x with
        | none => exact absurd ⟨rfl, .inr (.inl rfl)⟩ hn
        | some x => exact check_cases (by simp [Allowed])
      | _ => exact ⟨fun h => by (obtain ⟨x, hx, -⟩ := h; cases hx), fun _ => rfl⟩
    · exact absurd rfl h.1
  | maxDepth =>
    cases v with
    | none => exact ⟨fun _ => rfl, fun h => absurd (.inl rfl) h⟩
    | _ => exact check_cases (intGe_iff.trans (by simp [Allowed]))
  | minSamplesSplit => exact check_cases intGe_iff
  | minSamplesLeaf => exact check_cases intGe_iff
  | maxBins => exact check_cases intGe_iff
  | categoricalFeatures => exact ⟨fun _ => rfl, fun h => absurd trivial h⟩
  | maxFeatures =>
    cases v with
    | none => exact ⟨fun _ => rfl, fun h => absurd (.inl rfl) h⟩
    | str s => exact check_cases (strIn_iff.trans (by simp [Allowed, IsInt]; tauto))
    | float x =>
      cases x with
      | none => exact absurd ⟨rfl, .inr (.inr rfl)⟩ hn
      | some x => exact check_cases (by simp [Allowed, IsInt]; tauto)
    | _ => exact check_cases (intGe_iff.trans (by simp [Allowed]))
  | handleUnknown => exact absurd rfl hc.1
  | catMinCategories => exact absurd rfl hc.2.1
  | subsample => exact absurd rfl hc.2.2
  | nJobs =>
    simp only [setter]
    cases h : v.int? with
    | none => exact ⟨fun ⟨i, hi, _⟩ => by (rw [int?_iff.2 hi] at h; cases h), fun _ => rfl⟩
    | some i =>
      refine check_cases ?_
      unfold Allowed
      constructor
      · intro hb
        refine ⟨i, int?_iff.1 h, ?_⟩
        simp at hb
        omega
      · rintro ⟨j, hj, hk⟩
        rw [int?_iff.2 hj] at h
        injection h with h
        subst h
        simp
        omega
  | randomState => exact absurd rfl hr
  | verbose => exact check_cases isBool_iff
  | classWeight =>
    rcases hp with rfl | h
    · cases v with
      | none => exact ⟨fun _ => rfl, fun h => absurd (.inl rfl) h⟩
      | _ => exact check_cases (strIn_iff.trans (by simp [Allowed]))
    · exact absurd rfl h.2.1
  | multiclass =>
    rcases hp with rfl | h
    · rw [hf True trivial (by simp [Locked])]
      exact check_cases (strIn_iff.trans (by simp [Allowed]))
    · exact absurd rfl h.2.2.1
  | catSplitStrategy =>
    rcases hp with rfl | h
    · rw [hf True trivial (by simp [Locked])]
      exact check_cases (strIn_iff.trans (by simp [Allowed]))
    · exact absurd rfl h.2.2.2

/-- An allowed value is stored. -/
theorem setter_allowed {k : ForestKind} {fitted : Bool} {p : Param} {v : PyVal K} (hp : HasParam k p) (hap : Allowed k p v)
    (hrng : p = .randomState → ∀ id, v ≠ .rng id) (hl : ¬ (fitted = true ∧ Locked k p)) : setter k fitted p v = .store := by
  by_cases hr : p = .randomState
  · subst hr
    have hf : fitted = false := by
      cases fitted with
      | false => rfl
      | true => exact absurd ⟨rfl, .inr (.inl rfl)⟩ hl
    subst hf
    rcases hap with h | ⟨i, hi, h0⟩ | ⟨id, h⟩
    · rw [h]; rfl
    · have hge : v.intGe 0 = true := intGe_iff.2 ⟨i, hi, h0⟩
      simp only [setter, Bool.false_eq_true, if_false]
      split
      · rfl
      · rw [if_pos hge]
    · exact absurd h (hrng rfl id)
  · by_cases hc : Checked p
    · refine (setter_free hp hc hr (fun hn => ?_) hl).1 hap
      obtain ⟨hv, h⟩ := hn
      rcases h with rfl | rfl | rfl
      · obtain ⟨x, hx, -⟩ := hap; rw [hx] at hv; simp at hv
      · obtain ⟨x, hx, -⟩ := hap; rw [hx] at hv; simp at hv
      · unfold Allowed at hap
        rw [hv] at hap
        simp [IsInt] at hap
    · unfold Checked at hc
      by_cases h1 : p = .handleUnknown
      · subst h1; rfl
      · by_cases h2 : p = .catMinCategories
        · subst h2; rfl
        · by_cases h3 : p = .subsample
          · subst h3; rfl
          · exact absurd ⟨h1, h2, h3⟩ hc

theorem setter_locked {k : ForestKind} {p : Param} (v : PyVal K) (h : Locked k p) : ∃ e, setter k true p v = .raise e := by
  rcases h with rfl | rfl | ⟨rfl, rfl | rfl⟩
  · exact ⟨_, rfl⟩
  · exact ⟨_, rfl⟩
  · exact ⟨_, rfl⟩
  · exact ⟨_, rfl⟩

/-- A setter that stores a value stores it in an object that is not fitted too. -/
theorem setter_unfitted {k : ForestKind} {p : Param} {v : PyVal K} {b : Bool} (h : setter k b p v = .store) : setter k false p v = .store := by
  cases b with
  | false => exact h
  | true =>
    cases p with
    | nEstimators => cases h
    | randomState => cases h
    | multiclass =>
      cases k with
      | classifier => cases h
      | regressor => exact h
    | catSplitStrategy =>
      cases k with
      | classifier => cases h
      | regressor => exact h
    | _ => exact h

/-- Before `fit` only ValueError is raised. -/
theorem setter_raise {k : ForestKind} {p : Param} {v : PyVal K} {e : Err} (h : setter k false p v = .raise e) : e = .valueError := by
  have hc : ∀ {b : Bool}, Decision.check b = .raise e → e = .valueError := by
    intro b hb
    cases b with
    | true => cases hb
    | false => injection hb with hb; exact hb.symm
  cases p with
  | nEstimators => exact hc h
  | criterion => exact hc h
  | loss => exact hc h
  | step =>
    cases v with
    | float x =>
      cases x with
      | none => cases h
      | some x => exact hc h
    | _ => injection h with h; exact h.symm
  | aggregation => exact hc h
  | dirichlet =>
    cases k with
    | regressor => cases h
    | classifier =>
      cases v with
      | float x =>
        cases x with
        | none => cases h
        | some x => exact hc h
      | _ => injection h with h; exact h.symm
  | maxDepth =>
    cases v with
    | none => cases h
    | _ => exact hc h
  | minSamplesSplit => exact hc h
  | minSamplesLeaf => exact hc h
  | maxBins => exact hc h
  | maxFeatures =>
    cases v with
    | none => cases h
    | float x =>
      cases x with
      | none => cases h
      | some x => exact hc h
    | _ => exact hc h
  | nJobs =>
    simp only [setter] at h
    cases hv : v.int? with
    | none => rw [hv] at h; injection h with h; exact h.symm
    | some i => rw [hv] at h; exact hc h
  | randomState =>
    simp only [setter, Bool.false_eq_true, if_false] at h
    split at h
    · cases h
    · split at h <;> cases h
  | verbose => exact hc h
  | classWeight =>
    cases k with
    | regressor => cases h
    | classifier =>
      cases v with
      | none => cases h
      | _ => exact hc h
  | multiclass =>
    cases k with
    | regressor => cases h
    | classifier => exact hc h
  | catSplitStrategy =>
    cases k with
    | regressor => cases h
    | classifier => exact hc h
  | _ => cases h

/-- Only the setter of `random_state` ignores values. -/
theorem setter_ignore {k : ForestKind} {p : Param} {v : PyVal K} {b : Bool} (h : setter k b p v = .ignore) : p = .randomState := by
  have hc : ∀ {b : Bool}, Decision.check b ≠ .ignore := by
    intro b hb
    cases b <;> cases hb
  cases p with
  | nEstimators => cases b with
    | true => cases h
    | false => exact absurd h hc
  | criterion => exact absurd h hc
  | loss => exact absurd h hc
  | step =>
    cases v with
    | float x =>
      cases x with
      | none => cases h
      | some x => exact absurd h hc
    | _ => cases h
  | aggregation => exact absurd h hc
  | dirichlet =>
    cases k with
    | regressor => cases h
    | classifier =>
      cases v with
      | float x =>
        cases x with
        | none => cases h
        | some x => exact absurd h hc
      | _ => cases h
  | maxDepth =>
    cases v with
    | none => cases h
    | _ => exact absurd h hc
  | minSamplesSplit => exact absurd h hc
  | minSamplesLeaf => exact absurd h hc
  | maxBins => exact absurd h hc
  | maxFeatures =>
    cases v with
    | none => cases h
    | float x =>
      cases x with
      | none => cases h
      | some x => exact absurd h hc
    | _ => exact absurd h hc
  | nJobs =>
    simp only [setter] at h
    cases hv : v.int? with
    | none => rw [hv] at h; cases h
    | some i => rw [hv] at h; exact absurd h hc
  | randomState => rfl
  | verbose => exact absurd h hc
  | classWeight =>
    cases k with
    | regressor => cases h
    | classifier =>
      cases v with
      | none => cases h
      | _ => exact absurd h hc
  | multiclass =>
    cases k with
    | regressor => cases h
    | classifier => cases b with
      | true => cases h
      | false => exact absurd h hc
  | catSplitStrategy =>
    cases k with
    | regressor => cases h
    | classifier => cases b with
      | true => cases h
      | false => exact absurd h hc
  | _ => cases h

/-! ## Assignments -/

theorem assign_store {p : Param} {v : PyVal K} {o : PObj K} (h : setter o.kind o.fitted p v = .store) :
    assign p v o = (.ok (), { o with vals := Function.update o.vals p (some v) }) := by
  unfold assign; rw [h]

theorem assign_raise {p : Param} {v : PyVal K} {o : PObj K} {e : Err} (h : setter o.kind o.fitted p v = .raise e) : assign p v o = (.error e, o) := by
  unfold assign; rw [h]

/-- What holds of the object after an assignment. -/
theorem assign_after (p : Param) (v : PyVal K) (o : PObj K) :
    (assign p v o).2.kind = o.kind ∧ (assign p v o).2.fitted = o.fitted ∧ (∀ q, q ≠ p → (assign p v o).2.vals q = o.vals q) ∧
    ((assign p v o).2.vals p = o.vals p ∨ ((assign p v o).2.vals p = some v ∧ setter o.kind o.fitted p v = .store)) ∧
    (∀ e, (assign p v o).1 = .error e → (assign p v o).2 = o) := by
  unfold assign
  cases h : setter o.kind o.fitted p v with
  | store =>
    refine ⟨rfl, rfl, fun q hq => Function.update_of_ne hq _ _, .inr ⟨Function.update_self .., rfl⟩, fun e he => by cases he⟩
  | ignore => exact ⟨rfl, rfl, fun _ _ => rfl, .inl rfl, fun e he => by cases he⟩
  | raise e => exact ⟨rfl, rfl, fun _ _ => rfl, .inl rfl, fun e' he => rfl⟩

/-- All stored values would be accepted again by a new object. -/
structure Sound (k : ForestKind) (o : PObj K) : Prop where
  kind : o.kind = k
  stored : ∀ p v, o.vals p = some v → setter k false p v = .store
  exist : ∀ p, HasParam k p → p ≠ .randomState → ∃ v, o.vals p = some v

theorem Sound.assign {k : ForestKind} {o : PObj K} (h : Sound k o) (p : Param) (v : PyVal K) : Sound k (assign p v o).2 := by
  obtain ⟨h1, -, h3, h4, -⟩ := assign_after p v o
  refine ⟨h1.trans h.kind, fun q w hw => ?_, fun q hq hr => ?_⟩
  · by_cases hqp : q = p
    · subst hqp
      rcases h4 with h4 | ⟨h4, hs⟩
      · exact h.stored q w (h4.symm.trans hw)
      · rw [h4] at hw
        injection hw with hw
        subst hw
        rw [h.kind] at hs
        exact setter_unfitted hs
    · exact h.stored q w ((h3 q hqp).symm.trans hw)
  · by_cases hqp : q = p
    · subst hqp
      rcases h4 with h4 | ⟨h4, -⟩
      · rw [h4]; exact h.exist q hq hr
      · exact ⟨_, h4⟩
    · rw [h3 q hqp]; exact h.exist q hq hr

theorem setAll_sound {k : ForestKind} (kvs : List (Option Param × PyVal K)) : ∀ {o : PObj K}, Sound k o → Sound k (setAll kvs o).2 := by
  induction kvs with
  | nil => exact fun h => h
  | cons x l ih =>
    intro o h
    obtain ⟨p, v⟩ := x
    unfold setAll
    rw [Py.bind_of_ok (Py.read_apply _ o)]
    cases p with
    | none => exact h
    | some p =>
      simp only
      split
      · cases hr : Verif.assign p v o with
        | mk r o1 =>
          have h1 : Sound k o1 := by have := h.assign p v; rwa [hr] at this
          cases r with
          | error e => rw [Py.bind_of_error hr]; exact h1
          | ok u => rw [Py.bind_of_ok hr]; exact ih h1
      · exact h

theorem setParams_sound {k : ForestKind} (kvs : List (Option Param × PyVal K)) {o : PObj K} (h : Sound k o) : Sound k (setParams kvs o).2 := by
  cases kvs with
  | nil => exact h
  | cons x l =>
    unfold setParams
    simp only
    split
    · exact h
    · exact setAll_sound _ h

theorem hasParam_iff {k : ForestKind} {p : Param} : HasParam k p ↔ p ∈ ctorOrder k := by
  unfold HasParam
  cases k <;> cases p <;> simp [ctorOrder]

theorem ctorOrder_nodup (k : ForestKind) : (ctorOrder k).Nodup := by cases k <;> decide

/-- A sequence of accepted assignments to different names. -/
theorem assignEach_ok {l : List (Param × PyVal K)} : ∀ {o : PObj K}, (l.map (·.1)).Nodup → (∀ x ∈ l, setter o.kind o.fitted x.1 x.2 = .store) →
    ∃ o', assignEach l o = (.ok (), o') ∧ o'.kind = o.kind ∧ o'.fitted = o.fitted ∧ (∀ x ∈ l, o'.vals x.1 = some x.2) ∧
      ∀ p, p ∉ l.map (·.1) → o'.vals p = o.vals p := by
  induction l with
  | nil => exact fun _ _ => ⟨_, rfl, rfl, rfl, fun x hx => absurd hx List.not_mem_nil, fun _ _ => rfl⟩
  | cons x l ih =>
    intro o hn hs
    obtain ⟨p, v⟩ := x
    simp only [List.map_cons, List.nodup_cons] at hn
    obtain ⟨o', h1, h2, h3, h4, h5⟩ := ih (o := { o with vals := Function.update o.vals p (some v) }) hn.2
      (fun x hx => hs x (List.mem_cons_of_mem _ hx))
    refine ⟨o', ?_, h2, h3, fun x hx => ?_, fun q hq => ?_⟩
    · unfold assignEach
      rw [Py.bind_of_ok (assign_store (hs _ List.mem_cons_self)), h1]
    · rcases List.mem_cons.1 hx with rfl | hx
      · rw [h5 _ hn.1]; exact Function.update_self ..
      · exact h4 x hx
    · simp only [List.map_cons, List.mem_cons, not_or] at hq
      rw [h5 q hq.2]; exact Function.update_of_ne hq.1 _ _

/-- What holds after a sequence of assignments to different names that succeeded. -/
theorem assignEach_inv {l : List (Param × PyVal K)} : ∀ {o o' : PObj K}, (l.map (·.1)).Nodup → assignEach l o = (.ok (), o') →
    o'.kind = o.kind ∧ o'.fitted = o.fitted ∧
    (∀ x ∈ l, (setter o.kind o.fitted x.1 x.2 = .store ∧ o'.vals x.1 = some x.2) ∨ (setter o.kind o.fitted x.1 x.2 = .ignore ∧ o'.vals x.1 = o.vals x.1)) ∧
    ∀ p, p ∉ l.map (·.1) → o'.vals p = o.vals p := by
  induction l with
  | nil =>
    intro o o' _ h
    obtain ⟨-, rfl⟩ := Prod.mk.inj (show (Except.ok (), o) = (Except.ok (), o') from h)
    exact ⟨rfl, rfl, fun x hx => absurd hx List.not_mem_nil, fun _ _ => rfl⟩
  | cons x l ih =>
    intro o o' hn h
    obtain ⟨p, v⟩ := x
    simp only [List.map_cons, List.nodup_cons] at hn
    unfold assignEach at h
    obtain ⟨_, o1, ha, h⟩ := Py.bind_inv h
    obtain ⟨a1, a2, a3, -, -⟩ := assign_after p v o
    rw [ha] at a1 a2 a3
    simp only at a1 a2 a3
    obtain ⟨h2, h3, h4, h5⟩ := ih hn.2 h
    refine ⟨h2.trans a1, h3.trans a2, fun x hx => ?_, fun q hq => ?_⟩
    · rcases List.mem_cons.1 hx with rfl | hx
      · simp only
        rw [h5 _ hn.1]
        unfold assign at ha
        cases hs : setter o.kind o.fitted p v with
        | store =>
          rw [hs] at ha
          obtain ⟨-, rfl⟩ := Prod.mk.inj ha
          exact .inl ⟨rfl, Function.update_self ..⟩
        | ignore =>
          rw [hs] at ha
          obtain ⟨-, rfl⟩ := Prod.mk.inj ha
          exact .inr ⟨rfl, rfl⟩
        | raise e => rw [hs] at ha; cases ha
      · have hne : x.1 ≠ p := fun h => hn.1 (h ▸ List.mem_map_of_mem hx)
        have := h4 x hx
        rwa [a1, a2, a3 _ hne] at this
    · simp only [List.map_cons, List.mem_cons, not_or] at hq
      rw [h5 q hq.2, a3 q hq.1]

/-- Only ValueError is raised before `fit`. -/
theorem assignEach_error {l : List (Param × PyVal K)} : ∀ {o o' : PObj K} {e : Err}, o.fitted = false → assignEach l o = (.error e, o') → e = .valueError := by
  induction l with
  | nil => intro o o' e _ h; cases h
  | cons x l ih =>
    intro o o' e hf h
    obtain ⟨p, v⟩ := x
    unfold assignEach at h
    obtain ⟨a1, a2, -, -, -⟩ := assign_after p v o
    cases ha : assign p v o with
    | mk r o1 =>
      rw [ha] at a2
      cases r with
      | ok u =>
        rw [Py.bind_of_ok ha] at h
        exact ih (by rw [← hf]; exact a2) h
      | error e' =>
        rw [Py.bind_of_error ha] at h
        obtain ⟨h, -⟩ := Prod.mk.inj h
        injection h with h
        subst h
        unfold assign at ha
        cases hs : setter o.kind o.fitted p v with
        | store => rw [hs] at ha; cases ha
        | ignore => rw [hs] at ha; cases ha
        | raise e2 =>
          rw [hs] at ha
          obtain ⟨ha, -⟩ := Prod.mk.inj ha
          injection ha with ha
          subst ha
          rw [hf] at hs
          exact setter_raise hs

theorem ctor_names (k : ForestKind) (args : Param → PyVal K) : (((ctorOrder k).map fun p => (p, args p)).map (·.1)) = ctorOrder k := by
  rw [List.map_map]; exact List.map_id _

theorem construct_ok {k : ForestKind} {args : Param → PyVal K} (h : ∀ p, HasParam k p → setter k false p (args p) = .store) :
    ∃ o, construct k args = .ok o ∧ o.kind = k ∧ o.fitted = false ∧ ∀ p, HasParam k p → o.vals p = some (args p) := by
  obtain ⟨o, h1, h2, h3, h4, -⟩ := assignEach_ok (l := (ctorOrder k).map fun p => (p, args p)) (o := ⟨k, false, fun _ => none⟩)
    (by rw [ctor_names]; exact ctorOrder_nodup k) (fun x hx => by
      obtain ⟨p, hp, rfl⟩ := List.mem_map.1 hx
      exact h p (hasParam_iff.2 hp))
  refine ⟨o, ?_, h2, h3, fun p hp => h4 (p, args p) (List.mem_map.2 ⟨p, hasParam_iff.1 hp, rfl⟩)⟩
  unfold construct
  rw [h1]

theorem construct_inv {k : ForestKind} {args : Param → PyVal K} {o : PObj K} (h : construct k args = .ok o) :
    o.kind = k ∧ o.fitted = false ∧
    (∀ p, HasParam k p → (setter k false p (args p) = .store ∧ o.vals p = some (args p)) ∨ (setter k false p (args p) = .ignore ∧ o.vals p = none)) ∧
    ∀ p, ¬ HasParam k p → o.vals p = none := by
  unfold construct at h
  split at h
  · rename_i o1 heq
    injection h with h
    subst h
    obtain ⟨h1, h2, h3, h4⟩ := assignEach_inv (by rw [ctor_names]; exact ctorOrder_nodup k) heq
    refine ⟨h1, h2, fun p hp => h3 (p, args p) (List.mem_map.2 ⟨p, hasParam_iff.1 hp, rfl⟩), fun p hp => ?_⟩
    exact h4 p (by rw [ctor_names]; exact fun h => hp (hasParam_iff.2 h))
  · cases h

theorem construct_error {k : ForestKind} {args : Param → PyVal K} {e : Err} (h : construct k args = .error e) : e = .valueError := by
  unfold construct at h
  split at h
  · cases h
  · rename_i e1 o1 heq
    injection h with h
    subst h
    exact assignEach_error rfl heq

theorem Reach.sound {k : ForestKind} {o : PObj K} (h : Reach k o) : Sound k o := by
  induction h with
  | new h =>
    obtain ⟨h1, -, h3, h4⟩ := construct_inv h
    refine ⟨h1, fun p v hv => ?_, fun p hp hr => ?_⟩
    · by_cases hp : HasParam k p
      · rcases h3 p hp with ⟨hs, he⟩ | ⟨-, he⟩
        · rw [he] at hv
          injection hv with hv
          exact hv ▸ hs
        · rw [he] at hv; cases hv
      · rw [h4 p hp] at hv; cases hv
    · rcases h3 p hp with ⟨-, he⟩ | ⟨hs, -⟩
      · exact ⟨_, he⟩
      · exact absurd (setter_ignore hs) hr
  | assign p v _ _ ih => exact ih.assign p v
  | setParams kvs _ ih => exact setParams_sound kvs ih
  | fit _ hf ih =>
    obtain ⟨h1, -, h3⟩ := hf
    refine ⟨h1.trans ih.kind, fun p v hv => ?_, fun p hp hr => ?_⟩
    · rcases h3 p with h | ⟨rfl, -⟩ | ⟨rfl, h, h'⟩
      · exact ih.stored p v (h.symm.trans hv)
      · rfl
      · have := ih.stored _ _ h
        rw [h'] at hv
        injection hv with hv
        subst hv
        cases k <;> rfl
    · rcases h3 p with h | ⟨-, h⟩ | ⟨-, -, h⟩
      · rw [h]; exact ih.exist p hp hr
      · exact Option.isSome_iff_exists.1 h
      · exact ⟨_, h⟩

/-! ## `get_params` and `clone` -/

theorem getParams_ok {o : PObj K} {f : Param → PyVal K} (h : ∀ p, HasParam o.kind p → o.vals p = some (f p)) :
    getParams o = .ok ((ctorOrder o.kind).map fun p => (p, f p)) := by
  unfold getParams
  rw [mapM_eq_ok, List.forall₂_map_right_iff]
  refine List.forall₂_same.2 fun p hp => ?_
  rw [h p (hasParam_iff.2 hp)]

theorem lookup_map {l : List Param} {f : Param → PyVal K} {p : Param} (hp : p ∈ l) : lookup (l.map fun q => (q, f q)) p = f p := by
  unfold lookup
  induction l with
  | nil => cases hp
  | cons q l ih =>
    rw [List.map_cons, List.find?_cons]
    by_cases h : q = p
    · subst h; simp
    · have : (q == p) = false := by simpa using h
      simp only [this]
      exact ih ((List.mem_cons.1 hp).resolve_left fun h' => h h'.symm)

theorem clone_ok {k : ForestKind} {o : PObj K} (h : Sound k o) (hr : (o.vals .randomState).isSome) :
    ∃ c, clone o = .ok c ∧ c.kind = k ∧ c.fitted = false ∧ ∀ p, HasParam k p → c.vals p = o.vals p := by
  have hex : ∀ p, HasParam k p → ∃ v, o.vals p = some v := fun p hp => by
    by_cases hp' : p = .randomState
    · subst hp'; exact Option.isSome_iff_exists.1 hr
    · exact h.exist p hp hp'
  have hval : ∀ p, HasParam k p → o.vals p = some ((o.vals p).getD .none) := fun p hp => by
    obtain ⟨v, hv⟩ := hex p hp
    rw [hv]; rfl
  have hg := getParams_ok (o := o) (f := fun p => (o.vals p).getD .none) (by rw [h.kind]; exact hval)
  rw [h.kind] at hg
  obtain ⟨c, h1, h2, h3, h4⟩ := construct_ok (k := k) (args := lookup ((ctorOrder k).map fun p => (p, (o.vals p).getD .none))) (fun p hp => by
    rw [lookup_map (f := fun p => (o.vals p).getD .none) (hasParam_iff.1 hp)]
    exact h.stored p _ (hval p hp))
  refine ⟨c, ?_, h2, h3, fun p hp => ?_⟩
  · unfold clone
    rw [hg, bind_ok, h.kind]
    exact h1
  · rw [h4 p hp, lookup_map (f := fun p => (o.vals p).getD .none) (hasParam_iff.1 hp)]
    exact (hval p hp).symm

/-! ## `set_params` -/

theorem setAll_ok {l : List (Param × PyVal K)} (rest : List (Option Param × PyVal K)) : ∀ {o : PObj K}, (l.map (·.1)).Nodup →
    (∀ x ∈ l, HasParam o.kind x.1 ∧ setter o.kind o.fitted x.1 x.2 = .store) →
    ∃ o', setAll (l.map (fun x => (some x.1, x.2)) ++ rest) o = setAll rest o' ∧ o'.kind = o.kind ∧ o'.fitted = o.fitted ∧ (∀ x ∈ l, o'.vals x.1 = some x.2) ∧
      ∀ p, p ∉ l.map (·.1) → o'.vals p = o.vals p := by
  induction l with
  | nil => exact fun _ _ => ⟨_, rfl, rfl, rfl, fun x hx => absurd hx List.not_mem_nil, fun _ _ => rfl⟩
  | cons x l ih =>
    intro o hn hs
    obtain ⟨p, v⟩ := x
    simp only [List.map_cons, List.nodup_cons] at hn
    obtain ⟨o', h1, h2, h3, h4, h5⟩ := ih (o := { o with vals := Function.update o.vals p (some v) }) hn.2
      (fun x hx => hs x (List.mem_cons_of_mem _ hx))
    refine ⟨o', ?_, h2, h3, fun x hx => ?_, fun q hq => ?_⟩
    · rw [List.map_cons, List.cons_append]
      conv_lhs => unfold setAll
      rw [Py.bind_of_ok (Py.read_apply _ o)]
      simp only
      rw [if_pos (hasParam_iff.1 (hs _ List.mem_cons_self).1), Py.bind_of_ok (assign_store (hs _ List.mem_cons_self).2), h1]
    · rcases List.mem_cons.1 hx with rfl | hx
      · rw [h5 _ hn.1]; exact Function.update_self ..
      · exact h4 x hx
    · simp only [List.map_cons, List.mem_cons, not_or] at hq
      rw [h5 q hq.2]; exact Function.update_of_ne hq.1 _ _

end

end Verif
