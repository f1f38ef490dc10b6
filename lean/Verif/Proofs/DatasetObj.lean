import Verif.Spec.DatasetObj

/-! `Dataset` objects whose `extract` is called several times. -/
namespace Verif

open Spec

section
variable {N C K A α β : Type}

theorem Act.run_bind (m : Act A α) (k : α → Act A β) (a : A) : (m >>= k).run a = match m.run a with
    | (.ok x, a') => (k x).run a'
    | (.error e, a') => (.error e, a') := rfl

theorem Act.run_modify (f : A → A) (k : Unit → Act A β) (a : A) : (Act.modify f >>= k).run a = (k ()).run (f a) := rfl

theorem Act.run_pure (x : α) (a : A) : (pure x : Act A α).run a = (.ok x, a) := rfl

theorem Act.run_lift (m : M α) (k : α → Act A β) (a : A) : ((Act.lift m >>= k).run a).1 = m >>= fun x => ((k x).run a).1 := by
  cases m <;> rfl

theorem Act.run_lift_ok {m : M α} {k : α → Act A β} {a a' : A} {y : β} (h : (Act.lift m >>= k).run a = (.ok y, a')) : ∃ x, m = .ok x ∧ (k x).run a = (.ok y, a') := by
  cases m with
  | ok x => exact ⟨x, rfl, h⟩
  | error e => cases (Prod.mk.inj h).1

/-- A relation between attributes that every assignment of some code respects. -/
def Act.Keeps (P : A → Prop) (m : Act A α) : Prop := ∀ a, P a → P (m.run a).2

theorem Act.Keeps.bind {P : A → Prop} {m : Act A α} {k : α → Act A β} (h : m.Keeps P) (hk : ∀ x, (k x).Keeps P) : (m >>= k).Keeps P := by
  intro a ha
  rw [Act.run_bind]
  have := h a ha
  revert this
  rcases m.run a with ⟨_ | x, a'⟩
  · exact id
  · exact hk x a'

theorem Act.Keeps.lift {P : A → Prop} (m : M α) : (Act.lift m).Keeps P := fun _ h => h

theorem Act.Keeps.pure {P : A → Prop} (x : α) : (pure x : Act A α).Keeps P := fun _ h => h

theorem Act.Keeps.modify {P : A → Prop} {f : A → A} (h : ∀ a, P a → P (f a)) : (Act.modify f).Keeps P := h

variable [DecidableEq N] [LinearOrder C] [Field K] [DecidableEq K]

theorem extractObj_fst (lib : DataLib C K) (cfg : DatasetCfg N) (df : DFrame N C) (n : Nat) (a : DatasetAttrs N C K) :
    ((extractObj lib cfg df n).run a).1 = (extract lib cfg df n).map fun r => (r.xTrain, r.xTest, r.yTrain, r.yTest) := by
  unfold extractObj
  simp only [Act.run_modify, Act.run_lift, Act.run_pure]
  unfold extract
  cases df.labels cfg.label with
  | error e => rfl
  | ok labels =>
  change (lib.split n _ >>= _) = Except.map _ (lib.split n _ >>= _)
  cases lib.split n (if cfg.regression then none else some labels) with
  | error e => rfl
  | ok parts =>
  change (df.rows _ >>= _) = Except.map _ (df.rows _ >>= _)
  cases df.rows parts.1 with
  | error e => rfl
  | ok dfTrain =>
  change (df.rows _ >>= _) = Except.map _ (df.rows _ >>= _)
  cases df.rows parts.2 with
  | error e => rfl
  | ok dfTest =>
  change (fitFeatures lib cfg dfTrain >>= _) = Except.map _ (fitFeatures lib cfg dfTrain >>= _)
  cases fitFeatures lib cfg dfTrain with
  | error e => rfl
  | ok fs =>
  change (transformFrame lib cfg.drop fs dfTrain >>= _) = Except.map _ (transformFrame lib cfg.drop fs dfTrain >>= _)
  cases transformFrame lib cfg.drop fs dfTrain with
  | error e => rfl
  | ok xTrain =>
  change (transformFrame lib cfg.drop fs dfTest >>= _) = Except.map _ (transformFrame lib cfg.drop fs dfTest >>= _)
  cases transformFrame lib cfg.drop fs dfTest with
  | error e => rfl
  | ok xTest =>
  change (columnNames cfg df fs >>= _) = Except.map _ (columnNames cfg df fs >>= _)
  cases columnNames cfg df fs with
  | error e => rfl
  | ok columns =>
  change (checkFrame cfg columns xTrain.length >>= _) = Except.map _ (checkFrame cfg columns xTrain.length >>= _)
  cases checkFrame cfg columns xTrain.length with
  | error e => rfl
  | ok u =>
  change (dfTrain.col cfg.label >>= _) = Except.map _ (dfTrain.col cfg.label >>= _)
  cases dfTrain.col cfg.label with
  | error e => rfl
  | ok lTrain =>
  change (dfTest.col cfg.label >>= _) = Except.map _ (dfTest.col cfg.label >>= _)
  cases dfTest.col cfg.label with
  | error e => rfl
  | ok lTest =>
  change (encodeTargets cfg.regression lTrain lTrain >>= _) = Except.map _ (encodeTargets cfg.regression lTrain lTrain >>= _)
  cases encodeTargets cfg.regression lTrain lTrain with
  | error e => rfl
  | ok yTrain =>
  change (encodeTargets cfg.regression lTrain lTest >>= _) = Except.map _ (encodeTargets cfg.regression lTrain lTest >>= _)
  cases encodeTargets cfg.regression lTrain lTest with
  | error e => rfl
  | ok yTest => rfl

/-- All that `extract` sets, when it returns. -/
theorem extractObj_snd {lib : DataLib C K} {cfg : DatasetCfg N} {df : DFrame N C} {n : Nat} {r : Extracted N C K} (h : extract lib cfg df n = .ok r) :
    ∃ fs ntr nte cl g, (r.mask = (if !cfg.oneHot && decide (0 < (featureNames df cfg.label true).length) then some (categoricalMask df cfg.label) else none) ∧
      r.classes = (if cfg.regression then none else some cl) ∧ r.scaledGini = if cfg.regression then none else g) ∧
      (∃ s tr te d dt, lib.split n s = .ok (tr, te) ∧ df.rows tr = .ok d ∧ df.rows te = .ok dt ∧ transformFrame lib cfg.drop fs d = .ok r.xTrain ∧ transformFrame lib cfg.drop fs dt = .ok r.xTest ∧
        ntr = tr.length ∧ nte = te.length) ∧ ∀ a : DatasetAttrs N C K, ((extractObj lib cfg df n).run a).2 =
      { nSamples := some n, categoricalColumns := some (featureNames df cfg.label true), continuousColumns := some (featureNames df cfg.label false)
        mask := if !cfg.oneHot && decide (0 < (featureNames df cfg.label true).length) then r.mask else a.mask
        transformer := some fs, columns := some r.columns, nColumns := some r.xTrain.length, nTrain := some ntr, nTest := some nte
        classes := if cfg.regression then a.classes else some cl
        scaledGini := if cfg.regression then a.scaledGini else some g } := by
  unfold extract at h
  unfold extractObj
  simp only [Act.run_modify]
  cases h1 : df.labels cfg.label with
  | error e => rw [h1] at h; cases h
  | ok labels =>
  rw [h1] at h
  replace h : (lib.split n _ >>= _) = _ := h
  cases h2 : lib.split n (if cfg.regression then none else some labels) with
  | error e => rw [h2] at h; cases h
  | ok parts =>
  rw [h2] at h
  replace h : (df.rows _ >>= _) = _ := h
  cases h3 : df.rows parts.1 with
  | error e => rw [h3] at h; cases h
  | ok dfTrain =>
  rw [h3] at h
  replace h : (df.rows _ >>= _) = _ := h
  cases h4 : df.rows parts.2 with
  | error e => rw [h4] at h; cases h
  | ok dfTest =>
  rw [h4] at h
  replace h : (fitFeatures lib cfg dfTrain >>= _) = _ := h
  cases h5 : fitFeatures lib cfg dfTrain with
  | error e => rw [h5] at h; cases h
  | ok fs =>
  rw [h5] at h
  replace h : (transformFrame lib cfg.drop fs dfTrain >>= _) = _ := h
  cases h6 : transformFrame lib cfg.drop fs dfTrain with
  | error e => rw [h6] at h; cases h
  | ok xTrain =>
  rw [h6] at h
  replace h : (transformFrame lib cfg.drop fs dfTest >>= _) = _ := h
  cases h7 : transformFrame lib cfg.drop fs dfTest with
  | error e => rw [h7] at h; cases h
  | ok xTest =>
  rw [h7] at h
  replace h : (columnNames cfg df fs >>= _) = _ := h
  cases h8 : columnNames cfg df fs with
  | error e => rw [h8] at h; cases h
  | ok columns =>
  rw [h8] at h
  replace h : (checkFrame cfg columns xTrain.length >>= _) = _ := h
  cases h9 : checkFrame cfg columns xTrain.length with
  | error e => rw [h9] at h; cases h
  | ok u =>
  rw [h9] at h
  replace h : (dfTrain.col cfg.label >>= _) = _ := h
  cases h10 : dfTrain.col cfg.label with
  | error e => rw [h10] at h; cases h
  | ok lTrain =>
  rw [h10] at h
  replace h : (dfTest.col cfg.label >>= _) = _ := h
  cases h11 : dfTest.col cfg.label with
  | error e => rw [h11] at h; cases h
  | ok lTest =>
  rw [h11] at h
  replace h : (encodeTargets cfg.regression lTrain lTrain >>= _) = _ := h
  cases h12 : encodeTargets cfg.regression lTrain lTrain with
  | error e => rw [h12] at h; cases h
  | ok yTrain =>
  rw [h12] at h
  replace h : (encodeTargets cfg.regression lTrain lTest >>= _) = _ := h
  cases h13 : encodeTargets cfg.regression lTrain lTest with
  | error e => rw [h13] at h; cases h
  | ok yTest =>
  rw [h13] at h
  cases h
  refine ⟨fs, parts.1.length, parts.2.length, sortedUnique lTrain, Verif.scaledGini (labelProbs labels), ⟨rfl, rfl, rfl⟩,
    ⟨_, parts.1, parts.2, dfTrain, dfTest, h2, h3, h4, h6, h7, rfl, rfl⟩, fun a => ?_⟩
  rw [Act.run_bind]
  change ((Act.lift (lib.split n _) >>= _).run _).2 = _
  rw [h2]
  change ((Act.lift (df.rows _) >>= _).run _).2 = _
  rw [h3]
  change ((Act.lift (df.rows _) >>= _).run _).2 = _
  rw [h4]
  change ((Act.lift (fitFeatures lib cfg dfTrain) >>= _).run _).2 = _
  rw [h5]
  change ((Act.lift (transformFrame lib cfg.drop fs dfTrain) >>= _).run _).2 = _
  rw [h6]
  change ((Act.lift (transformFrame lib cfg.drop fs dfTest) >>= _).run _).2 = _
  rw [h7]
  change ((Act.lift (columnNames cfg df fs) >>= _).run _).2 = _
  rw [h8]
  change ((Act.lift (checkFrame cfg columns xTrain.length) >>= _).run _).2 = _
  rw [h9]
  change ((Act.lift (dfTrain.col cfg.label) >>= _).run _).2 = _
  rw [h10]
  change ((Act.lift (dfTest.col cfg.label) >>= _).run _).2 = _
  rw [h11]
  change ((Act.lift (encodeTargets cfg.regression lTrain lTrain) >>= _).run _).2 = _
  rw [h12]
  change ((Act.lift (encodeTargets cfg.regression lTrain lTest) >>= _).run _).2 = _
  rw [h13]
  by_cases hm : (!cfg.oneHot && decide (0 < (featureNames df cfg.label true).length)) = true <;> cases hr : cfg.regression <;> simp [hm, Act.run, Act.modify, Act.lift, bind, Act.bind, pure, categoricalMask]

/-- What a call keeps, also if it raises: an invariant of all the assignments. -/
theorem extractObj_keeps (lib : DataLib C K) (cfg : DatasetCfg N) (df : DFrame N C) (n : Nat) {P : DatasetAttrs N C K → Prop}
    (hfree : ∀ a s c d t l m i j, P a → P { a with nSamples := s, categoricalColumns := c, continuousColumns := d, transformer := t, columns := l, nColumns := m, nTrain := i, nTest := j })
    (hmask : (!cfg.oneHot && decide (0 < (featureNames df cfg.label true).length)) = true → ∀ a, P a → P { a with mask := some (categoricalMask df cfg.label) })
    (hcl : cfg.regression = false → ∀ a cl g, P a → P { a with classes := some cl, scaledGini := some g }) : (extractObj lib cfg df n).Keeps P := by
  unfold extractObj
  refine .bind (.modify fun a h => hfree a _ _ _ none _ _ _ _ h) fun _ => ?_
  refine .bind (.modify fun a h => hfree a _ _ _ _ _ _ _ _ h) fun _ => ?_
  refine .bind (.modify fun a h => ?_) fun _ => ?_
  · split_ifs with hm
    · exact hmask hm a h
    · exact h
  refine .bind (.lift _) fun labels => .bind (.lift _) fun parts => .bind (.lift _) fun dfTrain => .bind (.lift _) fun dfTest => .bind (.lift _) fun fs => ?_
  refine .bind (.modify fun a h => hfree a _ _ _ (some fs) _ _ _ _ h) fun _ => .bind (.lift _) fun xTrain => .bind (.lift _) fun xTest => .bind (.lift _) fun columns => ?_
  refine .bind (.modify fun a h => hfree a _ _ _ _ (some columns) _ _ _ h) fun _ => .bind (.lift _) fun _ => ?_
  refine .bind (.modify fun a h => hfree a _ _ _ _ _ _ _ _ h) fun _ => .bind (.lift _) fun lTrain => .bind (.lift _) fun lTest => .bind (.lift _) fun yTrain => .bind (.lift _) fun yTest => ?_
  refine .bind (.modify fun a h => ?_) fun _ => .pure _
  cases hr : cfg.regression with
  | true => exact h
  | false => exact hcl hr a _ _ h

omit [LinearOrder C] [Field K] [DecidableEq K] in
theorem ordinal_iff (c : ExtractCall N C K) : (!c.cfg.oneHot && decide (0 < (featureNames c.df c.cfg.label true).length)) = true ↔ c.ordinal := by
  unfold ExtractCall.ordinal featureNames
  rw [Bool.and_eq_true, decide_eq_true_eq, List.length_map, List.length_filter_pos_iff]
  simp

theorem extract_of_run {c : ExtractCall N C K} {a : DatasetAttrs N C K} {v : List (List K) × List (List K) × Targets C × Targets C} (h : (c.run a).1 = .ok v) :
    ∃ r, extract c.lib c.cfg c.df c.n = .ok r ∧ v = (r.xTrain, r.xTest, r.yTrain, r.yTest) := by
  unfold ExtractCall.run at h
  rw [extractObj_fst] at h
  cases hr : extract c.lib c.cfg c.df c.n with
  | error e => rw [hr] at h; cases h
  | ok r =>
    rw [hr] at h
    cases h
    exact ⟨r, rfl, rfl⟩

theorem afterExtracts_keeps {P : DatasetAttrs N C K → Prop} (h0 : P .init) (history : List (ExtractCall N C K)) (h : ∀ c ∈ history, ∀ a, P a → P (c.run a).2) : P (afterExtracts history) := by
  unfold afterExtracts
  generalize DatasetAttrs.init = a at h0 ⊢
  induction history generalizing a with
  | nil => exact h0
  | cons c l ih => exact ih (fun d hd => h d (List.mem_cons_of_mem _ hd)) _ (h c List.mem_cons_self a h0)

/-- As long as no categorical column is coded by numbers, there is no mask. -/
theorem afterExtracts_mask (history : List (ExtractCall N C K)) (h : ∀ c ∈ history, ¬ c.ordinal) : (afterExtracts history).mask = none :=
  afterExtracts_keeps (P := fun a => a.mask = none) rfl history fun c hc =>
    extractObj_keeps c.lib c.cfg c.df c.n (fun _ _ _ _ _ _ _ _ _ h => h) (fun hm => absurd ((ordinal_iff c).1 hm) (h c hc)) fun _ _ _ _ h => h

theorem afterExtracts_classes (history : List (ExtractCall N C K)) (h : ∀ c ∈ history, c.cfg.regression = true) :
    (afterExtracts history).classes = none ∧ (afterExtracts history).scaledGini = none :=
  afterExtracts_keeps (P := fun a => a.classes = none ∧ a.scaledGini = none) ⟨rfl, rfl⟩ history fun c hc =>
    extractObj_keeps c.lib c.cfg c.df c.n (fun _ _ _ _ _ _ _ _ _ h => h) (fun _ _ h => h) fun hr => absurd (h c hc) (by rw [hr]; decide)

end

end Verif
