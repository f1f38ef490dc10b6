import Verif.Proofs.EstEnd

/-! `fit` that fails, dependence of `fit` on the global generator, effect of `fit` on the weights. -/
set_option linter.unusedSectionVars false
namespace Verif

open Spec

namespace Py
variable {S α β : Type}

theorem bind_cases {m : Py S α} {f : α → Py S β} {s s' : S} {r : M β} (h : (m >>= f) s = (r, s')) :
    (∃ e, m s = (.error e, s') ∧ r = .error e) ∨ ∃ a s1, m s = (.ok a, s1) ∧ f a s1 = (r, s') := by
  cases hm : m s with
  | mk r0 s0 =>
    cases r0 with
    | error e =>
      rw [bind_of_error hm] at h
      obtain ⟨rfl, rfl⟩ := Prod.mk.inj h
      exact .inl ⟨e, rfl, rfl⟩
    | ok a =>
      rw [bind_of_ok hm] at h
      exact .inr ⟨a, s0, rfl, h⟩

/-- Related states give equal results and related states. -/
def Sim (R : S → S → Prop) (m : Py S α) : Prop := ∀ s s', R s s' → (m s).1 = (m s').1 ∧ R (m s).2 (m s').2

theorem Sim.bind {R : S → S → Prop} {m : Py S α} {f : α → Py S β} (hm : Sim R m) (hf : ∀ a, Sim R (f a)) : Sim R (m >>= f) := by
  intro s s' h
  obtain ⟨h1, h2⟩ := hm s s' h
  cases h3 : m s with
  | mk r t =>
    cases h4 : m s' with
    | mk r' t' =>
      rw [h3, h4] at h1 h2
      simp only at h1 h2
      subst h1
      cases r with
      | error e => rw [bind_of_error h3, bind_of_error h4]; exact ⟨rfl, h2⟩
      | ok a => rw [bind_of_ok h3, bind_of_ok h4]; exact hf a _ _ h2

theorem Sim.pure {R : S → S → Prop} (a : α) : Sim R (Py.pure a) := fun _ _ h => ⟨rfl, h⟩
theorem Sim.throw {R : S → S → Prop} (e : Err) : Sim R (Py.throw e : Py S α) := fun _ _ h => ⟨rfl, h⟩
theorem Sim.lift {R : S → S → Prop} (m : M α) : Sim R (Py.lift m) := fun _ _ h => ⟨rfl, h⟩
theorem Sim.read {R : S → S → Prop} {f : S → α} (h : ∀ s s', R s s' → f s = f s') : Sim R (Py.read f) :=
  fun s s' hr => ⟨congrArg Except.ok (h s s' hr), hr⟩
theorem Sim.modify {R : S → S → Prop} {f : S → S} (h : ∀ s s', R s s' → R (f s) (f s')) : Sim R (Py.modify f) :=
  fun s s' hr => ⟨rfl, h s s' hr⟩
theorem Sim.raiseIf {R : S → S → Prop} (b : Bool) (e : Err) : Sim R (Py.raiseIf b e) := by
  cases b
  · exact Sim.pure ()
  · exact Sim.throw e

/-- A part of the state that is not changed. -/
def Keeps (f : S → β) (m : Py S α) : Prop := ∀ s, f (m s).2 = f s

theorem Keeps.bind {γ : Type} {f : S → γ} {m : Py S α} {g : α → Py S β} (hm : Keeps f m) (hg : ∀ a, Keeps f (g a)) : Keeps f (m >>= g) := by
  intro s
  cases h : m s with
  | mk r t =>
    have := hm s
    rw [h] at this
    cases r with
    | error e => rw [bind_of_error h]; exact this
    | ok a => rw [bind_of_ok h, hg a t]; exact this

theorem Keeps.pure {γ : Type} {f : S → γ} (a : α) : Keeps f (Py.pure a) := fun _ => rfl
theorem Keeps.lift {γ : Type} {f : S → γ} (m : M α) : Keeps f (Py.lift m) := fun _ => rfl
theorem Keeps.read {γ : Type} {f : S → γ} (g : S → α) : Keeps f (Py.read g) := fun _ => rfl
theorem Keeps.modify {γ : Type} {f : S → γ} {g : S → S} (h : ∀ s, f (g s) = f s) : Keeps f (Py.modify g) := h
theorem Keeps.raiseIf {γ : Type} {f : S → γ} (b : Bool) (e : Err) : Keeps f (Py.raiseIf b e) := by
  cases b <;> exact fun _ => rfl

end Py

section
variable {L V K F Y P G W N : Type} [LinearOrder L] [DecidableEq V] [DecidableEq N] [LinearOrder K] [Field K] [FloorSemiring K] [Num F]

/-! ## The global generator -/

/-- Nothing will be drawn from the global generator. -/
def NoGlobal (n : Nat) (e : Est L V K F P G) : Prop :=
  (∃ k, e.randomState = some (some k)) ∧ ∀ k, e.subsample = some k → n ≤ k

/-- The same up to the state of the global generator. -/
def UpToNp (n : Nat) (s s' : World L V K F P G W) : Prop := s.self = s'.self ∧ s.weights = s'.weights ∧ NoGlobal n s.self

theorem keepCategorical_sim {n : Nat} (cf : CatFeatures) : Py.Sim (UpToNp (L := L) (V := V) (K := K) (F := F) (P := P) (G := G) (W := W) n) (keepCategorical cf) := by
  intro s s' h
  rw [keepCategorical_eq, keepCategorical_eq]
  exact ⟨rfl, by simp only; rw [h.1], h.2.1, h.2.2⟩

theorem fitChecks_sim {n k : Nat} (a : FitArgs N V) :
    Py.Sim (UpToNp (L := L) (V := V) (K := K) (F := F) (P := P) (G := G) (W := W) n) (fitChecks a k) := by
  unfold fitChecks
  refine (keepCategorical_sim _).bind fun _ => (Py.Sim.raiseIf _ _).bind fun _ => ?_
  cases a.weights with
  | none => exact Py.Sim.pure _
  | some b =>
    exact (Py.Sim.read fun s s' h => h.2.1).bind fun w => (Py.Sim.raiseIf _ _).bind fun _ => Py.Sim.pure _

theorem encodeY_sim {n : Nat} (y : List L) (b : Bool) :
    Py.Sim (UpToNp (L := L) (V := V) (K := K) (F := F) (P := P) (G := G) (W := W) n) (encodeY y b) := by
  unfold encodeY
  refine (Py.Sim.read fun s s' h => by rw [h.1]).bind fun o => (Py.Sim.raiseIf _ _).bind fun _ => (Py.Sim.raiseIf _ _).bind fun _ => ?_
  refine (Py.Sim.modify fun s s' h => ⟨by simp only; rw [h.1], h.2.1, h.2.2⟩).bind fun _ => ?_
  split
  · split
    · refine Py.Sim.bind ?_ fun _ => Py.Sim.pure _
      unfold setMulticlass
      exact (Py.Sim.read fun s s' h => by rw [h.1]).bind fun _ => (Py.Sim.raiseIf _ _).bind fun _ =>
        Py.Sim.modify fun s s' h => ⟨by simp only; rw [h.1], h.2.1, h.2.2⟩
    · exact Py.Sim.pure _
  · exact Py.Sim.pure _

theorem prepClassifier_sim {n : Nat} (lib : Lib V K F G W) (a : FitArgs N V) (y : List L) (sw : List F) :
    Py.Sim (UpToNp (P := List F) n) (prepClassifier lib a y sw) := by
  unfold prepClassifier
  refine (encodeY_sim _ _).bind fun ys => (Py.Sim.read fun s s' h => h.1).bind fun e => (Py.Sim.raiseIf _ _).bind fun _ => ?_
  refine (Py.Sim.modify fun s s' h => ⟨by simp only; rw [h.1], h.2.1, h.2.2⟩).bind fun _ => ?_
  refine Py.Sim.bind ?_ fun _ => Py.Sim.pure _
  unfold writeBack
  split
  · exact Py.Sim.modify fun s s' h => ⟨h.1, rfl, h.2.2⟩
  · exact Py.Sim.pure _

theorem generateSeeds_sim {n : Nat} (lib : Lib V K F G W) : Py.Sim (UpToNp (L := L) (P := P) n) (generateSeeds lib) := by
  intro s s' ⟨h1, h2, h3⟩
  obtain ⟨⟨k, hk⟩, h4⟩ := h3
  have e1 := generateSeeds_eq lib (s := s) ⟨_, hk⟩
  have e2 := generateSeeds_eq lib (s := s') ⟨_, by rw [← h1]; exact hk⟩
  rw [e1, e2]
  have : (seedsOf lib s.self s.np).1 = (seedsOf lib s'.self s'.np).1 := by
    rw [← h1]; simp only [seedsOf, hk]
  refine ⟨rfl, ?_, h2, ⟨k, hk⟩, h4⟩
  simp only
  rw [this, h1]

theorem encoderSubset_sim {n : Nat} (lib : Lib V K F G W) : Py.Sim (UpToNp (L := L) (P := P) n) (encoderSubset lib n) := by
  intro s s' ⟨h1, h2, h3⟩
  rw [encoderSubset_eq, encoderSubset_eq]
  have : ∀ np, (subsetOf lib s.self n np).1 = none := by
    intro np
    unfold subsetOf
    split
    · rfl
    · rename_i k hk
      rw [if_neg (by have := h3.2 k hk; omega)]
  refine ⟨?_, h1, h2, h3⟩
  simp only
  rw [← h1, this, this]

theorem treeDepths_sim {n : Nat} (lib : Lib V K F G W) (d k : Nat) : Py.Sim (UpToNp (L := L) (P := P) n) (treeDepths lib false d k) := by
  intro s s' ⟨h1, h2, h3⟩
  rw [treeDepths_eq, treeDepths_eq, depthsOf_fixed, depthsOf_fixed]
  exact ⟨rfl, h1, h2, h3⟩

theorem fitRest_sim (lib : Lib V K F G W) (a : FitArgs N V) (ha : a.randomizedDepth = false) (p : FitData F Y P G) :
    Py.Sim (UpToNp (L := L) a.nRows) (fitRest lib a p) := by
  unfold fitRest
  have hm : ∀ f : Est L V K F P G → Est L V K F P G, (∀ e, NoGlobal a.nRows e → NoGlobal a.nRows (f e)) →
      Py.Sim (UpToNp (W := W) a.nRows) (Py.modify fun s => { s with self := f s.self }) := by
    intro f hf
    exact Py.Sim.modify fun s s' h => ⟨by simp only; rw [h.1], h.2.1, hf _ h.2.2⟩
  refine (Py.Sim.read fun s s' h => h.1).bind fun e => (Py.Sim.lift _).bind fun mf => ?_
  refine (hm (fun e => { e with maxFeatures_ := mf }) fun e h => h).bind fun _ => ?_
  refine (generateSeeds_sim lib).bind fun _ => (Py.Sim.lift _).bind fun ic => (encoderSubset_sim lib).bind fun sub => (Py.Sim.lift _).bind fun enc => ?_
  refine (hm (fun e => { e with isCategorical_ := enc.map FitCol.isCat }) fun e h => h).bind fun _ => (Py.Sim.lift _).bind fun fba => ?_
  refine (hm (fun e' => { e' with encoder := some (e.encCfg lib a.nRows ic, enc) }) fun e h => h).bind fun _ => ?_
  refine (Py.Sim.read fun s s' h => by rw [h.1]).bind fun seeds => ?_
  rw [ha]
  refine (treeDepths_sim lib _ _).bind fun depths => (Py.Sim.lift _).bind fun trees => ?_
  exact hm (fun e => { e with trees := trees, fitted := true, nSamples := a.nRows, nFeatures := a.X.nFeatures }) fun e h => h

theorem fitClassifier_sim (lib : Lib V K F G W) (a : FitArgs N V) (ha : a.randomizedDepth = false) (y : List L) :
    Py.Sim (UpToNp a.nRows) (fitClassifier lib a y) := by
  unfold fitClassifier
  exact (fitChecks_sim a).bind fun sw => (prepClassifier_sim lib a y sw).bind fun p => fitRest_sim lib a ha p

theorem fitRegressor_sim (lib : Lib V K F G W) (a : FitArgs N V) (ha : a.randomizedDepth = false) (y : List F) :
    Py.Sim (UpToNp (L := L) a.nRows) (fitRegressor lib a y) := by
  unfold fitRegressor
  exact (fitChecks_sim a).bind fun sw => (show Py.Sim _ (prepRegressor lib y sw) from Py.Sim.pure _).bind fun p => fitRest_sim lib a ha p

/-! ## The weights of the caller -/

theorem keepCategorical_weights (cf : CatFeatures) : Py.Keeps (World.weights (L := L) (V := V) (K := K) (F := F) (P := P) (G := G) (W := W)) (keepCategorical cf) := by
  intro s; rw [keepCategorical_eq]

theorem fitChecks_weights_kept (a : FitArgs N V) (k : Nat) :
    Py.Keeps (World.weights (L := L) (V := V) (K := K) (F := F) (P := P) (G := G) (W := W)) (fitChecks a k) := by
  unfold fitChecks
  refine (keepCategorical_weights _).bind fun _ => (Py.Keeps.raiseIf _ _).bind fun _ => ?_
  cases a.weights with
  | none => exact Py.Keeps.pure _
  | some b => exact (Py.Keeps.read _).bind fun w => (Py.Keeps.raiseIf _ _).bind fun _ => Py.Keeps.pure _

theorem encodeY_weights (y : List L) (b : Bool) :
    Py.Keeps (World.weights (L := L) (V := V) (K := K) (F := F) (P := P) (G := G) (W := W)) (encodeY y b) := by
  unfold encodeY
  refine (Py.Keeps.read _).bind fun o => (Py.Keeps.raiseIf _ _).bind fun _ => (Py.Keeps.raiseIf _ _).bind fun _ => ?_
  refine (Py.Keeps.modify (by intro; rfl)).bind fun _ => ?_
  split
  · split
    · refine Py.Keeps.bind ?_ fun _ => Py.Keeps.pure _
      unfold setMulticlass
      exact (Py.Keeps.read _).bind fun _ => (Py.Keeps.raiseIf _ _).bind fun _ => Py.Keeps.modify (by intro; rfl)
    · exact Py.Keeps.pure _
  · exact Py.Keeps.pure _

theorem fitRest_weights (lib : Lib V K F G W) (a : FitArgs N V) (p : FitData F Y P G) :
    Py.Keeps (World.weights (L := L)) (fitRest lib a p) := by
  unfold fitRest
  refine (Py.Keeps.read _).bind fun e => (Py.Keeps.lift _).bind fun mf => (Py.Keeps.modify (by intro; rfl)).bind fun _ => ?_
  refine Py.Keeps.bind ?_ fun _ => (Py.Keeps.lift _).bind fun ic => ?_
  · intro s
    cases hr : s.self.randomState with
    | some v => rw [generateSeeds_eq lib ⟨v, hr⟩]
    | none =>
      unfold generateSeeds
      rw [Py.bind_of_ok (Py.read_apply _ _), Py.bind_of_error (e := .attributeError) (s' := s) (by simp [Est.getRandomState, hr])]
  refine Py.Keeps.bind (fun s => by rw [encoderSubset_eq]) fun sub => (Py.Keeps.lift _).bind fun enc => (Py.Keeps.modify (by intro; rfl)).bind fun _ => ?_
  refine (Py.Keeps.lift _).bind fun fba => (Py.Keeps.modify (by intro; rfl)).bind fun _ => (Py.Keeps.read _).bind fun seeds => ?_
  exact Py.Keeps.bind (fun s => by rw [treeDepths_eq]) fun d => (Py.Keeps.lift _).bind fun trees => Py.Keeps.modify (by intro; rfl)

theorem fitRegressor_weights (lib : Lib V K F G W) (a : FitArgs N V) (y : List F) :
    Py.Keeps (World.weights (L := L)) (fitRegressor lib a y) := by
  unfold fitRegressor
  exact (fitChecks_weights_kept a _).bind fun sw => (show Py.Keeps _ (prepRegressor lib y sw) from Py.Keeps.pure _).bind fun p => fitRest_weights lib a p

/-- The array of the caller is not touched unless it is used as it is, with balanced classes, in multinomial mode. -/
theorem prepClassifier_weights (lib : Lib V K F G W) (a : FitArgs N V) (y : List L) (sw : List F) (s : World L V K F (List F) G W)
    (h : a.weights ≠ some true ∨ s.self.balanced = false ∨ (s.self.ovr = true ∧ 2 < (sortedUnique y).length)) :
    ((prepClassifier lib a y sw) s).2.weights = s.weights := by
  have he : ∀ ys s1, encodeY y a.targetsOK s = (.ok ys, s1) →
      s1.weights = s.weights ∧ (a.weights ≠ some true ∨ s1.self.balanced = false ∨ s1.self.ovr = true) := by
    intro ys s1 h1
    have hw := encodeY_weights y a.targetsOK s
    rw [h1] at hw
    refine ⟨hw, h.imp_right ?_⟩
    unfold encodeY at h1
    rw [Py.bind_of_ok (Py.read_apply _ _)] at h1
    obtain ⟨_, t, h2, h1⟩ := Py.bind_inv h1
    have : t = s := by cases hb : !a.targetsOK <;> rw [hb] at h2 <;> cases h2; rfl
    subst this
    obtain ⟨_, t', h2, h1⟩ := Py.bind_inv h1
    have : t' = t := by cases hb : t.self.ovr && y.isEmpty <;> rw [hb] at h2 <;> cases h2; rfl
    subst this
    simp only at h1
    rw [Py.bind_of_ok (Py.modify_apply _ _)] at h1
    rintro (hb | ⟨ho, hl⟩)
    · left
      split at h1
      · split at h1
        · obtain ⟨_, t2, h3, h1⟩ := Py.bind_inv h1
          unfold setMulticlass at h3
          rw [Py.bind_of_ok (Py.read_apply _ _)] at h3
          obtain ⟨_, t3, h4, h3⟩ := Py.bind_inv h3
          simp only at h4
          cases hf : t'.self.fitted <;> rw [hf] at h4 <;> cases h4
          cases h3; cases h1
          exact hb
        · cases h1; exact hb
      · cases h1; exact hb
    · right
      rw [if_pos ho, if_neg (by omega)] at h1
      cases h1
      exact ho
  unfold prepClassifier
  cases h1 : encodeY y a.targetsOK s with
  | mk r s1 =>
    cases r with
    | error e =>
      rw [Py.bind_of_error h1]
      have := encodeY_weights y a.targetsOK s
      rw [h1] at this; exact this
    | ok ys =>
      obtain ⟨hw, hc⟩ := he ys s1 h1
      rw [Py.bind_of_ok h1, Py.bind_of_ok (Py.read_apply _ _), ← hw]
      have hb : (s1.self.balanced && !s1.self.ovr && a.weights == some true) = false := by
        rcases hc with h | h | h
        · have : (a.weights == some true) = false := by simpa using h
          rw [this, Bool.and_false]
        · simp [h]
        · simp [h]
      exact (Py.Keeps.bind (Py.Keeps.raiseIf _ _) fun _ => Py.Keeps.bind (Py.Keeps.modify (by intro; rfl)) fun _ =>
        Py.Keeps.bind (by unfold writeBack; rw [hb]; exact Py.Keeps.pure _) fun _ => Py.Keeps.pure _) s1

theorem fitClassifier_weights (lib : Lib V K F G W) (a : FitArgs N V) (y : List L) (s : World L V K F (List F) G W)
    (h : a.weights ≠ some true ∨ s.self.balanced = false ∨ (s.self.ovr = true ∧ 2 < (sortedUnique y).length)) :
    ((fitClassifier lib a y) s).2.weights = s.weights := by
  unfold fitClassifier
  have hw := fitChecks_weights_kept a y.length s
  cases h1 : fitChecks a y.length s with
  | mk r s1 =>
    rw [h1] at hw
    cases r with
    | error e => rw [Py.bind_of_error h1]; exact hw
    | ok sw =>
      rw [Py.bind_of_ok h1, ← hw]
      have hs : s1.self.balanced = s.self.balanced ∧ s1.self.ovr = s.self.ovr := by
        unfold fitChecks at h1
        rw [Py.bind_of_ok (keepCategorical_eq _ _)] at h1
        obtain ⟨_, t, h2, h1⟩ := Py.bind_inv h1
        cases hb : (a.nRows != y.length) <;> rw [hb] at h2 <;> cases h2
        cases ha : a.weights with
        | none => rw [ha] at h1; cases h1; exact ⟨rfl, rfl⟩
        | some b =>
          rw [ha] at h1
          simp only at h1
          rw [Py.bind_of_ok (Py.read_apply _ _)] at h1
          obtain ⟨_, t, h2, h1⟩ := Py.bind_inv h1
          simp only at h2
          cases hb : (s.weights.length != a.nRows) <;> rw [hb] at h2 <;> cases h2
          cases h1; exact ⟨rfl, rfl⟩
      have hp := prepClassifier_weights lib a y sw s1 (by rw [hs.1, hs.2]; exact h)
      cases h2 : prepClassifier lib a y sw s1 with
      | mk r s2 =>
        rw [h2] at hp
        cases r with
        | error e => rw [Py.bind_of_error h2]; exact hp
        | ok p => rw [Py.bind_of_ok h2, fitRest_weights lib a p s2]; exact hp

/-! ## Failures of the second half -/

theorem mapM_error_all {α β : Type} {f : α → M β} {l : List α} {e : Err} (hl : l.length ≠ 0) (h : ∀ x ∈ l, f x = .error e) : l.mapM f = .error e := by
  cases l with
  | nil => exact absurd rfl hl
  | cons x l => rw [List.mapM_cons, h x (by simp)]; rfl

theorem mapM_error_inv {α β : Type} {f : α → M β} {l : List α} {e : Err} (h : l.mapM f = .error e) : ∃ x ∈ l, f x = .error e := by
  induction l with
  | nil => cases h
  | cons x l ih =>
    rw [List.mapM_cons] at h
    cases hx : f x with
    | error e' =>
      rw [hx] at h
      injection h with h
      exact ⟨x, by simp, by rw [hx, h]⟩
    | ok v =>
      rw [hx, bind_ok] at h
      cases hl : l.mapM f with
      | error e' =>
        rw [hl] at h
        injection h with h
        obtain ⟨z, hz, hze⟩ := ih (by rw [hl, h])
        exact ⟨z, by simp [hz], hze⟩
      | ok vs => rw [hl] at h; cases h

/-- After a failure in the second half of `fit`, only these attributes can have changed; the encoder only when the construction of
a tree failed. -/
theorem fitRest_error {lib : Lib V K F G W} {a : FitArgs N V} {p : FitData F Y P G} {s s' : World L V K F P G W} {err : Err}
    (h : fitRest lib a p s = (.error err, s')) :
    ∃ mf sd ic enc, s'.self = { s.self with maxFeatures_ := mf, seeds := sd, isCategorical_ := ic, encoder := enc } ∧
      (enc = s.self.encoder ∨ ∃ mf ic fba seeds depths, growTrees lib a.nRows p s.self mf ic fba seeds depths = .error err) := by
  unfold fitRest at h
  rw [Py.bind_of_ok (Py.read_apply _ s)] at h
  rcases Py.bind_cases h with ⟨e, h1, _⟩ | ⟨mf, s1, h1, h⟩
  · obtain ⟨-, rfl⟩ := Prod.mk.inj h1; exact ⟨_, _, _, _, rfl, .inl rfl⟩
  obtain ⟨-, rfl⟩ := Prod.mk.inj h1
  rw [Py.bind_of_ok (Py.modify_apply _ _)] at h
  have hg : ∀ (t t' : World L V K F P G W) r, generateSeeds lib t = (r, t') → ∃ sd, t'.self = { t.self with seeds := sd } := by
    intro t t' r hg
    cases hr : t.self.randomState with
    | some v =>
      rw [generateSeeds_eq lib ⟨v, hr⟩] at hg
      obtain ⟨-, rfl⟩ := Prod.mk.inj hg
      exact ⟨_, rfl⟩
    | none =>
      unfold generateSeeds at hg
      rw [Py.bind_of_ok (Py.read_apply _ _), Py.bind_of_error (e := .attributeError) (s' := t) (by simp [Est.getRandomState, hr])] at hg
      obtain ⟨-, rfl⟩ := Prod.mk.inj hg
      exact ⟨_, rfl⟩
  rcases Py.bind_cases h with ⟨e, h1, _⟩ | ⟨_, s2, h1, h⟩
  · obtain ⟨sd, hsd⟩ := hg _ _ _ h1
    exact ⟨_, _, _, _, hsd, .inl rfl⟩
  obtain ⟨sd, hsd⟩ := hg _ _ _ h1
  clear h1
  simp only at hsd
  rcases Py.bind_cases h with ⟨e, h1, _⟩ | ⟨ic, s3, h1, h⟩
  · obtain ⟨-, rfl⟩ := Prod.mk.inj h1; exact ⟨_, _, _, _, hsd, .inl rfl⟩
  obtain ⟨-, rfl⟩ := Prod.mk.inj h1
  rw [Py.bind_of_ok (encoderSubset_eq _ _ _)] at h
  rcases Py.bind_cases h with ⟨e, h1, _⟩ | ⟨enc, s4, h1, h⟩
  · obtain ⟨-, rfl⟩ := Prod.mk.inj h1; exact ⟨_, _, _, _, hsd, .inl rfl⟩
  obtain ⟨-, rfl⟩ := Prod.mk.inj h1
  rw [Py.bind_of_ok (Py.modify_apply _ _)] at h
  rcases Py.bind_cases h with ⟨e, h1, _⟩ | ⟨fba, s5, h1, h⟩
  · obtain ⟨-, rfl⟩ := Prod.mk.inj h1; exact ⟨_, _, _, _, by simp only; rw [hsd], .inl rfl⟩
  obtain ⟨-, rfl⟩ := Prod.mk.inj h1
  rw [Py.bind_of_ok (Py.modify_apply _ _), Py.bind_of_ok (Py.read_apply _ _), Py.bind_of_ok (treeDepths_eq _ _ _ _ _)] at h
  rcases Py.bind_cases h with ⟨e, h1, h2⟩ | ⟨trees, s6, h1, h⟩
  · rw [Py.lift_apply] at h1
    obtain ⟨h3, rfl⟩ := Prod.mk.inj h1
    injection h2 with h2
    subst h2
    exact ⟨_, _, _, _, by simp only; rw [hsd], .inr ⟨_, _, _, _, _, h3⟩⟩
  · rw [Py.modify_apply] at h
    cases h

/-- The construction of the trees fails: the encoder is already replaced. -/
theorem fitRest_trees_error {lib : Lib V K F G W} {a : FitArgs N V} {p : FitData F Y P G} {s : World L V K F P G W} {mf : Nat} {ic : Option (List Bool)}
    {enc : List (FitCol V K)} {fba : FBA} {err : Err}
    (hmf : getMaxFeatures s.self.maxFeatures (nCols a.X) = .ok mf) (hrs : ∃ r, s.self.randomState = some r)
    (hic : getIsCategorical a.categorical (nCols a.X) = .ok ic) (hacc : s.self.encoderAccepts = true)
    (henc : encoderFit lib.conv (s.self.encCfg lib a.nRows ic) (subsetOf lib s.self a.nRows (seedsOf lib s.self s.np).2).1 a.X = .ok enc)
    (hfba : encoderTransform lib.conv (s.self.encCfg lib a.nRows ic) enc lib.words a.nRows a.X = .ok fba)
    (htrees : growTrees lib a.nRows p s.self mf (enc.map FitCol.isCat) fba (seedsOf lib s.self s.np).1
      (depthsOf lib a.randomizedDepth (s.self.maxDepth.getD (2 ^ 64 - 1)) (seedsOf lib s.self s.np).1.length
        (subsetOf lib s.self a.nRows (seedsOf lib s.self s.np).2).2).1 = .error err) :
    ∃ s', fitRest lib a p s = (.error err, s') ∧ s'.self.trees = s.self.trees ∧ s'.self.encoder = some (s.self.encCfg lib a.nRows ic, enc) := by
  unfold fitRest
  rw [Py.bind_of_ok (Py.read_apply _ s)]
  simp only [nFeatures_eq]
  rw [Py.bind_of_ok (a := mf) (s' := s) (by rw [Py.lift_apply, hmf]), Py.bind_of_ok (Py.modify_apply _ _),
    Py.bind_of_ok (generateSeeds_eq lib (by exact hrs)), Py.bind_of_ok (a := ic) (by rw [Py.lift_apply, newEncoder_ok.2 ⟨hic, hacc⟩]),
    Py.bind_of_ok (encoderSubset_eq _ _ _)]
  rw [Py.bind_of_ok (a := enc) (by rw [Py.lift_apply]; exact congrArg (·, _) henc), Py.bind_of_ok (Py.modify_apply _ _),
    Py.bind_of_ok (a := fba) (by rw [Py.lift_apply, hfba]), Py.bind_of_ok (Py.modify_apply _ _), Py.bind_of_ok (Py.read_apply _ _),
    Py.bind_of_ok (treeDepths_eq _ _ _ _ _), Py.bind_of_error (e := err) (by rw [Py.lift_apply]; exact congrArg (·, _) htrees)]
  exact ⟨_, rfl, rfl, rfl⟩

end

end Verif
