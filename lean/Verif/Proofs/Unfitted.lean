import Verif.Spec.Unfitted
import Verif.Proofs.ParamsEst
import Verif.Proofs.Life

/-! The attributes that tell whether an estimator is fitted. -/
set_option linter.unusedSectionVars false
namespace Verif

open Spec

section
variable {L V K F Y P G W N : Type} [LinearOrder L] [DecidableEq V] [DecidableEq N] [LinearOrder K] [Field K] [FloorSemiring K] [Num F]

/-- The attributes that a failed `fit` keeps. -/
def treesOf (s : World L V K F P G W) : List (TreeObj F P G) × Bool × Nat := (s.self.trees, s.self.fitted, s.self.nEstimators)

theorem encodeY_trees (y : List L) (b : Bool) : Py.Keeps (treesOf (L := L) (V := V) (K := K) (F := F) (P := P) (G := G) (W := W)) (encodeY y b) := by
  unfold encodeY
  refine (Py.Keeps.read _).bind fun o => (Py.Keeps.raiseIf _ _).bind fun _ => (Py.Keeps.raiseIf _ _).bind fun _ => ?_
  refine (Py.Keeps.modify (by intro; rfl)).bind fun _ => ?_
  split
  · split
    · refine Py.Keeps.bind ?_ fun _ => Py.Keeps.pure _
      unfold setMulticlass
      exact (Py.Keeps.read _).bind fun _ => (Py.Keeps.raiseIf _ _).bind fun _ => Py.Keeps.modify (by intro; rfl)
    · exact Py.Keeps.pure _
  · exact Py.Keeps.pure _

theorem prepClassifier_treesOf (lib : Lib V K F G W) (a : FitArgs N V) (y : List L) (sw : List F) :
    Py.Keeps (treesOf (L := L)) (prepClassifier lib a y sw) := by
  unfold prepClassifier
  refine (encodeY_trees y _).bind fun ys => (Py.Keeps.read _).bind fun e => (Py.Keeps.raiseIf _ _).bind fun _ => ?_
  refine (Py.Keeps.modify (by intro; rfl)).bind fun _ => Py.Keeps.bind ?_ fun _ => Py.Keeps.pure _
  unfold writeBack
  split
  · exact Py.Keeps.modify (by intro; rfl)
  · exact Py.Keeps.pure _

theorem fitRest_error_trees {lib : Lib V K F G W} {a : FitArgs N V} {p : FitData F Y P G} {s s' : World L V K F P G W} {err : Err}
    (h : fitRest lib a p s = (.error err, s')) : treesOf s' = treesOf s := by
  obtain ⟨mf, sd, ic, enc, hs, -⟩ := fitRest_error h
  unfold treesOf
  rw [hs]

/-- A failed `fit` keeps the trees and the flag. -/
theorem fitClassifier_error_trees {lib : Lib V K F G W} {a : FitArgs N V} {y : List L} {s s' : World L V K F (List F) G W} {err : Err}
    (h : fitClassifier lib a y s = (.error err, s')) : treesOf s' = treesOf s := by
  unfold fitClassifier at h
  have k1 := fitChecks_keeps (treesOf (L := L) (V := V) (K := K) (F := F) (P := List F) (G := G) (W := W)) a y.length (fun _ => rfl) s
  rcases Py.bind_cases h with ⟨e, h1, _⟩ | ⟨sw, s1, h1, h⟩
  · rw [h1] at k1; exact k1
  rw [h1] at k1
  have k2 := prepClassifier_treesOf lib a y sw s1
  rcases Py.bind_cases h with ⟨e, h2, _⟩ | ⟨p, s2, h2, h⟩
  · rw [h2] at k2; exact k2.trans k1
  rw [h2] at k2
  exact (fitRest_error_trees h).trans (k2.trans k1)

theorem fitRegressor_error_trees {lib : Lib V K F G W} {a : FitArgs N V} {y : List F} {s s' : World L V K F F G W} {err : Err}
    (h : fitRegressor lib a y s = (.error err, s')) : treesOf s' = treesOf s := by
  unfold fitRegressor at h
  have k1 := fitChecks_keeps (treesOf (L := L) (V := V) (K := K) (F := F) (P := F) (G := G) (W := W)) a y.length (fun _ => rfl) s
  rcases Py.bind_cases h with ⟨e, h1, _⟩ | ⟨sw, s1, h1, h⟩
  · rw [h1] at k1; exact k1
  rw [h1] at k1
  rcases Py.bind_cases h with ⟨e, h2, _⟩ | ⟨p, s2, h2, h⟩
  · cases h2
  cases h2
  exact (fitRest_error_trees h).trans k1

theorem mapM_len {α β : Type} {f : α → M β} {l : List α} {r : List β} (h : l.mapM f = .ok r) : r.length = l.length := by
  induction l generalizing r with
  | nil => cases h; rfl
  | cons x l ih =>
    rw [List.mapM_cons, bind_eq_ok] at h
    obtain ⟨v, -, h⟩ := h
    rw [bind_eq_ok] at h
    obtain ⟨vs, h1, h⟩ := h
    cases h
    simp [ih h1]

/-- A successful `fit` makes as many trees as there are seeds. -/
theorem Outcome.trees_length {lib : Lib V K F G W} {a : FitArgs N V} {p : FitData F Y P G} {e : Est L V K F P G} {np : W} (o : Outcome lib a p e np) :
    o.trees.length = (seedsOf lib e np).1.length := by
  have h := o.htrees
  unfold growTrees at h
  have := mapM_len h
  simpa [depthsOf_length] using this

/-- After a successful preparation the mode "ovr" has more than two classes. -/
theorem prepClassifier_classes {lib : Lib V K F G W} {a : FitArgs N V} {y : List L} {sw : List F} {s s' : World L V K F (List F) G W} {p : FitData F (List F) (List F) G}
    (h : prepClassifier lib a y sw s = (.ok p, s')) : s'.self.ovr = true → 1 ≤ s'.self.nClasses := by
  unfold prepClassifier at h
  obtain ⟨ys, s1, h1, h⟩ := Py.bind_inv h
  have key : s1.self.ovr = true → 1 ≤ s1.self.nClasses := by
    unfold encodeY at h1
    rw [Py.bind_of_ok (Py.read_apply _ s)] at h1
    obtain ⟨_, s2, h2, h1⟩ := Py.bind_inv h1
    obtain rfl : s2 = s := by revert h2; cases (!a.targetsOK) <;> intro h2 <;> cases h2; rfl
    obtain ⟨_, s3, h3, h1⟩ := Py.bind_inv h1
    obtain rfl : s3 = s2 := by revert h3; cases (s2.self.ovr && y.isEmpty) <;> intro h3 <;> cases h3; rfl
    rw [Py.bind_of_ok (Py.modify_apply _ _)] at h1
    split at h1
    · split at h1
      · obtain ⟨_, s4, h4, h1⟩ := Py.bind_inv h1
        cases h1
        unfold setMulticlass at h4
        rw [Py.bind_of_ok (Py.read_apply _ _)] at h4
        obtain ⟨_, s5, h5, h4⟩ := Py.bind_inv h4
        cases h4
        intro h; cases h
      · next hc =>
        cases h1
        intro _
        simp only
        omega
    · next hc =>
      cases h1
      intro h
      exact absurd h hc
  rw [Py.bind_of_ok (Py.read_apply _ s1)] at h
  obtain ⟨_, s2, h2, h⟩ := Py.bind_inv h
  obtain rfl : s2 = s1 := by
    unfold Py.raiseIf at h2
    split at h2
    · cases h2
    · cases h2; rfl
  rw [Py.bind_of_ok (Py.modify_apply _ _)] at h
  obtain ⟨_, s3, h3, h⟩ := Py.bind_inv h
  cases h
  unfold writeBack at h3
  split at h3 <;> cases h3 <;> exact key

theorem seedsOf_nonempty {lib : Lib V K F G W} (h1 : ∀ s k, (lib.seeded s k).length = k) (h2 : ∀ w k, (lib.seededGlobal w k).1.length = k)
    {e : Est L V K F P G} (he : 1 ≤ e.nEstimators) (ho : e.ovr = true → 1 ≤ e.nClasses) (np : W) : 1 ≤ (seedsOf lib e np).1.length := by
  simp only [seedsOf]
  split
  · next h =>
    rw [flatMap_replicate_length]
    refine Nat.mul_pos ?_ (ho h)
    split
    · rw [h1]; exact he
    · rw [h2]; exact he
  · split
    · rw [h1]; exact he
    · rw [h2]; exact he

/-- The attributes of an estimator with trees. -/
structure HasTrees (e : Est L V K F P G) : Prop where
  fitted : e.fitted = true
  trees : e.trees ≠ []
  encoder : e.encoder ≠ none
  estimators : 1 ≤ e.nEstimators

theorem fitRest_trees {lib : Lib V K F G W} (h1 : ∀ s k, (lib.seeded s k).length = k) (h2 : ∀ w k, (lib.seededGlobal w k).1.length = k)
    {a : FitArgs N V} {p : FitData F Y P G} {s s' : World L V K F P G W} (he : 1 ≤ s.self.nEstimators) (ho : s.self.ovr = true → 1 ≤ s.self.nClasses)
    (h : fitRest lib a p s = (.ok (), s')) : HasTrees s'.self := by
  obtain ⟨o, rfl⟩ := fitRest_inv h
  refine ⟨rfl, ?_, by simp [Outcome.est], he⟩
  have := o.trees_length ▸ seedsOf_nonempty h1 h2 he ho s.np
  simp only [Outcome.est]
  intro h0
  rw [h0] at this
  cases this

theorem fitClassifier_trees {lib : Lib V K F G W} (h1 : ∀ s k, (lib.seeded s k).length = k) (h2 : ∀ w k, (lib.seededGlobal w k).1.length = k)
    {a : FitArgs N V} {y : List L} {s s' : World L V K F (List F) G W} (he : 1 ≤ s.self.nEstimators)
    (h : fitClassifier lib a y s = (.ok (), s')) : HasTrees s'.self := by
  unfold fitClassifier at h
  have k1 := fitChecks_keeps (treesOf (L := L) (V := V) (K := K) (F := F) (P := List F) (G := G) (W := W)) a y.length (fun _ => rfl) s
  obtain ⟨sw, s1, g1, h⟩ := Py.bind_inv h
  rw [g1] at k1
  have k2 := prepClassifier_treesOf lib a y sw s1
  obtain ⟨p, s2, g2, h⟩ := Py.bind_inv h
  rw [g2] at k2
  have k := k2.trans k1
  simp only [treesOf, Prod.mk.injEq] at k
  exact fitRest_trees h1 h2 (by rw [k.2.2]; exact he) (prepClassifier_classes g2) h

theorem fitRegressor_trees {lib : Lib V K F G W} (h1 : ∀ s k, (lib.seeded s k).length = k) (h2 : ∀ w k, (lib.seededGlobal w k).1.length = k)
    {a : FitArgs N V} {y : List F} {s s' : World L V K F F G W} (he : 1 ≤ s.self.nEstimators) (ho : s.self.ovr = false)
    (h : fitRegressor lib a y s = (.ok (), s')) : HasTrees s'.self := by
  have k3 := fitRegressor_ovr (L := L) lib a y s
  unfold fitRegressor at h k3
  have k1 := fitChecks_keeps (fun s : World L V K F F G W => (treesOf s, s.self.ovr)) a y.length (fun _ => rfl) s
  obtain ⟨sw, s1, g1, h⟩ := Py.bind_inv h
  rw [g1] at k1
  obtain ⟨p, s2, g2, h⟩ := Py.bind_inv h
  cases g2
  simp only [treesOf, Prod.mk.injEq] at k1
  exact fitRest_trees h1 h2 (by rw [k1.1.2.2]; exact he) (fun h => by rw [k1.2, ho] at h; cases h) h

/-- A failed `fit` replaces the encoder at most by another one. -/
theorem fitRest_encoder {lib : Lib V K F G W} {a : FitArgs N V} {p : FitData F Y P G} {s s' : World L V K F P G W} {r : M Unit}
    (h : fitRest lib a p s = (r, s')) (he : s.self.encoder ≠ none) : s'.self.encoder ≠ none := by
  have key : Py.Keeps (fun s : World L V K F P G W => s.self.encoder) (generateSeeds lib) := by
    intro s
    cases hr : s.self.randomState with
    | some v => rw [generateSeeds_eq lib ⟨v, hr⟩]
    | none =>
      unfold generateSeeds
      rw [Py.bind_of_ok (Py.read_apply _ _), Py.bind_of_error (e := .attributeError) (s' := s) (by simp [Est.getRandomState, hr])]
  unfold fitRest at h
  rw [Py.bind_of_ok (Py.read_apply _ s)] at h
  rcases Py.bind_cases h with ⟨e, h1, _⟩ | ⟨mf, s1, h1, h⟩
  · obtain ⟨-, rfl⟩ := Prod.mk.inj h1; exact he
  obtain ⟨-, rfl⟩ := Prod.mk.inj h1
  rw [Py.bind_of_ok (Py.modify_apply _ _)] at h
  have k := key { s with self := { s.self with maxFeatures_ := mf } }
  simp only at k
  rcases Py.bind_cases h with ⟨e, h1, _⟩ | ⟨_, s2, h1, h⟩
  · rw [h1] at k; simp only at k; rw [k]; exact he
  rw [h1] at k
  simp only at k
  clear h1
  rcases Py.bind_cases h with ⟨e, h1, _⟩ | ⟨ic, s3, h1, h⟩
  · obtain ⟨-, rfl⟩ := Prod.mk.inj h1; rw [k]; exact he
  obtain ⟨-, rfl⟩ := Prod.mk.inj h1
  rw [Py.bind_of_ok (encoderSubset_eq _ _ _)] at h
  rcases Py.bind_cases h with ⟨e, h1, _⟩ | ⟨enc, s4, h1, h⟩
  · obtain ⟨-, rfl⟩ := Prod.mk.inj h1; simp only; rw [k]; exact he
  obtain ⟨-, rfl⟩ := Prod.mk.inj h1
  rw [Py.bind_of_ok (Py.modify_apply _ _)] at h
  rcases Py.bind_cases h with ⟨e, h1, _⟩ | ⟨fba, s5, h1, h⟩
  · obtain ⟨-, rfl⟩ := Prod.mk.inj h1; simp only; rw [k]; exact he
  obtain ⟨-, rfl⟩ := Prod.mk.inj h1
  rw [Py.bind_of_ok (Py.modify_apply _ _), Py.bind_of_ok (Py.read_apply _ _), Py.bind_of_ok (treeDepths_eq _ _ _ _ _)] at h
  rcases Py.bind_cases h with ⟨e, h1, h2⟩ | ⟨trees, s6, h1, h⟩
  · rw [Py.lift_apply] at h1
    obtain ⟨h3, rfl⟩ := Prod.mk.inj h1
    simp
  · rw [Py.lift_apply] at h1
    obtain ⟨h3, rfl⟩ := Prod.mk.inj h1
    rw [Py.modify_apply] at h
    obtain ⟨-, rfl⟩ := Prod.mk.inj h
    simp

theorem encodeY_encoder (y : List L) (b : Bool) : Py.Keeps (fun s : World L V K F P G W => s.self.encoder) (encodeY y b) := by
  unfold encodeY
  refine (Py.Keeps.read _).bind fun o => (Py.Keeps.raiseIf _ _).bind fun _ => (Py.Keeps.raiseIf _ _).bind fun _ => ?_
  refine (Py.Keeps.modify (by intro; rfl)).bind fun _ => ?_
  split
  · split
    · refine Py.Keeps.bind ?_ fun _ => Py.Keeps.pure _
      unfold setMulticlass
      exact (Py.Keeps.read _).bind fun _ => (Py.Keeps.raiseIf _ _).bind fun _ => Py.Keeps.modify (by intro; rfl)
    · exact Py.Keeps.pure _
  · exact Py.Keeps.pure _

theorem fitClassifier_encoder {lib : Lib V K F G W} {a : FitArgs N V} {y : List L} {s s' : World L V K F (List F) G W} {r : M Unit}
    (h : fitClassifier lib a y s = (r, s')) (he : s.self.encoder ≠ none) : s'.self.encoder ≠ none := by
  unfold fitClassifier at h
  have k1 := fitChecks_keeps (fun s : World L V K F (List F) G W => s.self.encoder) a y.length (fun _ => rfl) s
  rcases Py.bind_cases h with ⟨e, h1, _⟩ | ⟨sw, s1, h1, h⟩
  · rw [h1] at k1; simp only at k1; rw [k1]; exact he
  rw [h1] at k1
  have k2 : Py.Keeps (fun s : World L V K F (List F) G W => s.self.encoder) (prepClassifier lib a y sw) := by
    unfold prepClassifier
    refine (encodeY_encoder y _).bind fun ys => (Py.Keeps.read _).bind fun e => (Py.Keeps.raiseIf _ _).bind fun _ => ?_
    refine (Py.Keeps.modify (by intro; rfl)).bind fun _ => Py.Keeps.bind ?_ fun _ => Py.Keeps.pure _
    unfold writeBack
    split
    · exact Py.Keeps.modify (by intro; rfl)
    · exact Py.Keeps.pure _
  have k2 := k2 s1
  rcases Py.bind_cases h with ⟨e, h2, _⟩ | ⟨p, s2, h2, h⟩
  · rw [h2] at k2; simp only at k1 k2; rw [k2, k1]; exact he
  rw [h2] at k2
  simp only at k1 k2
  exact fitRest_encoder h (by rw [k2, k1]; exact he)

theorem fitRegressor_encoder {lib : Lib V K F G W} {a : FitArgs N V} {y : List F} {s s' : World L V K F F G W} {r : M Unit}
    (h : fitRegressor lib a y s = (r, s')) (he : s.self.encoder ≠ none) : s'.self.encoder ≠ none := by
  unfold fitRegressor at h
  have k1 := fitChecks_keeps (fun s : World L V K F F G W => s.self.encoder) a y.length (fun _ => rfl) s
  rcases Py.bind_cases h with ⟨e, h1, _⟩ | ⟨sw, s1, h1, h⟩
  · rw [h1] at k1; simp only at k1; rw [k1]; exact he
  rw [h1] at k1
  rcases Py.bind_cases h with ⟨e, h2, _⟩ | ⟨p, s2, h2, h⟩
  · cases h2
  cases h2
  simp only at k1
  exact fitRest_encoder h (by rw [k1]; exact he)

/-! ## Assignments -/

/-- What the assignments do to the attributes that tell whether an estimator is fitted. -/
structure KeepsFitted (e e' : Est L V K F P G) : Prop where
  fitted : e'.fitted = e.fitted
  trees : e'.trees.length = e.trees.length
  encoder : e'.encoder = e.encoder
  estimators : 1 ≤ e.nEstimators → 1 ≤ e'.nEstimators
  ovr : e.fitted = true → e'.ovr = e.ovr

theorem KeepsFitted.rfl' (e : Est L V K F P G) : KeepsFitted e e := ⟨rfl, rfl, rfl, id, fun _ => rfl⟩

theorem setIf_keeps {b : Bool} {f : Est L V K F P G → Est L V K F P G} {e : Est L V K F P G} (h : b = true → KeepsFitted e (f e)) :
    KeepsFitted e (Est.setIf b f e).2 := by
  unfold Est.setIf
  split
  · next hb => exact h hb
  · exact .rfl' e

theorem assign_keeps (x : Assign F K) (e : Est L V K F P G) : KeepsFitted e (Est.assign x e).2 := by
  cases x with
  | nEstimators n =>
    refine setIf_keeps fun h => ⟨rfl, rfl, rfl, fun _ => ?_, fun _ => rfl⟩
    simp at h
    have := h.2
    simp only
    omega
  | step v =>
    simp only [Est.assign]
    split
    · exact .rfl' e
    · split
      · split
        · exact ⟨rfl, rfl, rfl, id, fun _ => rfl⟩
        · next ts h => exact ⟨rfl, mapM_len h, rfl, id, fun _ => rfl⟩
      · exact ⟨rfl, rfl, rfl, id, fun _ => rfl⟩
  | aggregation b => exact setIf_keeps fun _ => ⟨rfl, rfl, rfl, id, fun _ => rfl⟩
  | maxDepth d =>
    cases d with
    | none => exact setIf_keeps fun _ => ⟨rfl, rfl, rfl, id, fun _ => rfl⟩
    | some d => exact setIf_keeps fun _ => ⟨rfl, rfl, rfl, id, fun _ => rfl⟩
  | minSplit n => exact setIf_keeps fun _ => ⟨rfl, rfl, rfl, id, fun _ => rfl⟩
  | minLeaf n => exact setIf_keeps fun _ => ⟨rfl, rfl, rfl, id, fun _ => rfl⟩
  | maxBins n => exact setIf_keeps fun _ => ⟨rfl, rfl, rfl, id, fun _ => rfl⟩
  | categoricalFeatures c => exact setIf_keeps fun _ => ⟨rfl, rfl, rfl, id, fun _ => rfl⟩
  | maxFeatures m =>
    simp only [Est.assign]
    split
    · exact .rfl' e
    · exact ⟨rfl, rfl, rfl, id, fun _ => rfl⟩
  | subsample k => exact setIf_keeps fun _ => ⟨rfl, rfl, rfl, id, fun _ => rfl⟩
  | catMin c => exact setIf_keeps fun _ => ⟨rfl, rfl, rfl, id, fun _ => rfl⟩
  | handleUnknown b => exact setIf_keeps fun _ => ⟨rfl, rfl, rfl, id, fun _ => rfl⟩
  | randomState v =>
    simp only [Est.assign]
    split
    · exact .rfl' e
    · next h =>
      unfold Est.setRandomState at h
      repeat' split at h
      all_goals first | (cases h; exact ⟨rfl, rfl, rfl, id, fun _ => rfl⟩) | cases h

theorem assignCls_keeps (lib : Lib V K F G W) (x : ClsAssign F K) (e : Est L V K F (List F) G) : KeepsFitted e (Est.assignCls lib x e).2 := by
  cases x with
  | base a => exact assign_keeps a e
  | criterion c => exact setIf_keeps fun _ => ⟨rfl, rfl, rfl, id, fun _ => rfl⟩
  | dirichlet v =>
    simp only [Est.assignCls]
    split
    · exact .rfl' e
    · split
      · split
        · exact ⟨rfl, rfl, rfl, id, fun _ => rfl⟩
        · next ts h => exact ⟨rfl, mapM_len h, rfl, id, fun _ => rfl⟩
      · exact ⟨rfl, rfl, rfl, id, fun _ => rfl⟩
  | classWeight b => exact setIf_keeps fun _ => ⟨rfl, rfl, rfl, id, fun _ => rfl⟩
  | multiclass b =>
    simp only [Est.assignCls]
    split
    · exact .rfl' e
    · next h => exact ⟨rfl, rfl, rfl, id, fun h' => absurd h' h⟩
  | catSplitStrategy s =>
    simp only [Est.assignCls]
    split
    · exact .rfl' e
    · exact ⟨rfl, rfl, rfl, id, fun _ => rfl⟩
  | classes => exact setIf_keeps fun _ => ⟨rfl, rfl, rfl, id, fun _ => rfl⟩
  | nClasses => exact setIf_keeps fun _ => ⟨rfl, rfl, rfl, id, fun _ => rfl⟩

theorem lighten_keeps (e : Est L V K F P G) : KeepsFitted e (Est.callLighten e).2 := by
  unfold Est.callLighten
  split
  · exact .rfl' e
  · exact ⟨rfl, by simp, rfl, id, fun _ => rfl⟩

theorem KeepsFitted.hasTrees {e e' : Est L V K F P G} (h : KeepsFitted e e') (he : HasTrees e) : HasTrees e' :=
  ⟨h.fitted.trans he.fitted, fun h0 => he.trees (by rw [← List.length_eq_zero_iff, ← h.trees, h0]; rfl), by rw [h.encoder]; exact he.encoder, h.estimators he.estimators⟩

/-! ## Histories -/

variable {A D : Type}

/-- An estimator that was never fitted has no trees. -/
theorem NeverFitted.inv {set : A → Py (Est L V K F P G) Unit} {fit : D → Py (World L V K F P G W) Unit} (hset : ∀ x e, KeepsFitted e (set x e).2)
    (hfit : ∀ d s s' err, fit d s = (.error err, s') → treesOf s' = treesOf s) {s : World L V K F P G W} (h : NeverFitted set fit s) :
    s.self.fitted = false ∧ s.self.trees = [] := by
  induction h with
  | new h => exact ⟨h.fitted, h.lists.2.2⟩
  | @assign s x h ih =>
    have k := hset x s.self
    exact ⟨k.fitted.trans ih.1, List.length_eq_zero_iff.1 (k.trees.trans (by rw [ih.2]; rfl))⟩
  | @lighten s h ih =>
    have k := lighten_keeps s.self
    exact ⟨k.fitted.trans ih.1, List.length_eq_zero_iff.1 (k.trees.trans (by rw [ih.2]; rfl))⟩
  | fitFails d e h he ih =>
    have k := hfit d _ _ e (Prod.ext he rfl)
    simp only [treesOf, Prod.mk.injEq] at k
    exact ⟨k.2.1.trans ih.1, k.1.trans ih.2⟩
  | elsewhere w np h ih => exact ih

/-- An estimator that was once fitted has trees. -/
theorem EverFitted.inv {kind : Est L V K F P G → Prop} {set : A → Py (Est L V K F P G) Unit} {fit : D → Py (World L V K F P G W) Unit} (hset : ∀ x e, KeepsFitted e (set x e).2)
    (hkset : ∀ e e', KeepsFitted e e' → e.fitted = true → kind e → kind e') (hkfit : ∀ d s, kind s.self → kind (fit d s).2.self)
    (hfit : ∀ d s s' err, fit d s = (.error err, s') → treesOf s' = treesOf s)
    (henc : ∀ d s s' r, fit d s = (r, s') → s.self.encoder ≠ none → s'.self.encoder ≠ none)
    (hok : ∀ d s s', 1 ≤ s.self.nEstimators → kind s.self → fit d s = (.ok (), s') → HasTrees s'.self) {s : World L V K F P G W} (h : EverFitted kind set fit s) :
    HasTrees s.self ∧ kind s.self := by
  induction h with
  | fitSucceeds d h1 h2 h3 => exact ⟨hok d _ _ h1 h2 (Prod.ext h3 rfl), hkfit d _ h2⟩
  | assign x h ih => exact ⟨(hset x _).hasTrees ih.1, hkset _ _ (hset x _) ih.1.fitted ih.2⟩
  | lighten h ih => exact ⟨(lighten_keeps _).hasTrees ih.1, hkset _ _ (lighten_keeps _) ih.1.fitted ih.2⟩
  | @fit s d h ih =>
    refine ⟨?_, hkfit d s ih.2⟩
    cases hr : (fit d s).1 with
    | ok u => exact hok d s _ ih.1.estimators ih.2 (Prod.ext hr rfl)
    | error err =>
      have k := hfit d s _ err (Prod.ext hr rfl)
      simp only [treesOf, Prod.mk.injEq] at k
      exact ⟨k.2.1.trans ih.1.fitted, by rw [k.1]; exact ih.1.trees, henc d s _ _ (Prod.ext hr rfl) ih.1.encoder, by rw [k.2.2]; exact ih.1.estimators⟩
  | elsewhere w np h ih => exact ih

theorem predictHelper_raises {lib : Lib V K F G W} {e : Est L V K F P G} (h : e.trees = []) (n : Nat) (X : Dataset N V) : Raises (e.predictHelper lib n X) := by
  unfold Est.predictHelper
  cases e.encode lib n X with
  | error x => exact ⟨x, rfl⟩
  | ok b => exact ⟨.typeError, by rw [bind_ok, h]; rfl⟩

theorem predictHelper_eq {lib : Lib V K F G W} {e : Est L V K F P G} (h : e.trees ≠ []) (n : Nat) (X : Dataset N V) : e.predictHelper lib n X = e.encode lib n X := by
  unfold Est.predictHelper
  cases e.encode lib n X with
  | error x => rfl
  | ok b => rw [bind_ok, if_neg (by simpa using h)]

theorem raises_bind {α β : Type} {m : M α} {f : α → M β} (h : Raises m) : Raises (m >>= f) := by
  obtain ⟨e, he⟩ := h
  exact ⟨e, by rw [he]; rfl⟩

theorem treeAt_first {e : Est L V K F P G} (h : e.trees ≠ []) : ∃ o, e.treeAt 0 = .ok o := by
  unfold Est.treeAt
  cases ht : e.trees with
  | nil => exact absurd ht h
  | cons o l => exact ⟨o, rfl⟩

theorem treeAt_last {e : Est L V K F P G} (h : e.trees ≠ []) : ∃ o, e.treeAt (-1) = .ok o := by
  have hl := List.length_pos_iff.2 h
  refine ⟨e.trees[e.trees.length - 1], ?_⟩
  unfold Est.treeAt
  rw [if_neg (by simpa using h), if_neg (by norm_num), if_pos (by omega)]
  unfold pyRd
  rw [show ((- -1 : Int)).toNat = 1 from rfl, List.getElem?_eq_getElem (by omega)]

theorem encode_bind {α : Type} {lib : Lib V K F G W} {e : Est L V K F P G} (n : Nat) (X : Dataset N V) (f : FBA → M α) :
    (do let _ ← e.encode lib n X
        (do let b ← e.encode lib n X
            f b : M α)) = (do let b ← e.encode lib n X
                              f b) := by
  cases e.encode lib n X <;> rfl

end

end Verif
