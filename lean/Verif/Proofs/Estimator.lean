import Verif.Proofs.EncoderFit
import Verif.Props.Sampling

/-! The stages of `fit` one by one, success of `fit`, what a fitted estimator contains. -/
set_option linter.unusedSectionVars false
namespace Verif

open Spec

namespace Py
variable {S α β : Type}

theorem bind_of_ok {m : Py S α} {f : α → Py S β} {s s' : S} {a : α} (h : m s = (.ok a, s')) : (m >>= f) s = f a s' := by
  change Py.bind m f s = _
  unfold Py.bind
  rw [h]

theorem bind_of_error {m : Py S α} {f : α → Py S β} {s s' : S} {e : Err} (h : m s = (.error e, s')) : (m >>= f) s = (.error e, s') := by
  change Py.bind m f s = _
  unfold Py.bind
  rw [h]

theorem bind_inv {m : Py S α} {f : α → Py S β} {s s' : S} {b : β} (h : (m >>= f) s = (.ok b, s')) :
    ∃ a s1, m s = (.ok a, s1) ∧ f a s1 = (.ok b, s') := by
  change Py.bind m f s = _ at h
  unfold Py.bind at h
  split at h
  · rename_i a s1 h1; exact ⟨a, s1, h1, h⟩
  · cases h

@[simp] theorem pure_apply (a : α) (s : S) : Py.pure a s = (.ok a, s) := rfl
@[simp] theorem throw_apply (e : Err) (s : S) : (Py.throw e : Py S α) s = (.error e, s) := rfl
@[simp] theorem read_apply (f : S → α) (s : S) : Py.read f s = (.ok (f s), s) := rfl
@[simp] theorem modify_apply (f : S → S) (s : S) : Py.modify f s = (.ok (), f s) := rfl
@[simp] theorem lift_apply (m : M α) (s : S) : Py.lift m s = (m, s) := rfl

theorem raiseIf_false {b : Bool} {e : Err} (s : S) (h : b = false) : Py.raiseIf b e s = (.ok (), s) := by subst h; rfl
theorem raiseIf_true {b : Bool} {e : Err} (s : S) (h : b = true) : Py.raiseIf b e s = (.error e, s) := by subst h; rfl

end Py

section
variable {L V K F Y P G W N : Type} [LinearOrder L] [DecidableEq V] [DecidableEq N] [LinearOrder K] [Field K] [FloorSemiring K] [Num F]

theorem nFeatures_eq (X : Dataset N V) : X.nFeatures = nCols X := by cases X <;> rfl

/-! ## Random stages -/

/-- The seeds of the trees and the new state of the global generator. -/
def seedsOf (lib : Lib V K F G W) (e : Est L V K F P G) (np : W) : List Nat × W :=
  let r := match e.randomState with
    | some (some n) => (lib.seeded n e.nEstimators, np)
    | _ => lib.seededGlobal np e.nEstimators
  (if e.ovr then r.1.flatMap fun x => List.replicate e.nClasses x else r.1, r.2)

theorem generateSeeds_eq (lib : Lib V K F G W) {s : World L V K F P G W} (h : ∃ r, s.self.randomState = some r) :
    generateSeeds lib s = (.ok (), { s with self := { s.self with seeds := (seedsOf lib s.self s.np).1 }, np := (seedsOf lib s.self s.np).2 }) := by
  obtain ⟨r, hr⟩ := h
  unfold generateSeeds
  rw [Py.bind_of_ok (Py.read_apply _ s), Py.bind_of_ok (a := r) (s' := s) (by simp [Est.getRandomState, hr])]
  cases r with
  | some n =>
    simp only
    rw [Py.bind_of_ok (Py.modify_apply _ _)]
    simp only [seedsOf, hr]
    cases h : s.self.ovr <;> simp
  | none =>
    simp only
    rw [Py.bind_of_ok (Py.modify_apply _ _)]
    simp only [seedsOf, hr]
    cases h : s.self.ovr <;> simp

theorem flatMap_replicate_length (l : List Nat) (k : Nat) : (l.flatMap fun x => List.replicate k x).length = l.length * k := by
  induction l with
  | nil => simp
  | cons a l ih => simp [List.flatMap_cons, ih, Nat.add_mul, Nat.add_comm]

theorem seedsOf_length {lib : Lib V K F G W} {n : Nat} (h : LibOK lib n) (e : Est L V K F P G) (np : W) :
    (seedsOf lib e np).1.length = if e.ovr then e.nEstimators * e.nClasses else e.nEstimators := by
  have h1 : (match e.randomState with
      | some (some n) => (lib.seeded n e.nEstimators, np)
      | _ => lib.seededGlobal np e.nEstimators).1.length = e.nEstimators := by
    split
    · exact h.seeded _ _
    · exact h.seededGlobal _ _
  simp only [seedsOf]
  split
  · rw [flatMap_replicate_length, h1]
  · exact h1

/-- The subset of rows and the new state of the global generator. -/
def subsetOf (lib : Lib V K F G W) (e : Est L V K F P G) (n : Nat) (np : W) : Option (List Nat) × W :=
  match e.subsample with
  | none => (none, np)
  | some k => if k < n then (some (lib.choice np n k).1, (lib.choice np n k).2) else (none, np)

theorem encoderSubset_eq (lib : Lib V K F G W) (n : Nat) (s : World L V K F P G W) :
    encoderSubset lib n s = (.ok (subsetOf lib s.self n s.np).1, { s with np := (subsetOf lib s.self n s.np).2 }) := by
  unfold encoderSubset
  rw [Py.bind_of_ok (Py.read_apply _ s)]
  unfold subsetOf
  cases s.self.subsample with
  | none => rfl
  | some k =>
    simp only
    split
    · rw [Py.bind_of_ok (Py.read_apply _ _), Py.bind_of_ok (Py.modify_apply _ _)]; rfl
    · rfl

theorem subsetOf_lt {lib : Lib V K F G W} {n : Nat} (h : LibOK lib n) (e : Est L V K F P G) (np : W) :
    ∀ l, (subsetOf lib e n np).1 = some l → ∀ i ∈ l, i < n := by
  intro l hl
  unfold subsetOf at hl
  split at hl
  · cases hl
  · split at hl
    · rename_i hk
      cases hl
      exact (h.choice np _ hk.le).2.2
    · cases hl

/-- The depths of `k` trees and the new state of the global generator. -/
def depthsOf (lib : Lib V K F G W) (randomized : Bool) (maxDepth : Nat) : Nat → W → List Nat × W
  | 0, np => ([], np)
  | k + 1, np =>
    let d := if randomized then lib.depth np else (maxDepth, np)
    let r := depthsOf lib randomized maxDepth k d.2
    (d.1 :: r.1, r.2)

theorem treeDepths_eq (lib : Lib V K F G W) (r : Bool) (d k : Nat) (s : World L V K F P G W) :
    treeDepths lib r d k s = (.ok (depthsOf lib r d k s.np).1, { s with np := (depthsOf lib r d k s.np).2 }) := by
  induction k generalizing s with
  | zero => rfl
  | succ k ih =>
    unfold treeDepths
    cases r with
    | false =>
      refine (Py.bind_of_ok (s := s) (a := d) (s' := s) ?_).trans ?_
      · rfl
      · rw [Py.bind_of_ok (ih _)]
        rfl
    | true =>
      refine (Py.bind_of_ok (s := s) (a := (lib.depth s.np).1) (s' := { s with np := (lib.depth s.np).2 }) ?_).trans ?_
      · rfl
      · rw [Py.bind_of_ok (ih _)]
        rfl

theorem depthsOf_length (lib : Lib V K F G W) (r : Bool) (d k : Nat) (np : W) : (depthsOf lib r d k np).1.length = k := by
  induction k generalizing np with
  | zero => rfl
  | succ k ih => simp [depthsOf, ih]

theorem depthsOf_fixed (lib : Lib V K F G W) (d k : Nat) (np : W) : depthsOf lib false d k np = (List.replicate k d, np) := by
  induction k with
  | zero => rfl
  | succ k ih => simp [depthsOf, ih, List.replicate_succ]

/-! ## The second half of `fit` -/

/-- All that the second half of `fit` computes. -/
structure Outcome (lib : Lib V K F G W) (a : FitArgs N V) (p : FitData F Y P G) (e : Est L V K F P G) (np : W) where
  mf : Nat
  ic : Option (List Bool)
  enc : List (FitCol V K)
  fba : FBA
  trees : List (TreeObj F P G)
  hmf : getMaxFeatures e.maxFeatures (nCols a.X) = .ok mf
  hrs : ∃ r, e.randomState = some r
  hic : getIsCategorical a.categorical (nCols a.X) = .ok ic
  hacc : e.encoderAccepts = true
  henc : encoderFit lib.conv (e.encCfg lib a.nRows ic) (subsetOf lib e a.nRows (seedsOf lib e np).2).1 a.X = .ok enc
  hfba : encoderTransform lib.conv (e.encCfg lib a.nRows ic) enc lib.words a.nRows a.X = .ok fba
  htrees : growTrees lib a.nRows p e mf (enc.map FitCol.isCat) fba (seedsOf lib e np).1
    (depthsOf lib a.randomizedDepth (e.maxDepth.getD (2 ^ 64 - 1)) (seedsOf lib e np).1.length
      (subsetOf lib e a.nRows (seedsOf lib e np).2).2).1 = .ok trees

theorem newEncoder_ok {e : Est L V K F P G} {cf : CatFeatures} {d : Nat} {ic : Option (List Bool)} :
    e.newEncoder cf d = .ok ic ↔ getIsCategorical cf d = .ok ic ∧ e.encoderAccepts = true := by
  unfold Est.newEncoder
  cases h : getIsCategorical cf d with
  | error x => simp [bind, Except.bind]
  | ok m =>
    cases h2 : e.encoderAccepts <;> simp [bind, Except.bind]

theorem encoderAccepts_iff {e : Est L V K F P G} :
    e.encoderAccepts = true ↔ 3 ≤ e.maxBins ∧ (∀ k, e.subsample = some k → 50000 ≤ k) ∧ ∀ k, e.catMin = .int k → 3 < k := by
  unfold Est.encoderAccepts
  cases e.subsample <;> cases e.catMin <;> simp [and_assoc]

/-- The estimator at the end of `fit`. -/
def Outcome.est {lib : Lib V K F G W} {a : FitArgs N V} {p : FitData F Y P G} {e : Est L V K F P G} {np : W} (o : Outcome lib a p e np) :
    Est L V K F P G :=
  { e with maxFeatures_ := o.mf, seeds := (seedsOf lib e np).1, isCategorical_ := o.enc.map FitCol.isCat,
           encoder := some (e.encCfg lib a.nRows o.ic, o.enc), trees := o.trees, fitted := true, nSamples := a.nRows, nFeatures := nCols a.X }

/-- The global generator at the end of `fit`. -/
def npAfter (lib : Lib V K F G W) (a : FitArgs N V) (e : Est L V K F P G) (np : W) : W :=
  (depthsOf lib a.randomizedDepth (e.maxDepth.getD (2 ^ 64 - 1)) (seedsOf lib e np).1.length
      (subsetOf lib e a.nRows (seedsOf lib e np).2).2).2

theorem fitRest_ok {lib : Lib V K F G W} {a : FitArgs N V} {p : FitData F Y P G} {s : World L V K F P G W} (o : Outcome lib a p s.self s.np) :
    fitRest lib a p s = (.ok (), { s with self := o.est, np := npAfter lib a s.self s.np }) := by
  obtain ⟨mf, ic, enc, fba, trees, hmf, hrs, hic, hacc, henc, hfba, htrees⟩ := o
  unfold fitRest
  rw [Py.bind_of_ok (Py.read_apply _ s)]
  simp only [nFeatures_eq]
  rw [Py.bind_of_ok (a := mf) (s' := s) (by rw [Py.lift_apply, hmf]), Py.bind_of_ok (Py.modify_apply _ _),
    Py.bind_of_ok (generateSeeds_eq lib (by exact hrs)), Py.bind_of_ok (a := ic) (by rw [Py.lift_apply, newEncoder_ok.2 ⟨hic, hacc⟩]),
    Py.bind_of_ok (encoderSubset_eq _ _ _)]
  rw [Py.bind_of_ok (a := enc) (by rw [Py.lift_apply]; exact congrArg (·, _) henc), Py.bind_of_ok (Py.modify_apply _ _),
    Py.bind_of_ok (a := fba) (by rw [Py.lift_apply, hfba]), Py.bind_of_ok (Py.modify_apply _ _), Py.bind_of_ok (Py.read_apply _ _),
    Py.bind_of_ok (treeDepths_eq _ _ _ _ _), Py.bind_of_ok (a := trees) (by rw [Py.lift_apply]; exact congrArg (·, _) htrees)]
  rfl

theorem fitRest_inv {lib : Lib V K F G W} {a : FitArgs N V} {p : FitData F Y P G} {s s' : World L V K F P G W}
    (h : fitRest lib a p s = (.ok (), s')) :
    ∃ o : Outcome lib a p s.self s.np, s' = { s with self := o.est, np := npAfter lib a s.self s.np } := by
  have h0 := h
  unfold fitRest at h
  rw [Py.bind_of_ok (Py.read_apply _ s)] at h
  simp only [nFeatures_eq] at h
  obtain ⟨mf, _, hmf, h⟩ := Py.bind_inv h
  rw [Py.lift_apply] at hmf
  obtain ⟨hmf1, rfl⟩ := Prod.mk.inj hmf
  rw [Py.bind_of_ok (Py.modify_apply _ _)] at h
  have hrs : ∃ r, s.self.randomState = some r := by
    obtain ⟨_, _, hg, _⟩ := Py.bind_inv h
    unfold generateSeeds at hg
    rw [Py.bind_of_ok (Py.read_apply _ _)] at hg
    obtain ⟨r, _, hr, _⟩ := Py.bind_inv hg
    rw [Py.lift_apply] at hr
    have hr := (Prod.mk.inj hr).1
    unfold Est.getRandomState at hr
    split at hr
    · exact ⟨_, by assumption⟩
    · cases hr
  rw [Py.bind_of_ok (generateSeeds_eq lib (by exact hrs))] at h
  obtain ⟨ic, _, hic, h⟩ := Py.bind_inv h
  rw [Py.lift_apply] at hic
  obtain ⟨hic1, rfl⟩ := Prod.mk.inj hic
  obtain ⟨hic1, hacc⟩ := newEncoder_ok.1 hic1
  rw [Py.bind_of_ok (encoderSubset_eq _ _ _)] at h
  obtain ⟨enc, _, henc, h⟩ := Py.bind_inv h
  rw [Py.lift_apply] at henc
  obtain ⟨henc1, rfl⟩ := Prod.mk.inj henc
  rw [Py.bind_of_ok (Py.modify_apply _ _)] at h
  obtain ⟨fba, _, hfba, h⟩ := Py.bind_inv h
  rw [Py.lift_apply] at hfba
  obtain ⟨hfba1, rfl⟩ := Prod.mk.inj hfba
  rw [Py.bind_of_ok (Py.modify_apply _ _), Py.bind_of_ok (Py.read_apply _ _), Py.bind_of_ok (treeDepths_eq _ _ _ _ _)] at h
  obtain ⟨trees, _, htrees, h⟩ := Py.bind_inv h
  rw [Py.lift_apply] at htrees
  obtain ⟨htrees1, rfl⟩ := Prod.mk.inj htrees
  let o : Outcome lib a p s.self s.np := ⟨mf, ic, enc, fba, trees, hmf1, hrs, hic1, hacc, henc1, hfba1, htrees1⟩
  refine ⟨o, ?_⟩
  rw [fitRest_ok o] at h0
  exact (Prod.mk.inj h0).2.symm

/-! ## The first half of `fit` -/

/-- The weights that `fit` starts with. -/
def weightsOf (a : FitArgs N V) (s : World L V K F P G W) : List F :=
  match a.weights with
  | none => List.replicate a.nRows Num.one
  | some _ => s.weights

/-- The attribute `categorical_features` after the first lines of `fit`. -/
def catAfter (cf old : CatFeatures) : CatFeatures :=
  match cf with
  | .none => old
  | cf => cf

/-- The estimator after the first lines of `fit`. -/
def withCategorical (cf : CatFeatures) (e : Est L V K F P G) : Est L V K F P G :=
  { e with categoricalFeatures := catAfter cf e.categoricalFeatures }

theorem keepCategorical_eq (cf : CatFeatures) (s : World L V K F P G W) :
    keepCategorical cf s = (.ok (), { s with self := withCategorical cf s.self }) := by
  cases cf <;> rfl

theorem fitChecks_ok {a : FitArgs N V} {k : Nat} {s : World L V K F P G W} (hk : k = a.nRows)
    (hw : a.weights ≠ none → s.weights.length = a.nRows) :
    fitChecks a k s = (.ok (weightsOf a s), { s with self := withCategorical a.categorical s.self }) := by
  unfold fitChecks
  rw [Py.bind_of_ok (keepCategorical_eq _ _)]
  rw [Py.bind_of_ok (Py.raiseIf_false _ (by simp [hk]))]
  unfold weightsOf
  cases h : a.weights with
  | none => rfl
  | some b =>
    simp only
    rw [Py.bind_of_ok (Py.read_apply _ _), Py.bind_of_ok (Py.raiseIf_false _ (by simp [hw (by rw [h]; simp)]))]
    rfl

theorem fitChecks_rows {a : FitArgs N V} {k : Nat} {s : World L V K F P G W} (hk : k ≠ a.nRows) :
    fitChecks a k s = (.error .valueError, { s with self := withCategorical a.categorical s.self }) := by
  unfold fitChecks
  rw [Py.bind_of_ok (keepCategorical_eq _ _)]
  rw [Py.bind_of_error (Py.raiseIf_true _ (by simp; exact fun h => hk h.symm))]

theorem fitChecks_weights {a : FitArgs N V} {k : Nat} {s : World L V K F P G W} (hk : k = a.nRows)
    (hw : a.weights ≠ none) (hw' : s.weights.length ≠ a.nRows) :
    fitChecks a k s = (.error .valueError, { s with self := withCategorical a.categorical s.self }) := by
  unfold fitChecks
  rw [Py.bind_of_ok (keepCategorical_eq _ _)]
  rw [Py.bind_of_ok (Py.raiseIf_false _ (by simp [hk]))]
  cases h : a.weights with
  | none => exact absurd h hw
  | some b =>
    simp only
    rw [Py.bind_of_ok (Py.read_apply _ _), Py.bind_of_error (Py.raiseIf_true _ (by simpa using hw'))]

/-- Whether one-versus-rest mode is kept for these labels. -/
def staysOvr (e : Est L V K F P G) (y : List L) : Bool := e.ovr && decide (2 < (sortedUnique y).length)

/-- The encoded labels. -/
def codesOf (e : Est L V K F P G) (y : List L) : List (List Nat) :=
  if staysOvr e y then (List.range (sortedUnique y).length).map (oneHot (sortedUnique y) y) else [labelCodes (sortedUnique y) y]

/-- The estimator after `_encode_y`. -/
def encodedEst (e : Est L V K F P G) (y : List L) : Est L V K F P G :=
  { e with classes := sortedUnique y, nClasses := (sortedUnique y).length, ovr := staysOvr e y }

theorem encodeY_ok {y : List L} {s : World L V K F P G W} (hy : y ≠ [])
    (hf : s.self.ovr = true → s.self.fitted = true → 2 < (sortedUnique y).length) :
    encodeY y true s = (.ok (codesOf s.self y), { s with self := encodedEst s.self y }) := by
  unfold encodeY
  rw [Py.bind_of_ok (Py.read_apply _ _), Py.bind_of_ok (Py.raiseIf_false (b := !true) _ rfl),
    Py.bind_of_ok (Py.raiseIf_false _ (by cases y with | nil => exact absurd rfl hy | cons _ _ => simp))]
  simp only
  rw [Py.bind_of_ok (Py.modify_apply _ _)]
  unfold codesOf encodedEst staysOvr
  cases ho : s.self.ovr with
  | false => simp
  | true =>
    simp only [if_true, Bool.true_and, decide_eq_true_eq]
    by_cases h2 : 2 < (sortedUnique y).length
    · rw [if_neg (by omega), if_pos h2]
      simp [h2]
    · rw [if_pos (by omega), if_neg h2]
      have hnf : s.self.fitted = false := by
        cases hfit : s.self.fitted with
        | false => rfl
        | true => exact absurd (hf ho hfit) h2
      have hm : ∀ t : World L V K F P G W, t.self.fitted = false →
          setMulticlass false t = (.ok (), { t with self := { t.self with ovr := false } }) := by
        intro t ht
        unfold setMulticlass
        rw [Py.bind_of_ok (Py.read_apply _ _), Py.bind_of_ok (Py.raiseIf_false _ ht)]
        rfl
      rw [Py.bind_of_ok (hm _ (by exact hnf))]
      simp [h2]

/-- C51 at the level of `_encode_y`: the switch to multinomial mode is refused after a fit. -/
theorem encodeY_refit {y : List L} {s : World L V K F P G W} (hy : y ≠ []) (ho : s.self.ovr = true) (hf : s.self.fitted = true)
    (h2 : (sortedUnique y).length ≤ 2) :
    encodeY y true s = (.error .attributeError,
      { s with self := { s.self with classes := sortedUnique y, nClasses := (sortedUnique y).length } }) := by
  unfold encodeY
  rw [Py.bind_of_ok (Py.read_apply _ _), Py.bind_of_ok (Py.raiseIf_false (b := !true) _ rfl),
    Py.bind_of_ok (Py.raiseIf_false _ (by cases y with | nil => exact absurd rfl hy | cons _ _ => simp))]
  simp only
  rw [Py.bind_of_ok (Py.modify_apply _ _), if_pos ho, if_pos h2]
  refine Py.bind_of_error ?_
  unfold setMulticlass
  rw [Py.bind_of_ok (Py.read_apply _ _), Py.bind_of_error (Py.raiseIf_true _ (by exact hf))]

end

section
variable {L V K F Y P G W N : Type} [LinearOrder L] [DecidableEq V] [DecidableEq N] [LinearOrder K] [Field K] [FloorSemiring K] [Num F]

/-- The estimator after the treatment of the labels. -/
def preparedEst (e : Est L V K F P G) (y : List L) : Est L V K F P G :=
  { encodedEst e y with nTrees := (if staysOvr e y then (sortedUnique y).length * e.nEstimators else e.nEstimators),
                        nClassesPerTree := (if staysOvr e y then 2 else (sortedUnique y).length) }

/-- The weights of the samples for the different classes (one-versus-rest), or for all. -/
def classWeights (e : Est L V K F P G) (y : List L) (sw : List F) : List (List F) :=
  if e.balanced then (codesOf e y).map fun y => List.zipWith Num.mul sw (balancedWeights y) else (codesOf e y).map fun _ => sw

/-- The result of the treatment of the labels. -/
def preparedOf (lib : Lib V K F G W) (e : Est L V K F (List F) G) (y : List L) (sw : List F) : FitData F (List F) (List F) G :=
  ⟨fun d => classifierTask lib.rng lib.argsort (if staysOvr e y then 2 else (sortedUnique y).length) d e.criterion e.strategy,
    staysOvr e y, (codesOf e y).map fun y => y.map Num.ofNat, classWeights e y sw⟩

/-- The array of the caller after `fit`. -/
def callerWeights (e : Est L V K F P G) (a : FitArgs N V) (y : List L) (w sw : List F) : List F :=
  if e.balanced && !staysOvr e y && a.weights == some true then (classWeights e y sw).headD [] else w

theorem prepClassifier_ok {lib : Lib V K F G W} {a : FitArgs N V} {y : List L} {sw : List F} {s : World L V K F (List F) G W}
    (ht : a.targetsOK = true) (hy : y ≠ []) (hf : s.self.ovr = true → s.self.fitted = true → 2 < (sortedUnique y).length)
    (hd : s.self.aggregation = true → ¬(Num.le s.self.dirichlet Num.zero = true ∧ Num.le Num.zero s.self.dirichlet = true)) :
    prepClassifier lib a y sw s = (.ok (preparedOf lib s.self y sw),
      { s with self := preparedEst s.self y, weights := callerWeights s.self a y s.weights sw }) := by
  unfold prepClassifier
  rw [ht, Py.bind_of_ok (encodeY_ok hy hf), Py.bind_of_ok (Py.read_apply _ _)]
  simp only
  rw [Py.bind_of_ok (Py.raiseIf_false _ (by
    change (s.self.aggregation && _) = false
    cases hag : s.self.aggregation with
    | false => rfl
    | true =>
      have := hd hag
      rw [Bool.true_and]
      change (Num.le s.self.dirichlet Num.zero && Num.le Num.zero s.self.dirichlet) = false
      cases h1 : Num.le s.self.dirichlet (Num.zero : F) <;> cases h2 : Num.le (Num.zero : F) s.self.dirichlet <;> simp_all)),
    Py.bind_of_ok (Py.modify_apply _ _)]
  have h1 : ∀ (t : World L V K F (List F) G W) (b : Bool) (w : List F), writeBack b w t =
      (.ok (), { t with weights := if b then w else t.weights }) := by
    intro t b w
    cases b <;> rfl
  rw [Py.bind_of_ok (h1 _ _ _)]
  rfl

end

end Verif
