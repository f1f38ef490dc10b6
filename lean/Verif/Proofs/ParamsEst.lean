import Verif.Proofs.Params
import Verif.Proofs.RecodeEst
import Verif.Proofs.EstFit

/-! # Hyperparameters and `fit` (C68, C69) -/
namespace Verif
open Spec
set_option linter.unusedSectionVars false

section
variable {L V K F Y P G W N : Type} [LinearOrder L] [DecidableEq V] [DecidableEq N] [LinearOrder K] [Field K] [FloorSemiring K] [Num F]

/-- The hyperparameters that `fit` never changes. -/
def hyperOf (s : World L V K F P G W) :=
  ((s.self.nEstimators, s.self.criterion, s.self.step, s.self.dirichlet, s.self.aggregation, s.self.maxDepth, s.self.minSplit, s.self.minLeaf),
   (s.self.maxBins, s.self.maxFeatures, s.self.subsample, s.self.catMin, s.self.handleUnknownError, s.self.randomState, s.self.balanced, s.self.strategy))

theorem sameHyper_of {s s' : World L V K F P G W} (h : hyperOf s' = hyperOf s) : SameHyper s.self s'.self := by
  simp only [hyperOf, Prod.mk.injEq] at h
  obtain ⟨⟨a1, a2, a3, a4, a5, a6, a7, a8⟩, b1, b2, b3, b4, b5, b6, b7, b8⟩ := h
  exact ⟨a1, a2, a3, a4, a5, a6, a7, a8, b1, b2, b3, b4, b5, b6, b7, b8⟩

theorem fitChecks_keeps {α : Type} (f : World L V K F P G W → α) (a : FitArgs N V) (k : Nat)
    (h : ∀ s, f { s with self := withCategorical a.categorical s.self } = f s) : Py.Keeps f (fitChecks a k) := by
  unfold fitChecks
  refine Py.Keeps.bind (fun s => by rw [keepCategorical_eq]; exact h s) fun _ => (Py.Keeps.raiseIf _ _).bind fun _ => ?_
  cases a.weights with
  | none => exact Py.Keeps.pure _
  | some b => exact (Py.Keeps.read _).bind fun w => (Py.Keeps.raiseIf _ _).bind fun _ => Py.Keeps.pure _

theorem prepClassifier_hyper (lib : Lib V K F G W) (a : FitArgs N V) (y : List L) (sw : List F) :
    Py.Keeps (hyperOf (L := L)) (prepClassifier lib a y sw) := by
  unfold prepClassifier
  refine Py.Keeps.bind ?_ fun ys => (Py.Keeps.read _).bind fun e => (Py.Keeps.raiseIf _ _).bind fun _ => ?_
  · unfold encodeY
    refine (Py.Keeps.read _).bind fun o => (Py.Keeps.raiseIf _ _).bind fun _ => (Py.Keeps.raiseIf _ _).bind fun _ => ?_
    refine (Py.Keeps.modify (by intro; rfl)).bind fun _ => ?_
    split
    · split
      · refine Py.Keeps.bind ?_ fun _ => Py.Keeps.pure _
        unfold setMulticlass
        exact (Py.Keeps.read _).bind fun _ => (Py.Keeps.raiseIf _ _).bind fun _ => Py.Keeps.modify (by intro; rfl)
      · exact Py.Keeps.pure _
    · exact Py.Keeps.pure _
  · refine (Py.Keeps.modify (by intro; rfl)).bind fun _ => Py.Keeps.bind ?_ fun _ => Py.Keeps.pure _
    unfold writeBack
    split
    · exact Py.Keeps.modify (by intro; rfl)
    · exact Py.Keeps.pure _

/-- What is computed from hyperparameters only is the same before and after the second half of `fit`. -/
theorem fitRest_keeps {α : Type} (f : World L V K F P G W → α) (lib : Lib V K F G W) (a : FitArgs N V) (p : FitData F Y P G)
    (h1 : ∀ s m, f { s with self := { s.self with maxFeatures_ := m } } = f s)
    (h2 : ∀ s sd np, f { s with self := { s.self with seeds := sd }, np := np } = f s)
    (h3 : ∀ s ic, f { s with self := { s.self with isCategorical_ := ic } } = f s)
    (h4 : ∀ s en, f { s with self := { s.self with encoder := en } } = f s)
    (h5 : ∀ s ts n d, f { s with self := { s.self with trees := ts, fitted := true, nSamples := n, nFeatures := d } } = f s)
    (h6 : ∀ s np, f { s with np := np } = f s) :
    Py.Keeps f (fitRest lib a p) := by
  unfold fitRest
  refine (Py.Keeps.read _).bind fun e => (Py.Keeps.lift _).bind fun mf => (Py.Keeps.modify (fun s => h1 s _)).bind fun _ => ?_
  refine Py.Keeps.bind ?_ fun _ => (Py.Keeps.lift _).bind fun ic => ?_
  · intro s
    cases hr : s.self.randomState with
    | some v => rw [generateSeeds_eq lib ⟨v, hr⟩]; exact h2 _ _ _
    | none =>
      unfold generateSeeds
      rw [Py.bind_of_ok (Py.read_apply _ _), Py.bind_of_error (e := .attributeError) (s' := s) (by simp [Est.getRandomState, hr])]
  refine Py.Keeps.bind (fun s => by rw [encoderSubset_eq]; exact h6 _ _) fun sub => (Py.Keeps.lift _).bind fun enc =>
    (Py.Keeps.modify (fun s => h3 s _)).bind fun _ => ?_
  refine (Py.Keeps.lift _).bind fun fba => (Py.Keeps.modify (fun s => h4 s _)).bind fun _ => (Py.Keeps.read _).bind fun seeds => ?_
  exact Py.Keeps.bind (fun s => by rw [treeDepths_eq]; exact h6 _ _) fun d => (Py.Keeps.lift _).bind fun trees => Py.Keeps.modify (fun s => h5 s _ _ _)

theorem fitRest_hyper (lib : Lib V K F G W) (a : FitArgs N V) (p : FitData F Y P G) : Py.Keeps (hyperOf (L := L)) (fitRest lib a p) :=
  fitRest_keeps _ lib a p (fun _ _ => rfl) (fun _ _ _ => rfl) (fun _ _ => rfl) (fun _ _ => rfl) (fun _ _ _ _ => rfl) (fun _ _ => rfl)

theorem fitClassifier_hyper (lib : Lib V K F G W) (a : FitArgs N V) (y : List L) : Py.Keeps (hyperOf (L := L)) (fitClassifier lib a y) := by
  unfold fitClassifier
  exact (fitChecks_keeps _ a _ fun _ => rfl).bind fun sw => (prepClassifier_hyper lib a y sw).bind fun p => fitRest_hyper lib a p

theorem fitRegressor_hyper (lib : Lib V K F G W) (a : FitArgs N V) (y : List F) : Py.Keeps (hyperOf (L := L)) (fitRegressor lib a y) := by
  unfold fitRegressor
  exact (fitChecks_keeps _ a _ fun _ => rfl).bind fun sw => (show Py.Keeps _ (prepRegressor lib y sw) from Py.Keeps.pure _).bind fun p => fitRest_hyper lib a p

/-- The first line of `fit` decides `categorical_features`. -/
theorem fitChecks_categorical (a : FitArgs N V) (k : Nat) (s : World L V K F P G W) :
    (fitChecks a k s).2.self.categoricalFeatures = catAfter a.categorical s.self.categoricalFeatures := by
  have h : ∀ t : World L V K F P G W, Py.Keeps (fun s : World L V K F P G W => s.self.categoricalFeatures)
      (do Py.raiseIf (a.nRows != k) .valueError
          match a.weights with
          | none => Py.pure (List.replicate a.nRows Num.one)
          | some _ => do
            let w ← Py.read (World.weights (L := L) (V := V) (K := K) (F := F) (P := P) (G := G) (W := W))
            Py.raiseIf (w.length != a.nRows) .valueError
            Py.pure w) := by
    intro t
    refine (Py.Keeps.raiseIf _ _).bind fun _ => ?_
    cases a.weights with
    | none => exact Py.Keeps.pure _
    | some b => exact (Py.Keeps.read _).bind fun w => (Py.Keeps.raiseIf _ _).bind fun _ => Py.Keeps.pure _
  unfold fitChecks
  rw [Py.bind_of_ok (keepCategorical_eq _ _)]
  exact h s _

/-- Later lines leave `categorical_features` alone. -/
theorem bind_final {S α β γ : Type} (f : S → γ) {m : Py S α} {g : α → Py S β} (h : ∀ a, Py.Keeps f (g a)) (s : S) :
    f ((m >>= g) s).2 = f (m s).2 := by
  cases hm : m s with
  | mk r s1 =>
    cases r with
    | ok x => rw [Py.bind_of_ok hm, h x s1]
    | error e => rw [Py.bind_of_error hm]

theorem prepClassifier_categorical (lib : Lib V K F G W) (a : FitArgs N V) (y : List L) (sw : List F) :
    Py.Keeps (fun s : World L V K F (List F) G W => s.self.categoricalFeatures) (prepClassifier lib a y sw) := by
  unfold prepClassifier
  refine Py.Keeps.bind ?_ fun ys => (Py.Keeps.read _).bind fun e => (Py.Keeps.raiseIf _ _).bind fun _ => ?_
  · unfold encodeY
    refine (Py.Keeps.read _).bind fun o => (Py.Keeps.raiseIf _ _).bind fun _ => (Py.Keeps.raiseIf _ _).bind fun _ => ?_
    refine (Py.Keeps.modify (by intro; rfl)).bind fun _ => ?_
    split
    · split
      · refine Py.Keeps.bind ?_ fun _ => Py.Keeps.pure _
        unfold setMulticlass
        exact (Py.Keeps.read _).bind fun _ => (Py.Keeps.raiseIf _ _).bind fun _ => Py.Keeps.modify (by intro; rfl)
      · exact Py.Keeps.pure _
    · exact Py.Keeps.pure _
  · refine (Py.Keeps.modify (by intro; rfl)).bind fun _ => Py.Keeps.bind ?_ fun _ => Py.Keeps.pure _
    unfold writeBack
    split
    · exact Py.Keeps.modify (by intro; rfl)
    · exact Py.Keeps.pure _

theorem fitClassifier_categorical (lib : Lib V K F G W) (a : FitArgs N V) (y : List L) (s : World L V K F (List F) G W) :
    (fitClassifier lib a y s).2.self.categoricalFeatures = catAfter a.categorical s.self.categoricalFeatures := by
  unfold fitClassifier
  rw [bind_final (fun s : World L V K F (List F) G W => s.self.categoricalFeatures) (fun sw => (prepClassifier_categorical lib a y sw).bind fun p =>
    fitRest_keeps _ lib a p (fun _ _ => rfl) (fun _ _ _ => rfl) (fun _ _ => rfl) (fun _ _ => rfl) (fun _ _ _ _ => rfl) (fun _ _ => rfl)) s]
  exact fitChecks_categorical a _ s

theorem fitRegressor_categorical (lib : Lib V K F G W) (a : FitArgs N V) (y : List F) (s : World L V K F F G W) :
    (fitRegressor lib a y s).2.self.categoricalFeatures = catAfter a.categorical s.self.categoricalFeatures := by
  unfold fitRegressor
  rw [bind_final (fun s : World L V K F F G W => s.self.categoricalFeatures) (fun sw =>
    (show Py.Keeps _ (prepRegressor lib y sw) from Py.Keeps.pure _).bind fun p =>
    fitRest_keeps _ lib a p (fun _ _ => rfl) (fun _ _ _ => rfl) (fun _ _ => rfl) (fun _ _ => rfl) (fun _ _ _ _ => rfl) (fun _ _ => rfl)) s]
  exact fitChecks_categorical a _ s

/-- What happens to `multiclass`. -/
theorem encodeY_ovr (y : List L) (b : Bool) (s : World L V K F P G W) :
    (encodeY y b s).2.self.ovr = s.self.ovr ∨ (s.self.ovr = true ∧ s.self.fitted = false ∧ (sortedUnique y).length ≤ 2 ∧ (encodeY y b s).2.self.ovr = false) := by
  unfold encodeY
  rw [Py.bind_of_ok (Py.read_apply _ s)]
  cases b with
  | false => exact .inl rfl
  | true =>
    rw [Py.bind_of_ok (Py.raiseIf_false (b := !true) _ rfl)]
    cases hye : (s.self.ovr && y.isEmpty) with
    | true => exact .inl rfl
    | false =>
      rw [Py.bind_of_ok (Py.raiseIf_false (b := false) _ rfl), Py.bind_of_ok (Py.modify_apply _ _)]
      cases ho : s.self.ovr with
      | false => exact .inl ho
      | true =>
        simp only [if_true]
        by_cases hl : (sortedUnique y).length ≤ 2
        · rw [if_pos hl]
          unfold setMulticlass
          cases hf : s.self.fitted with
          | true =>
            refine .inl ?_
            simp [Bind.bind, Py.bind, Py.read, Py.raiseIf, Py.throw, ho]
          | false =>
            refine .inr ⟨trivial, rfl, hl, ?_⟩
            simp [Bind.bind, Py.bind, Py.read, Py.raiseIf, Py.modify, Py.pure]
        · rw [if_neg hl]
          exact .inl ho

theorem fitChecks_ovr (a : FitArgs N V) (k : Nat) :
    Py.Keeps (fun s : World L V K F P G W => (s.self.ovr, s.self.fitted)) (fitChecks a k) := fitChecks_keeps _ a k fun _ => rfl

theorem fitClassifier_ovr (lib : Lib V K F G W) (a : FitArgs N V) (y : List L) (s : World L V K F (List F) G W) :
    (fitClassifier lib a y s).2.self.ovr = s.self.ovr ∨
    (s.self.ovr = true ∧ s.self.fitted = false ∧ (sortedUnique y).length ≤ 2 ∧ (fitClassifier lib a y s).2.self.ovr = false) := by
  unfold fitClassifier
  have h0 := fitChecks_ovr (L := L) (K := K) (F := F) (P := List F) (G := G) (W := W) a y.length s
  cases hm : fitChecks a y.length s with
  | mk r s1 =>
    rw [hm] at h0
    obtain ⟨e1, e2⟩ := Prod.mk.inj h0
    simp only at e1 e2
    cases r with
    | error e => rw [Py.bind_of_error hm]; exact .inl e1
    | ok sw =>
      rw [Py.bind_of_ok hm]
      rw [bind_final (fun s : World L V K F (List F) G W => s.self.ovr) (fun p =>
        fitRest_keeps _ lib a p (fun _ _ => rfl) (fun _ _ _ => rfl) (fun _ _ => rfl) (fun _ _ => rfl) (fun _ _ _ _ => rfl) (fun _ _ => rfl)) s1]
      unfold prepClassifier
      rw [bind_final (fun s : World L V K F (List F) G W => s.self.ovr) (fun ys => (Py.Keeps.read _).bind fun e => (Py.Keeps.raiseIf _ _).bind fun _ =>
        (Py.Keeps.modify (by intro; rfl)).bind fun _ => Py.Keeps.bind (by
          unfold writeBack
          split
          · exact Py.Keeps.modify (by intro; rfl)
          · exact Py.Keeps.pure _) fun _ => Py.Keeps.pure _) s1]
      have := encodeY_ovr y a.targetsOK s1
      rwa [e1, e2] at this

theorem fitRegressor_ovr (lib : Lib V K F G W) (a : FitArgs N V) (y : List F) :
    Py.Keeps (fun s : World L V K F F G W => s.self.ovr) (fitRegressor lib a y) := by
  unfold fitRegressor
  exact (fitChecks_keeps _ a _ fun _ => rfl).bind fun sw => (show Py.Keeps _ (prepRegressor lib y sw) from Py.Keeps.pure _).bind fun p =>
    fitRest_keeps _ lib a p (fun _ _ => rfl) (fun _ _ _ => rfl) (fun _ _ => rfl) (fun _ _ => rfl) (fun _ _ _ _ => rfl) (fun _ _ => rfl)

/-- The settings of the encoder that are not allowed are refused by `fit`: it raises, and encoder and trees are the old ones. -/
theorem fitRest_refused {lib : Lib V K F G W} {a : FitArgs N V} {p : FitData F Y P G} {s : World L V K F P G W}
    (h : s.self.encoderAccepts = false) : ∃ e s', fitRest lib a p s = (.error e, s') ∧ s'.self.trees = s.self.trees ∧ s'.self.encoder = s.self.encoder ∧
      s'.self.fitted = s.self.fitted := by
  unfold fitRest
  rw [Py.bind_of_ok (Py.read_apply _ s)]
  cases hm : getMaxFeatures s.self.maxFeatures a.X.nFeatures with
  | error e => exact ⟨e, s, by rw [Py.bind_of_error (e := e) (s' := s) (by rw [Py.lift_apply])], rfl, rfl, rfl⟩
  | ok mf =>
    rw [Py.bind_of_ok (a := mf) (s' := s) (by rw [Py.lift_apply]), Py.bind_of_ok (Py.modify_apply _ _)]
    cases hr : s.self.randomState with
    | none =>
      refine ⟨.attributeError, { s with self := { s.self with maxFeatures_ := mf } }, ?_, rfl, rfl, rfl⟩
      rw [Py.bind_of_error (e := .attributeError) (s' := { s with self := { s.self with maxFeatures_ := mf } })]
      unfold generateSeeds
      rw [Py.bind_of_ok (Py.read_apply _ _), Py.bind_of_error (e := .attributeError) (s' := { s with self := { s.self with maxFeatures_ := mf } })
        (by simp [Est.getRandomState, hr])]
    | some v =>
      obtain ⟨s2, hs2, q1, q2, q3⟩ : ∃ s2, generateSeeds lib ({ s with self := { s.self with maxFeatures_ := mf } } : World L V K F P G W) = (.ok (), s2) ∧
          s2.self.trees = s.self.trees ∧ s2.self.encoder = s.self.encoder ∧ s2.self.fitted = s.self.fitted :=
        ⟨_, generateSeeds_eq lib ⟨v, hr⟩, rfl, rfl, rfl⟩
      rw [Py.bind_of_ok hs2]
      have hne : ∃ e, s.self.newEncoder a.categorical a.X.nFeatures = .error e := by
        cases hq : s.self.newEncoder a.categorical a.X.nFeatures with
        | error e => exact ⟨e, rfl⟩
        | ok ic => rw [(newEncoder_ok.1 hq).2] at h; cases h
      obtain ⟨e, he⟩ := hne
      exact ⟨e, s2, by rw [Py.bind_of_error (e := e) (s' := s2) (by rw [Py.lift_apply, he])], q1, q2, q3⟩

theorem prepClassifier_trees (lib : Lib V K F G W) (a : FitArgs N V) (y : List L) (sw : List F) :
    Py.Keeps (fun s : World L V K F (List F) G W => (s.self.trees, s.self.encoder, s.self.fitted)) (prepClassifier lib a y sw) := by
  unfold prepClassifier
  refine Py.Keeps.bind ?_ fun ys => (Py.Keeps.read _).bind fun e => (Py.Keeps.raiseIf _ _).bind fun _ => ?_
  · unfold encodeY
    refine (Py.Keeps.read _).bind fun o => (Py.Keeps.raiseIf _ _).bind fun _ => (Py.Keeps.raiseIf _ _).bind fun _ => ?_
    refine (Py.Keeps.modify (by intro; rfl)).bind fun _ => ?_
    split
    · split
      · refine Py.Keeps.bind ?_ fun _ => Py.Keeps.pure _
        unfold setMulticlass
        exact (Py.Keeps.read _).bind fun _ => (Py.Keeps.raiseIf _ _).bind fun _ => Py.Keeps.modify (by intro; rfl)
      · exact Py.Keeps.pure _
    · exact Py.Keeps.pure _
  · refine (Py.Keeps.modify (by intro; rfl)).bind fun _ => Py.Keeps.bind ?_ fun _ => Py.Keeps.pure _
    unfold writeBack
    split
    · exact Py.Keeps.modify (by intro; rfl)
    · exact Py.Keeps.pure _

/-- Settings that the encoder refuses. -/
theorem settings_refused {s t : World L V K F P G W} (h : s.self.maxBins < 3 ∨ (∃ k, s.self.subsample = some k ∧ k < 50000) ∨ ∃ k, s.self.catMin = .int k ∧ k ≤ 3)
    (ht : encSettings t = encSettings s) : t.self.encoderAccepts = false := by
  simp only [encSettings, Prod.mk.injEq] at ht
  cases hq : t.self.encoderAccepts with
  | false => rfl
  | true =>
    obtain ⟨h0, h1, h2⟩ := encoderAccepts_iff.1 hq
    rcases h with hlt | ⟨k, hk, hlt⟩ | ⟨k, hk, hlt⟩
    · rw [ht.1] at h0; omega
    · have := h1 k (ht.2.1.trans hk); omega
    · have := h2 k (ht.2.2.trans hk); omega

/-- The clone of an estimator with the hyperparameters of a new one is this new one. -/
theorem clone_fresh {e e' : Est L V K F P G} (hs : SameHyper e e') (hc : e'.categoricalFeatures = e.categoricalFeatures) (ho : e'.ovr = e.ovr) (hf : Fresh e)
    (hr : ∃ r, e.randomState = some r) : e'.clone = .ok e := by
  obtain ⟨r, hr⟩ := hr
  unfold Est.clone
  rw [hs.randomState, hr]
  obtain ⟨a1, a2, a3, a4, a5, a6, a7, a8, b1, b2, b3, b4, b5, b6, b7, b8⟩ := hs
  obtain ⟨f1, f2, ⟨c1, c2, c3, c4, c5, c6⟩, ⟨l1, l2, l3⟩, f5⟩ := hf
  cases e
  cases e'
  simp_all

end

section
variable {L V K F P G : Type} [LinearOrder K] [Field K] [FloorSemiring K]

theorem subsample?_allowed {v : PyVal K} (h : Allowed .classifier .subsample v) : ∃ r, v.subsample? = some r ∧ ∀ k, r = some k → 50000 ≤ k := by
  rcases h with rfl | ⟨i, hi, h5⟩ | ⟨x, rfl, h5⟩
  · exact ⟨_, rfl, fun k h => by cases h⟩
  · rcases hi with rfl | ⟨rfl, rfl⟩ | ⟨rfl, rfl⟩
    · exact ⟨_, rfl, fun k h => by injection h with h; omega⟩
    · omega
    · omega
  · exact ⟨_, rfl, fun k h => by injection h with h; rw [← h]; exact Nat.le_floor (by exact_mod_cast h5)⟩

theorem catMin?_allowed {v : PyVal K} (h : Allowed .classifier .catMinCategories v) : ∃ r, v.catMin? = some r ∧ ∀ k, r = .int k → 3 < k := by
  rcases h with rfl | rfl | ⟨i, hi, h5⟩
  · exact ⟨.log, rfl, fun k h => by cases h⟩
  · exact ⟨.sqrt, rfl, fun k h => by cases h⟩
  · rcases hi with rfl | ⟨rfl, rfl⟩ | ⟨rfl, rfl⟩
    · exact ⟨_, rfl, fun k h => by injection h with h; omega⟩
    · omega
    · omega

theorem isInt_toNat {v : PyVal K} {j : Int} (hj : IsInt v j) (h0 : 0 ≤ j) : IsInt v (j.toNat : Int) := by
  rwa [Int.toNat_of_nonneg h0]

/-- The estimator of the model holds the values of the object. -/
theorem toEst_values {k : ForestKind} {o : PObj K} {toF : Option K → F} {cats : PyVal K → CatFeatures} {e : Est L V K F P G} (hk : o.kind = k)
    [IsStrictOrderedRing K]
    (hal : ∀ p, HasParam k p → p ≠ .randomState → ∃ v, o.vals p = some v ∧ Allowed k p v)
    (hrs : ∃ v, o.vals .randomState = some v ∧ (v = .none ∨ ∃ i, IsInt v i ∧ 0 ≤ i)) (he : o.toEst toF cats = some e) : SameValues toF cats o e := by
  have hb : ∀ p, p ≠ .dirichlet → p ≠ .classWeight → p ≠ .multiclass → p ≠ .catSplitStrategy → HasParam k p := fun p h1 h2 h3 h4 => .inr ⟨h1, h2, h3, h4⟩
  obtain ⟨v1, e1, i1, hi1, g1⟩ := hal .nEstimators (hb _ (by simp) (by simp) (by simp) (by simp)) (by simp)
  obtain ⟨v2, e2, x2, rfl, g2⟩ := hal .step (hb _ (by simp) (by simp) (by simp) (by simp)) (by simp)
  obtain ⟨v3, e3, b3, rfl⟩ := hal .aggregation (hb _ (by simp) (by simp) (by simp) (by simp)) (by simp)
  obtain ⟨v4, e4, g4⟩ := hal .maxDepth (hb _ (by simp) (by simp) (by simp) (by simp)) (by simp)
  obtain ⟨v5, e5, i5, hi5, g5⟩ := hal .minSamplesSplit (hb _ (by simp) (by simp) (by simp) (by simp)) (by simp)
  obtain ⟨v6, e6, i6, hi6, g6⟩ := hal .minSamplesLeaf (hb _ (by simp) (by simp) (by simp) (by simp)) (by simp)
  obtain ⟨v7, e7, i7, hi7, g7⟩ := hal .maxBins (hb _ (by simp) (by simp) (by simp) (by simp)) (by simp)
  obtain ⟨v9, e9, g9⟩ := hal .maxFeatures (hb _ (by simp) (by simp) (by simp) (by simp)) (by simp)
  obtain ⟨v10, e10, g10⟩ := hal .subsample (hb _ (by simp) (by simp) (by simp) (by simp)) (by simp)
  obtain ⟨v11, e11, g11⟩ := hal .catMinCategories (hb _ (by simp) (by simp) (by simp) (by simp)) (by simp)
  obtain ⟨v12, e12, g12⟩ := hal .handleUnknown (hb _ (by simp) (by simp) (by simp) (by simp)) (by simp)
  obtain ⟨vr, er, gr⟩ := hrs
  have hdep : ∀ r, v4.maxDepth? = some r → (match r with | none => v4 = .none | some m => IsInt v4 m) := by
    intro r hr
    rcases g4 with rfl | ⟨i, hi, h2⟩
    · injection hr with hr; subst hr; rfl
    · rcases hi with rfl | ⟨rfl, rfl⟩ | ⟨rfl, rfl⟩
      · injection hr with hr; subst hr; exact .inl (by rw [Int.toNat_of_nonneg (by omega)])
      · omega
      · omega
  have hsub : ∀ r, v10.subsample? = some r → (match r with | none => v10 = .none | some k => IsInt v10 k ∨ ∃ x, v10 = .float (some x) ∧ (k : K) ≤ x ∧ x < k + 1) := by
    intro r hr
    rcases g10 with rfl | ⟨i, hi, h2⟩ | ⟨x, rfl, h2⟩
    · injection hr with hr; subst hr; rfl
    · rcases hi with rfl | ⟨rfl, rfl⟩ | ⟨rfl, rfl⟩
      · injection hr with hr; subst hr; exact .inl (.inl (by rw [Int.toNat_of_nonneg (by omega)]))
      · omega
      · omega
    · injection hr with hr; subst hr
      exact .inr ⟨x, rfl, Nat.floor_le ((by norm_num : (0 : K) ≤ 50000).trans h2), Nat.lt_floor_add_one x⟩
  have hcm : ∀ r, v11.catMin? = some r → (match r with | .log => v11 = .str "log" | .sqrt => v11 = .str "sqrt" | .int k => IsInt v11 k) := by
    intro r hr
    rcases g11 with rfl | rfl | ⟨i, hi, h2⟩
    · injection hr with hr; subst hr; rfl
    · injection hr with hr; subst hr; rfl
    · rcases hi with rfl | ⟨rfl, rfl⟩ | ⟨rfl, rfl⟩
      · injection hr with hr; subst hr; exact .inl (by rw [Int.toNat_of_nonneg (by omega)])
      · omega
      · omega
  have hmf : ∀ r, v9.maxFeatures? = some r →
      (match r with | .none => v9 = .none | .str s => v9 = .str s | .int i => IsInt v9 i | .float x => v9 = .float x | .other => False) := by
    intro r hr
    cases v9 with
    | none => injection hr with hr; subst hr; rfl
    | str s => injection hr with hr; subst hr; rfl
    | float x => injection hr with hr; subst hr; rfl
    | int i => injection hr with hr; subst hr; exact .inl rfl
    | bool b => injection hr with hr; subst hr; cases b <;> simp [IsInt]
    | rng i => cases hr
    | other i => cases hr
  have hrn : (Option.map (fun v => v.int?.map Int.toNat) (o.vals .randomState) = some none ∧ vr = .none) ∨
      ∃ m : Nat, Option.map (fun v => v.int?.map Int.toNat) (o.vals .randomState) = some (some m) ∧ IsInt vr m := by
    rw [er]
    rcases gr with rfl | ⟨i, hi, h0⟩
    · exact .inl ⟨rfl, rfl⟩
    · refine .inr ⟨i.toNat, ?_, by rwa [Int.toNat_of_nonneg h0]⟩
      simp [int?_iff.2 hi]
  have h12 : o.vals .handleUnknown = some (.str (if decide (v12 = .str "error") then "error" else "consider_missing")) := by
    rw [e12]
    rcases g12 with rfl | rfl <;> simp
  have h3 : o.vals .aggregation = some (.bool (decide ((.bool b3 : PyVal K) = .bool true))) := by
    rw [e3]; cases b3 <;> simp
  obtain ⟨j4, h4⟩ : ∃ r, v4.maxDepth? = some r := by
    rcases g4 with rfl | ⟨i, hi, -⟩
    · exact ⟨_, rfl⟩
    · rcases hi with rfl | ⟨rfl, rfl⟩ | ⟨rfl, rfl⟩ <;> exact ⟨_, rfl⟩
  obtain ⟨j9, h9⟩ : ∃ r, v9.maxFeatures? = some r := by
    rcases g9 with rfl | rfl | rfl | rfl | ⟨i, hi, -⟩ | ⟨x, rfl, -⟩
    · exact ⟨_, rfl⟩
    · exact ⟨_, rfl⟩
    · exact ⟨_, rfl⟩
    · exact ⟨_, rfl⟩
    · rcases hi with rfl | ⟨rfl, rfl⟩ | ⟨rfl, rfl⟩ <;> exact ⟨_, rfl⟩
    · exact ⟨_, rfl⟩
  obtain ⟨j10, h10, -⟩ := subsample?_allowed (by exact g10)
  obtain ⟨j11, h11, -⟩ := catMin?_allowed (by exact g11)
  obtain ⟨v8, e8, -⟩ := hal .categoricalFeatures (hb _ (by simp) (by simp) (by simp) (by simp)) (by simp)
  unfold PObj.toEst at he
  simp only [e1, e2, e3, e4, e5, e6, e7, e8, e9, e10, e11, e12, hk, Option.bind_eq_bind, Option.bind_some, int?_iff.2 hi1, int?_iff.2 hi5, int?_iff.2 hi6,
    int?_iff.2 hi7, h4, h9, h10, h11] at he
  have n1 := isInt_toNat hi1 (by omega)
  have n5 := isInt_toNat hi5 (by omega)
  have n6 := isInt_toNat hi6 (by omega)
  have n7 := isInt_toNat hi7 (by omega)
  cases k with
  | regressor =>
    simp only [Option.some.injEq] at he
    subst he
    exact ⟨⟨v1, e1, n1⟩, ⟨_, e2, rfl⟩, h3, ⟨v4, e4, hdep _ h4⟩, ⟨v5, e5, n5⟩, ⟨v6, e6, n6⟩, ⟨v7, e7, n7⟩, ⟨v8, e8, rfl⟩, ⟨v9, e9, hmf _ h9⟩,
      ⟨v10, e10, hsub _ h10⟩, ⟨v11, e11, hcm _ h11⟩, h12, ⟨vr, er, hrn⟩, fun h => by rw [hk] at h; cases h⟩
  | classifier =>
    obtain ⟨v13, e13, g13⟩ := hal .criterion (.inl rfl) (by simp)
    obtain ⟨v14, e14, x14, rfl, g14⟩ := hal .dirichlet (.inl rfl) (by simp)
    obtain ⟨v15, e15, g15⟩ := hal .classWeight (.inl rfl) (by simp)
    obtain ⟨v16, e16, g16⟩ := hal .multiclass (.inl rfl) (by simp)
    obtain ⟨v17, e17, g17⟩ := hal .catSplitStrategy (.inl rfl) (by simp)
    obtain ⟨st, h17⟩ : ∃ st, v17.strategy? = some st := by
      rcases g17 with rfl | rfl | rfl
      · exact ⟨.binary, rfl⟩
      · exact ⟨.all, rfl⟩
      · exact ⟨.random, rfl⟩
    simp only [e13, e14, e15, e16, e17, h17, Option.bind_some, Option.some.injEq] at he
    subst he
    refine ⟨⟨v1, e1, n1⟩, ⟨_, e2, rfl⟩, h3, ⟨v4, e4, hdep _ h4⟩, ⟨v5, e5, n5⟩, ⟨v6, e6, n6⟩, ⟨v7, e7, n7⟩, ⟨v8, e8, rfl⟩, ⟨v9, e9, hmf _ h9⟩,
      ⟨v10, e10, hsub _ h10⟩, ⟨v11, e11, hcm _ h11⟩, h12, ⟨vr, er, hrn⟩, fun _ => ⟨?_, ⟨_, e14, rfl⟩, ?_, ?_, ?_⟩⟩
    · rw [e13]
      rcases g13 with ⟨-, rfl | rfl⟩ | ⟨h, -⟩
      · simp
      · simp
      · cases h
    · rw [e15]
      rcases g15 with rfl | rfl <;> simp
    · rw [e16]
      rcases g16 with rfl | rfl <;> simp
    · rw [e17]
      rcases g17 with rfl | rfl | rfl <;> (injection h17 with h17; subst h17; rfl)

end

end Verif
