import Verif.Spec.Save
import Verif.Props.Pickle
import Verif.Proofs.Life
import Verif.Proofs.RecodeEst
import Verif.Proofs.OutOfBagEst

/-! Saving and loading forests. -/
set_option linter.unusedSectionVars false
namespace Verif

open Spec

section
variable {F P G : Type} [Num F]

theorem SameAttrs.objOK {fba : FBA} {train valid : List Nat} {o o' : TreeObj F P G} (h : SameAttrs o o') (ho : ObjOK fba train valid o) :
    ObjOK fba train valid o' :=
  ⟨h.arr ▸ ho.arr, h.arr ▸ ho.pos, h.ctx ▸ ho.ctx, h.partTrain ▸ ho.train, h.partValid ▸ ho.valid, h.leftBuf ▸ ho.left, h.rightBuf ▸ ho.right⟩

theorem SameAttrs.trans {o o' o'' : TreeObj F P G} (h : SameAttrs o o') (h' : SameAttrs o' o'') : SameAttrs o o'' :=
  ⟨h.1.trans h'.1, h.2.trans h'.2, h.3.trans h'.3, h.4.trans h'.4, h.5.trans h'.5, h.6.trans h'.6, h.7.trans h'.7, h.8.trans h'.8, h.9.trans h'.9⟩

theorem SameAttrs.rfl {o : TreeObj F P G} : SameAttrs o o := ⟨.refl _, .refl _, .refl _, .refl _, .refl _, .refl _, .refl _, .refl _, .refl _⟩

theorem treeOf_dict {o : TreeObj F P G} {c : Ctx F} (hc : o.ctx = some c) (x : TreeExtra F P) (nFeatures : Nat) (w : Work G) {d0 : F}
    (hd : x.isCls = false → o.dirichlet = d0) : ∃ o', treeOf w d0 (o.dict x nFeatures) = .ok o' ∧ SameAttrs o o' := by
  refine ⟨{ o with work := { w with partTrain := o.work.partTrain, partValid := o.work.partValid, leftBuf := o.work.leftBuf, rightBuf := o.work.rightBuf } },
    ?_, ⟨rfl, rfl, rfl, rfl, rfl, rfl, rfl, rfl, rfl⟩⟩
  unfold treeOf TreeObj.dict
  rw [hc]
  cases hb : x.isCls
  · simp [TreeDict.attr, List.lookup, TreeObj.jit, TreeObj.ctxJit, hd hb]
  · simp [TreeDict.attr, List.lookup, TreeObj.jit, TreeObj.ctxJit]

theorem SameResult.mapM₂ {α β γ δ : Type} {S : α → β → Prop} {S' : γ → δ → Prop} {f : α → M γ} {g : β → M δ} {l : List α} {l' : List β}
    (h : List.Forall₂ S l l') (hfg : ∀ a b, S a b → SameResult S' (f a) (g b)) : SameResult (List.Forall₂ S') (l.mapM f) (l'.mapM g) := by
  induction h with
  | nil => exact SameResult.pure .nil
  | cons hab _ ih =>
    rw [List.mapM_cons, List.mapM_cons]
    refine (hfg _ _ hab).bind fun u v huv => ?_
    exact ih.bind fun us vs hus => SameResult.pure (.cons huv hus)

theorem foldlM_alike {α β γ : Type} {R : α → β → Prop} {f : γ → α → M γ} {g : γ → β → M γ} {l : List α} {l' : List β} (h : List.Forall₂ R l l')
    (hfg : ∀ out a b, R a b → f out a = g out b) (out : γ) : l.foldlM f out = l'.foldlM g out := by
  induction h generalizing out with
  | nil => rfl
  | cons hab _ ih => simp only [List.foldlM_cons, hfg _ _ _ hab, ih]

end

section
variable {L V K F P G : Type} [LinearOrder K] [Field K] [FloorSemiring K] [Num F]

/-- The trees of a forest that was fitted on `fba`. -/
def TreesOK (fba : FBA) (x : Nat → TreeExtra F P) (isCls : Bool) (e : Est L V K F P G) : Prop :=
  ∀ i o, e.trees[i]? = some o → (x i).isCls = isCls ∧ ObjOK fba (x i).train (x i).valid o ∧ (isCls = false → o.dirichlet = e.dirichlet)

/-- Two forests that differ only in what their trees do not save. -/
structure Alike (fba : FBA) (x : Nat → TreeExtra F P) (isCls : Bool) (e e' : Est L V K F P G) : Prop where
  ok : TreesOK fba x isCls e
  rest : e' = { e with trees := e'.trees }
  trees : List.Forall₂ SameAttrs e.trees e'.trees

theorem Alike.ok' {fba : FBA} {x : Nat → TreeExtra F P} {isCls : Bool} {e e' : Est L V K F P G} (h : Alike fba x isCls e e') : TreesOK fba x isCls e' := by
  intro i o ho
  obtain ⟨hi, rfl⟩ := List.getElem?_eq_some_iff.1 ho
  have hi' : i < e.trees.length := by rw [h.trees.length_eq]; exact hi
  have hs : SameAttrs e.trees[i] e'.trees[i] := h.trees.get hi' hi
  obtain ⟨a1, a2, a3⟩ := h.ok i _ (List.getElem?_eq_getElem hi')
  refine ⟨a1, SameAttrs.objOK hs a2, fun hc => ?_⟩
  rw [← hs.dirichlet, a3 hc, h.rest]

/-- Saving and loading. -/
theorem TreesOK.load {fba : FBA} (hf : FBALayout fba) {x : Nat → TreeExtra F P} {isCls : Bool} {e : Est L V K F P G} (h : TreesOK fba x isCls e) (nF : Nat) (zeroP : P)
    (g : Nat → PickleGarbage) (w : Nat → Work G) : ∃ e', (e.save x nF).load zeroP g w = .ok e' ∧ Alike fba x isCls e e' := by
  have key : ∀ (l : List (TreeObj F P G)) (k : Nat), (∀ i o, l[i]? = some o → (x (k + i)).isCls = isCls ∧ ObjOK fba (x (k + i)).train (x (k + i)).valid o ∧
        (isCls = false → o.dirichlet = e.dirichlet)) →
      ∃ ts, (((l.zipIdx k).map fun p => getstate (p.1.dict (x p.2) nF)).zipIdx k).mapM (fun p => do
        let d ← setstate zeroP (g p.2) p.1
        treeOf (w p.2) e.dirichlet d : _ → M (TreeObj F P G)) = .ok ts ∧ List.Forall₂ SameAttrs l ts := by
    intro l
    induction l with
    | nil => exact fun k _ => ⟨[], rfl, .nil⟩
    | cons o l ih =>
      intro k hl
      obtain ⟨a1, a2, a3⟩ := hl 0 o rfl
      obtain ⟨c, hc, -⟩ := a2.ctx
      obtain ⟨o', b1, b2⟩ := treeOf_dict hc (x k) nF (w k) (d0 := e.dirichlet) (fun hx => a3 (a1.symm.trans hx))
      obtain ⟨ts, c1, c2⟩ := ih (k + 1) fun i u hu => by
        have := hl (i + 1) u hu
        rwa [show k + (i + 1) = k + 1 + i by omega] at this
      refine ⟨o' :: ts, ?_, .cons b2 c2⟩
      simp only [List.zipIdx_cons, List.map_cons, List.mapM_cons]
      have hr := a2.round_trip hf (x := x k) ⟨rfl, rfl⟩ nF zeroP (g k)
      rw [hr, bind_ok, b1, bind_ok, c1]
      rfl
  obtain ⟨ts, h1, h2⟩ := key e.trees 0 (fun i o ho => by simpa using h i o ho)
  refine ⟨{ e with trees := ts }, ?_, h, rfl, h2⟩
  unfold SavedForest.load Est.save
  rw [h1]
  rfl

/-- A function that acts on all trees. -/
theorem mapM_treesOK {fba : FBA} {x : Nat → TreeExtra F P} {isCls : Bool} {e e1 : Est L V K F P G} (h : TreesOK fba x isCls e) {f : TreeObj F P G → M (TreeObj F P G)}
    (hf : ∀ {train valid o}, ObjOK fba train valid o → Post (ObjOK fba train valid) (f o)) (hd : isCls = false → e1.dirichlet = e.dirichlet ∧ ∀ o, Post (fun o' => o'.dirichlet = o.dirichlet) (f o))
    (ht : e.trees.mapM f = .ok e1.trees) : TreesOK fba x isCls e1 := by
  intro i o ho
  have h2 := mapM_eq_ok.1 ht
  obtain ⟨hi, rfl⟩ := List.getElem?_eq_some_iff.1 ho
  have hi' : i < e.trees.length := by rw [h2.length_eq]; exact hi
  have hs : f e.trees[i] = .ok e1.trees[i] := h2.get hi' hi
  obtain ⟨a1, a2, a3⟩ := h i _ (List.getElem?_eq_getElem hi')
  exact ⟨a1, hf a2 _ hs, fun hc => ((hd hc).2 _ _ hs).trans ((a3 hc).trans (hd hc).1.symm)⟩

theorem setStep_dirichlet (v : F) (o : TreeObj F P G) : Post (fun o' => o'.dirichlet = o.dirichlet) (o.setStep v) := by
  unfold TreeObj.setStep
  split
  · split
    · exact Post.error
    · split
      · exact (Post.self _).bind fun _ _ => Post.pure rfl
      · exact Post.ok rfl
  · exact Post.ok rfl

/-- The trees stay as they are. -/
theorem Alike.other {fba : FBA} {x : Nat → TreeExtra F P} {isCls : Bool} {e e' : Est L V K F P G} (h : Alike fba x isCls e e') (g : Est L V K F P G → Est L V K F P G)
    (hg : ∀ (u : Est L V K F P G) ts, g { u with trees := ts } = { g u with trees := ts }) (hd : isCls = false → (g e).dirichlet = e.dirichlet)
    (ht : (g e).trees = e.trees) : Alike fba x isCls (g e) (g e') := by
  have hr : g e' = { g e with trees := e'.trees } := by rw [← hg, ← h.rest]
  refine ⟨fun i o ho => ?_, ?_, ?_⟩
  · rw [ht] at ho
    obtain ⟨a1, a2, a3⟩ := h.ok i o ho
    exact ⟨a1, a2, fun hc => (a3 hc).trans (hd hc).symm⟩
  · rw [hr]
  · rw [hr, ht]
    exact h.trees

/-- What two forests that are alike do with an assignment. -/
def SameStep (fba : FBA) (x : Nat → TreeExtra F P) (isCls : Bool) (r r' : M Unit × Est L V K F P G) : Prop :=
  r.1 = r'.1 ∧ Alike fba x isCls r.2 r'.2

theorem Alike.setIf {fba : FBA} {x : Nat → TreeExtra F P} {isCls : Bool} {e e' : Est L V K F P G} (h : Alike fba x isCls e e') {ok ok' : Bool} (hok : ok = ok')
    (g : Est L V K F P G → Est L V K F P G) (hg : ∀ (u : Est L V K F P G) ts, g { u with trees := ts } = { g u with trees := ts })
    (hd : isCls = false → (g e).dirichlet = e.dirichlet) (ht : (g e).trees = e.trees) : SameStep fba x isCls (Est.setIf ok g e) (Est.setIf ok' g e') := by
  subst hok
  unfold Est.setIf
  cases ok
  · exact ⟨rfl, h⟩
  · exact ⟨rfl, h.other g hg hd ht⟩

theorem SameStep.ite {fba : FBA} {x : Nat → TreeExtra F P} {isCls : Bool} {c c' : Prop} [Decidable c] [Decidable c'] {a b a' b' : M Unit × Est L V K F P G} (hc : c = c')
    (ha : SameStep fba x isCls a a') (hb : SameStep fba x isCls b b') : SameStep fba x isCls (if c then a else b) (if c' then a' else b') := by
  subst hc
  by_cases h : c
  · rw [if_pos h, if_pos h]; exact ha
  · rw [if_neg h, if_neg h]; exact hb

theorem forall₂_sameAttrs_trans {a b c : List (TreeObj F P G)} (h : List.Forall₂ SameAttrs a b) (h' : List.Forall₂ SameAttrs b c) : List.Forall₂ SameAttrs a c := by
  induction h generalizing c with
  | nil => exact h'
  | cons hx _ ih =>
    cases h' with
    | cons hy h' => exact .cons (SameAttrs.trans hx hy) (ih h')

/-- A change of all trees. -/
theorem Alike.all {fba : FBA} {x : Nat → TreeExtra F P} {isCls : Bool} {e e' : Est L V K F P G} (h : Alike fba x isCls e e') {f f' : TreeObj F P G → M (TreeObj F P G)} (hff : f' = f)
    (hf : ∀ {train valid o}, ObjOK fba train valid o → Post (ObjOK fba train valid) (f o)) (hs : ∀ o o', SameAttrs o o' → SameResult SameAttrs (f o) (f o'))
    (g : Est L V K F P G → Est L V K F P G) (hg : ∀ (u : Est L V K F P G) ts, g { u with trees := ts } = { g u with trees := ts })
    (ht : (g e).trees = e.trees) (hd : isCls = false → (g e).dirichlet = e.dirichlet ∧ ∀ o, Post (fun o' => o'.dirichlet = o.dirichlet) (f o)) :
    SameStep fba x isCls
      (match e.trees.mapM f with | .error x => (.error x, g e) | .ok ts => (.ok (), { g e with trees := ts }))
      (match e'.trees.mapM f' with | .error x => (.error x, g e') | .ok ts => (.ok (), { g e' with trees := ts })) := by
  subst hff
  have hm := SameResult.mapM₂ h.trees hs
  have ho := h.other g hg (fun hc => (hd hc).1) ht
  cases h1 : e.trees.mapM f' with
  | error u =>
    cases h2 : e'.trees.mapM f' with
    | error u' =>
      rw [h1, h2] at hm
      cases hm
      exact ⟨rfl, ho⟩
    | ok ts => rw [h1, h2] at hm; exact hm.elim
  | ok ts =>
    cases h2 : e'.trees.mapM f' with
    | error u' => rw [h1, h2] at hm; exact hm.elim
    | ok ts' =>
      rw [h1, h2] at hm
      refine ⟨rfl, mapM_treesOK h.ok hf (fun hc => ⟨(hd hc).1, (hd hc).2⟩) h1, ?_, hm⟩
      have := ho.rest
      dsimp only
      rw [this]

theorem Alike.assign {fba : FBA} {x : Nat → TreeExtra F P} {isCls : Bool} {e e' : Est L V K F P G} (h : Alike fba x isCls e e') (a : Assign F K) :
    SameStep fba x isCls (Est.assign a e) (Est.assign a e') := by
  have hfit : e'.fitted = e.fitted := by rw [h.rest]
  have hif := fun {ok ok'} hok (g : Est L V K F P G → Est L V K F P G) => h.setIf (ok := ok) (ok' := ok') hok g
  cases a with
  | nEstimators n =>
    exact hif (by rw [hfit]) _ (fun _ _ => rfl) (fun _ => rfl) rfl
  | step v =>
    refine SameStep.ite rfl ⟨rfl, h⟩ (SameStep.ite (by rw [hfit]) ?_ ?_)
    · exact h.all (f := TreeObj.setStep v) rfl (fun ho => setStep_post ho v) (fun o o' hs => (C41_same_behaviour (Y := F) hs).2.2.1 v) (fun e => { e with step := v }) (fun _ _ => rfl) rfl
        (fun _ => ⟨rfl, setStep_dirichlet v⟩)
    · exact ⟨rfl, h.other (fun e => { e with step := v }) (fun _ _ => rfl) (fun _ => rfl) rfl⟩
  | aggregation b => exact hif rfl _ (fun _ _ => rfl) (fun _ => rfl) rfl
  | maxDepth d =>
    cases d with
    | none => exact hif rfl _ (fun _ _ => rfl) (fun _ => rfl) rfl
    | some d => exact hif rfl _ (fun _ _ => rfl) (fun _ => rfl) rfl
  | minSplit n => exact hif rfl _ (fun _ _ => rfl) (fun _ => rfl) rfl
  | minLeaf n => exact hif rfl _ (fun _ _ => rfl) (fun _ => rfl) rfl
  | maxBins n => exact hif rfl _ (fun _ _ => rfl) (fun _ => rfl) rfl
  | categoricalFeatures c => exact hif rfl _ (fun _ _ => rfl) (fun _ => rfl) rfl
  | maxFeatures m =>
    unfold Est.assign
    dsimp only
    cases setMaxFeatures m with
    | error u => exact ⟨rfl, h⟩
    | ok m => exact ⟨rfl, h.other (fun e => { e with maxFeatures := m }) (fun _ _ => rfl) (fun _ => rfl) rfl⟩
  | subsample k => exact hif rfl _ (fun _ _ => rfl) (fun _ => rfl) rfl
  | catMin c => exact hif rfl _ (fun _ _ => rfl) (fun _ => rfl) rfl
  | handleUnknown b => exact hif rfl _ (fun _ _ => rfl) (fun _ => rfl) rfl
  | randomState v =>
    by_cases hb : e.fitted = true
    · have hb' := hfit.trans hb
      unfold Est.assign Est.setRandomState
      dsimp only
      rw [if_pos hb, if_pos hb']
      exact ⟨rfl, h⟩
    · have hb' := hfit.symm ▸ hb
      unfold Est.assign Est.setRandomState
      dsimp only
      rw [if_neg hb, if_neg hb']
      cases v with
      | none => exact ⟨rfl, h.other (fun e => { e with randomState := some none }) (fun _ _ => rfl) (fun _ => rfl) rfl⟩
      | int n =>
        by_cases hn : 0 ≤ n
        · simp only [if_pos hn]
          exact ⟨rfl, h.other (fun e => { e with randomState := some (some n.toNat) }) (fun _ _ => rfl) (fun _ => rfl) rfl⟩
        · simp only [if_neg hn]
          exact ⟨rfl, h⟩
      | other => exact ⟨rfl, h⟩

theorem Alike.assignCls {V W : Type} {lib : Lib V K F G W} {fba : FBA} {x : Nat → TreeExtra F (List F)} {e e' : Est L V K F (List F) G} (h : Alike fba x true e e') (a : ClsAssign F K) :
    SameStep fba x true (Est.assignCls lib a e) (Est.assignCls lib a e') := by
  have hfit : e'.fitted = e.fitted := by rw [h.rest]
  have hif := fun {ok ok'} hok (g : Est L V K F (List F) G → Est L V K F (List F) G) => h.setIf (ok := ok) (ok' := ok') hok g
  cases a with
  | base a => exact h.assign a
  | criterion c => exact hif rfl _ (fun _ _ => rfl) (fun h => by cases h) rfl
  | dirichlet v =>
    have hdir : e'.dirichlet = e.dirichlet := by rw [h.rest]
    have hk : e'.nClassesPerTree = e.nClassesPerTree := by rw [h.rest]
    have hc : e'.criterion = e.criterion := by rw [h.rest]
    have hs : e'.strategy = e.strategy := by rw [h.rest]
    refine SameStep.ite rfl ⟨rfl, h⟩ (SameStep.ite (by rw [hfit, hdir]) ?_ ?_)
    · have hT : TreeObj.setDirichlet (fun d => classifierTask lib.rng lib.argsort e'.nClassesPerTree d e'.criterion e'.strategy) v =
          TreeObj.setDirichlet (fun d => classifierTask lib.rng lib.argsort e.nClassesPerTree d e.criterion e.strategy) v := by rw [hk, hc, hs]
      have key := h.all hT (fun ho => setDirichlet_post _ ho v) (fun o o' hs => (C41_same_behaviour hs).2.2.2 _ v) (fun e => { e with dirichlet := v }) (fun _ _ => rfl) rfl
        (fun h => by cases h)
      convert key using 1 <;> (split <;> rename_i heq <;> rw [heq])
    · exact ⟨rfl, h.other (fun e => { e with dirichlet := v }) (fun _ _ => rfl) (fun h => by cases h) rfl⟩
  | classWeight b => exact hif rfl _ (fun _ _ => rfl) (fun h => by cases h) rfl
  | multiclass b =>
    refine SameStep.ite (by rw [hfit]) ⟨rfl, h⟩ ?_
    exact ⟨rfl, h.other (fun e => { e with ovr := b }) (fun _ _ => rfl) (fun h => by cases h) rfl⟩
  | catSplitStrategy st =>
    refine SameStep.ite (by rw [hfit]) ⟨rfl, h⟩ ?_
    exact ⟨rfl, h.other (fun e => { e with strategy := st }) (fun _ _ => rfl) (fun h => by cases h) rfl⟩
  | classes => exact hif rfl _ (fun _ _ => rfl) (fun h => by cases h) rfl
  | nClasses => exact hif rfl _ (fun _ _ => rfl) (fun h => by cases h) rfl

/-- A life with files and one without. -/
theorem Alike.life {A : Type} {fba : FBA} (hf : FBALayout fba) {x : Nat → TreeExtra F P} {isCls : Bool} {assign : A → Py (Est L V K F P G) Unit}
    (hA : ∀ {e e'} a, Alike fba x isCls e e' → SameStep fba x isCls (assign a e) (assign a e')) (nF : Nat) (events : List (Event A F P G)) {e e' : Est L V K F P G}
    (h : Alike fba x isCls e e') : ∃ e1, lifeOf assign x nF events e' = .ok (replies assign (events.filterMap Event.assigned?) e, e1) ∧
      Alike fba x isCls (attempts assign (events.filterMap Event.assigned?) e) e1 := by
  induction events generalizing e e' with
  | nil => exact ⟨e', rfl, h⟩
  | cons ev l ih =>
    cases ev with
    | assign a =>
      obtain ⟨q1, q2⟩ := hA a h
      obtain ⟨e1, r1, r2⟩ := ih q2
      refine ⟨e1, ?_, r2⟩
      simp only [lifeOf, r1, bind_ok, List.filterMap_cons, Event.assigned?, replies, q1]
      rfl
    | saveLoad z g w =>
      obtain ⟨e2, q1, q2⟩ := h.ok'.load hf nF z g w
      have h2 : Alike fba x isCls e e2 := by
        refine ⟨h.ok, ?_, ?_⟩
        · rw [q2.rest, h.rest]
        · exact forall₂_sameAttrs_trans h.trees q2.trees
      obtain ⟨e1, r1, r2⟩ := ih h2
      refine ⟨e1, ?_, r2⟩
      simp only [lifeOf, q1, bind_ok, r1, List.filterMap_cons, Event.assigned?]

end

section
variable {L V K F Y P G W N : Type} [LinearOrder L] [DecidableEq V] [DecidableEq N] [LinearOrder K] [Field K] [IsStrictOrderedRing K] [FloorSemiring K] [Num F]

/-- The trees at the end of `fit`. -/
theorem fitRest_treesOK {lib : Lib V K F G W} {a : FitArgs N V} {p : FitData F Y P G} {s s' : World L V K F P G W} (h : fitRest lib a p s = (.ok (), s')) {isCls : Bool}
    {x : Nat → TreeExtra F P} (hx : TreeAttrs lib isCls s'.self x) : s'.self.fitted = true ∧ ∃ fba, FBALayout fba ∧ TreesOK fba x isCls s'.self := by
  obtain ⟨o, rfl⟩ := fitRest_inv h
  refine ⟨rfl, o.fba, C41_encoder o.hfba, fun i t hi => ?_⟩
  obtain ⟨seed, dp, y, w, g1, -, -, -, g5⟩ := growTrees_getElem? o.htrees hi
  obtain ⟨x1, x2⟩ := hx i seed g1
  unfold buildTree at g5
  simp only [bind_eq_ok] at g5
  obtain ⟨b, hb, w', -, g5⟩ := g5
  rw [show FBA.nSamples _ = a.nRows from encoderTransform_nSamples o.hfba] at hb
  obtain ⟨draws, hd, rfl⟩ := genTV_explicit hb
  obtain ⟨x2, x3⟩ := x2 draws hd
  have hn : Est.nSamples o.est = a.nRows := rfl
  refine ⟨x1, ?_, fun _ => ?_⟩
  · have := fit_post _ _ _ _ _ _ _ _ _ g5
    rw [x2, x3, hn]
    exact this
  · unfold TreeObj.fit at g5
    simp only [bind_eq_ok] at g5
    obtain ⟨⟨arr, k⟩, -, g5⟩ := g5
    injection g5 with g5
    rw [← g5]
    rfl

theorem Alike.refl {fba : FBA} {x : Nat → TreeExtra F P} {isCls : Bool} {e : Est L V K F P G} (h : TreesOK fba x isCls e) : Alike fba x isCls e e :=
  ⟨h, rfl, List.forall₂_same.2 fun _ _ => SameAttrs.rfl⟩

theorem Alike.encode {lib : Lib V K F G W} {fba : FBA} {x : Nat → TreeExtra F P} {isCls : Bool} {e e' : Est L V K F P G} (h : Alike fba x isCls e e') (n : Nat) (X : Dataset N V) :
    e.encode lib n X = e'.encode lib n X := by
  rw [h.rest]
  rfl

theorem Alike.regressor {lib : Lib V K F G W} {fba : FBA} {x : Nat → TreeExtra F F} {e e' : Est L V K F F G} (h : Alike fba x false e e') : SameRegressor lib e' e := by
  have ht := h.trees
  refine ⟨fun N _ n X => ?_, fun N _ n X => ?_, fun N _ n X => ?_, ?_, ?_⟩
  · unfold Est.predictReg forestPredict
    rw [h.encode, ht.length_eq]
    refine congrArg (fun m => _ >>= m) (funext fun fba => congrArg (fun m => m >>= _) ?_)
    exact (foldlM_alike ht (fun out a b hab => by rw [(C41_same_behaviour (Y := F) hab).1]) _).symm
  · unfold Est.apply
    rw [h.encode]
    refine congrArg (fun m => _ >>= m) (funext fun fba => ?_)
    exact (forall₂_mapM ht fun a b hab => (C41_same_behaviour (Y := F) hab).2.1 fba).symm
  · unfold Est.weightedDepth
    rw [h.encode]
    refine congrArg (fun m => _ >>= m) (funext fun fba => ?_)
    exact (forall₂_mapM ht fun a b hab => by rw [hab.arr, hab.step]).symm
  · rw [h.rest]; rfl
  · rw [h.rest]; rfl

theorem Alike.classifier {lib : Lib V K F G W} {fba : FBA} {x : Nat → TreeExtra F (List F)} {e e' : Est L V K F (List F) G} (h : Alike fba x true e e') : SameClassifier lib e' e := by
  have ht := h.trees
  have e1 : e'.fitted = e.fitted := by rw [h.rest]
  have e2 : e'.ovr = e.ovr := by rw [h.rest]
  have e3 : e'.nClasses = e.nClasses := by rw [h.rest]
  have e4 : e'.nEstimators = e.nEstimators := by rw [h.rest]
  have e5 : e'.classes = e.classes := by rw [h.rest]
  have e6 : e'.nFeatures = e.nFeatures := by rw [h.rest]
  have hm : ∀ fba k, predictProba k e'.trees fba = predictProba k e.trees fba := by
    intro fba k
    unfold predictProba accumulateProba
    rw [ht.length_eq]
    refine congrArg (fun m => m >>= _) ?_
    exact (foldlM_alike ht (fun out a b hab => by rw [(C41_same_behaviour (Y := F) hab).1]) _).symm
  have ho : ∀ fba eps k E, predictProbaOvr eps k E e'.trees fba = predictProbaOvr eps k E e.trees fba := by
    intro fba eps k E
    unfold predictProbaOvr
    refine congrArg (fun m => m >>= _) (foldlM_zipIdx_same ht (fun out a b i hab => ?_) 0 _).symm
    simp only [(C41_same_behaviour (Y := F) hab).1]
  have hp : ∀ (N : Type) [DecidableEq N] (eps : F) (n : Nat) (X : Dataset N V), e'.predictProba lib eps n X = e.predictProba lib eps n X := by
    intro N _ eps n X
    unfold Est.predictProba
    rw [h.encode, e1, e2, e3, e4]
    simp only [hm, ho]
  refine ⟨hp, fun N _ eps n X => ?_, fun N _ n X => ?_, fun N _ n X => ?_, ?_, ?_, ?_, ?_⟩
  · unfold Est.predict
    rw [hp, e5]
  · unfold Est.predictProbaTrees Est.checkNFeatures
    rw [h.encode, e1, e6, e3, e2]
    refine congrArg (fun m => _ >>= m) (funext fun _ => congrArg (fun m => _ >>= m) (funext fun fba => ?_))
    exact (forall₂_mapM ht fun a b hab => by rw [(C41_same_behaviour (Y := F) hab).1]).symm
  · unfold Est.apply
    rw [h.encode]
    refine congrArg (fun m => _ >>= m) (funext fun fba => ?_)
    exact (forall₂_mapM ht fun a b hab => (C41_same_behaviour (Y := F) hab).2.1 fba).symm
  · rw [h.rest]; rfl
  · rw [h.rest]; rfl
  · rw [h.rest]; rfl
  · rw [h.rest]; rfl

/-- There are such descriptions of the trees. -/
theorem exists_treeAttrs (lib : Lib V K F G W) (isCls : Bool) (e : Est L V K F P G) (x0 : TreeExtra F P) : ∃ x, TreeAttrs lib isCls e x := by
  classical
  have key : ∀ i : Nat, ∃ xi : TreeExtra F P, ∀ seed, e.seeds[i]? = some seed → xi.isCls = isCls ∧ ∀ draws, BootstrapOf (lib.boot e.nSamples) e.nSamples seed draws →
      xi.train = (List.range e.nSamples).filter (fun r => decide (r ∈ draws)) ∧ xi.valid = (List.range e.nSamples).filter (fun r => decide (r ∉ draws)) := by
    intro i
    cases hi : e.seeds[i]? with
    | none => exact ⟨x0, fun _ h => by cases h⟩
    | some seed =>
      by_cases hd : ∃ draws, BootstrapOf (lib.boot e.nSamples) e.nSamples seed draws
      · obtain ⟨draws, hd⟩ := hd
        refine ⟨{ x0 with isCls := isCls, train := (List.range e.nSamples).filter (fun r => decide (r ∈ draws)), valid := (List.range e.nSamples).filter (fun r => decide (r ∉ draws)) },
          fun sd h => ?_⟩
        cases h
        refine ⟨rfl, fun draws' hd' => ?_⟩
        obtain rfl := BootstrapOf.unique hd hd'
        exact ⟨rfl, rfl⟩
      · refine ⟨{ x0 with isCls := isCls }, fun sd h => ?_⟩
        cases h
        exact ⟨rfl, fun draws hd' => absurd ⟨draws, hd'⟩ hd⟩
  choose x hx using key
  exact ⟨x, fun i seed hs => hx i seed hs⟩

end

end Verif
