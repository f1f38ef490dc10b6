import Verif.Proofs.History
import Verif.Proofs.Cut
import Verif.Proofs.EstEnd
import Verif.Spec.Life

set_option linter.unusedSectionVars false

/-! Assignments to the attributes of a fitted estimator. -/
namespace Verif

open Spec

section
variable {L V K F Y P G W N : Type} [LinearOrder L] [DecidableEq V] [DecidableEq N] [LinearOrder K] [Field K] [IsStrictOrderedRing K] [FloorSemiring K] [Num F]

/-- The inputs of all trees of a fit. -/
theorem Outcome.inputs {lib : Lib V K F G W} {a : FitArgs N V} {p : FitData F Y P G} {lab : F → Prop} {okW : List F → Prop} {e : Est L V K F P G} {np : W}
    (o : Outcome lib a p e np) (h : FitFacts lib a p lab okW e o.est) {l : List Nat}
    {x : (Nat × Nat) × Nat} (hx : x ∈ ((seedsOf lib e np).1.zip l).zipIdx) (hl : l.length = (seedsOf lib e np).1.length) {y w : List F}
    (hy : p.ys[if p.ovr then x.2 / e.nEstimators else 0]? = some y) (hw : p.ws[if p.ovr then x.2 / e.nEstimators else 0]? = some w)
    (hdep : l = (depthsOf lib a.randomizedDepth (e.maxDepth.getD (2 ^ 64 - 1)) (seedsOf lib e np).1.length
      (subsetOf lib e a.nRows (seedsOf lib e np).2).2).1) :
    o.fba.nSamples = a.nRows ∧ w.length = a.nRows ∧
      ForestInput (treeCtx o.fba y w o.mf x.1.2 (o.enc.map FitCol.isCat) e) (encData o.fba y w) lab := by
  have hx' := List.mem_zipIdx hx
  simp only [Nat.zero_le, Nat.zero_add, Nat.sub_zero, true_and] at hx'
  obtain ⟨hlt, hx2⟩ := hx'
  have htr := o.htrees
  rw [← hdep] at htr
  have hlen : o.trees.length = ((seedsOf lib e np).1.zip l).length := by
    have := (mapM_eq_ok.1 htr).length_eq
    rw [List.length_zipIdx] at this
    exact this.symm
  have ht : o.trees[x.2]? = some (o.trees[x.2]'(by omega)) := List.getElem?_eq_getElem _
  obtain ⟨seed, depth, y', w', q1, q2, q3, q4, q5⟩ := growTrees_getElem? htr ht
  obtain rfl : y = y' := Option.some.inj (hy.symm.trans q3)
  obtain rfl : w = w' := Option.some.inj (hw.symm.trans q4)
  obtain rfl : depth = x.1.2 := by
    rw [hx2]
    simp only [List.getElem_zip]
    have := q2
    rw [List.getElem?_eq_getElem (by rw [List.length_zip] at hlt; omega)] at this
    exact (Option.some.inj this).symm
  obtain ⟨r1, -, r3, r4⟩ := o.explicit h ht q1 q5 q3 q4
  exact ⟨r1, r3, r4⟩

/-- The trees of the fit with other values of `step` and `dirichlet`. -/
def Outcome.fitAll {lib : Lib V K F G W} {a : FitArgs N V} {p : FitData F Y P G} {e : Est L V K F P G} {np : W} (o : Outcome lib a p e np) (st d : F) :
    M (List (TreeObj F P G)) :=
  growTrees lib a.nRows p { e with step := st, dirichlet := d } o.mf (o.enc.map FitCol.isCat) o.fba (seedsOf lib e np).1
    (depthsOf lib a.randomizedDepth (e.maxDepth.getD (2 ^ 64 - 1)) (seedsOf lib e np).1.length (subsetOf lib e a.nRows (seedsOf lib e np).2).2).1

theorem Outcome.fitAll_step {lib : Lib V K F G W} {a : FitArgs N V} {p : FitData F Y P G} {lab : F → Prop} {okW : List F → Prop} {e : Est L V K F P G} {np : W}
    (hlib : LibOK lib a.nRows) (hT : ∀ d, ValidTask (p.task d) lab) (hcmp : CompareOK F)
    (o : Outcome lib a p e np) (h : FitFacts lib a p lab okW e o.est) {st d : F} (v : F) (hs : Num.le st Num.zero = false) {ts : List (TreeObj F P G)}
    (hts : o.fitAll st d = .ok ts) : ∃ ts', ts.mapM (TreeObj.setStep v) = .ok ts' ∧ o.fitAll v d = .ok ts' := by
  unfold Outcome.fitAll growTrees at hts ⊢
  refine mapM_fuse hts fun x hx ob hob => ?_
  simp only at hob ⊢
  rw [bind_eq_ok] at hob
  obtain ⟨y, hy, hob⟩ := hob
  rw [bind_eq_ok] at hob
  obtain ⟨w, hw, hob⟩ := hob
  obtain ⟨q1, q2, q3⟩ := o.inputs h hx (depthsOf_length ..) (rd_ok.1 hy) (rd_ok.1 hw) rfl
  obtain ⟨okY, okP, hsafe⟩ := validTask_safe (hT d)
  rw [hy, bind_ok, hw, bind_ok]
  have hn : (encData o.fba y w).n = a.nRows := q1
  exact buildTree_setStep (c := { treeCtx o.fba y w o.mf x.1.2 (o.enc.map FitCol.isCat) e with step := st }) (D := encData o.fba y w) hsafe
    ⟨⟨q3.holds.n, q3.holds.d, q3.holds.value, q3.holds.bound, q3.holds.y, q3.holds.w, q3.holds.cat⟩, ⟨q3.params.feats, q3.params.minSplit⟩, q3.labels⟩
    (q2.trans hn.symm) (by rw [hn]; exact hlib.boot) (hcmp st v hs) hob

end

section
variable {L V K G W N : Type} [LinearOrder L] [DecidableEq V] [DecidableEq N] [LinearOrder K] [Field K] [IsStrictOrderedRing K] [FloorSemiring K]

theorem Outcome.fitAll_change {lib : Lib V K ℝ G W} {a : FitArgs N V} {p : FitData ℝ (List ℝ) (List ℝ) G} {okW : List ℝ → Prop} {e : Est L V K ℝ (List ℝ) G} {np : W}
    {n : Nat} {cr : Criterion} {str : CatStrategy} (hlib : LibOK lib a.nRows) (hS : StrategyOK n str) (hp : p.task = fun d => classifierTask lib.rng lib.argsort n d cr str)
    (o : Outcome lib a p e np) (h : FitFacts lib a p (ClassLabel n) okW e o.est) {st d : ℝ} (v : ℝ) {ts ts0 : List (TreeObj ℝ (List ℝ) G)}
    (hts : o.fitAll st d = .ok ts0) (hsame : List.Forall₂ SameTree ts ts0) :
    (∃ ts' ts0', ts.mapM (TreeObj.setDirichlet (fun d => classifierTask lib.rng lib.argsort n d cr str) v) = .ok ts' ∧ o.fitAll st v = .ok ts0' ∧ List.Forall₂ SameTree ts' ts0') ∧
    ∃ ts' ts0', ts.mapM (TreeObj.setStep v) = .ok ts' ∧ o.fitAll v d = .ok ts0' ∧ List.Forall₂ SameTree ts' ts0' := by
  unfold Outcome.fitAll growTrees at hts ⊢
  constructor
  · refine mapM_fuse₂ hts hsame fun x hx ob ob0 hob hob0 => ?_
    simp only at hob0 ⊢
    rw [bind_eq_ok] at hob0
    obtain ⟨y, hy, hob0⟩ := hob0
    rw [bind_eq_ok] at hob0
    obtain ⟨w, hw, hob0⟩ := hob0
    obtain ⟨q1, q2, q3⟩ := o.inputs h hx (depthsOf_length ..) (rd_ok.1 hy) (rd_ok.1 hw) rfl
    rw [hy, bind_ok, hw, bind_ok]
    have hn : (encData o.fba y w).n = a.nRows := q1
    rw [hp] at hob0 ⊢
    exact (buildTree_change (c := { treeCtx o.fba y w o.mf x.1.2 (o.enc.map FitCol.isCat) e with step := st }) (D := encData o.fba y w) hlib.argsort hS
      ⟨⟨q3.holds.n, q3.holds.d, q3.holds.value, q3.holds.bound, q3.holds.y, q3.holds.w, q3.holds.cat⟩, ⟨q3.params.feats, q3.params.minSplit⟩, q3.labels⟩
      (q2.trans hn.symm) (by rw [hn]; exact hlib.boot) hob hob0).1
  · refine mapM_fuse₂ hts hsame fun x hx ob ob0 hob hob0 => ?_
    simp only at hob0 ⊢
    rw [bind_eq_ok] at hob0
    obtain ⟨y, hy, hob0⟩ := hob0
    rw [bind_eq_ok] at hob0
    obtain ⟨w, hw, hob0⟩ := hob0
    obtain ⟨q1, q2, q3⟩ := o.inputs h hx (depthsOf_length ..) (rd_ok.1 hy) (rd_ok.1 hw) rfl
    rw [hy, bind_ok, hw, bind_ok]
    have hn : (encData o.fba y w).n = a.nRows := q1
    rw [hp] at hob0 ⊢
    exact (buildTree_change (c := { treeCtx o.fba y w o.mf x.1.2 (o.enc.map FitCol.isCat) e with step := st }) (D := encData o.fba y w) hlib.argsort hS
      ⟨⟨q3.holds.n, q3.holds.d, q3.holds.value, q3.holds.bound, q3.holds.y, q3.holds.w, q3.holds.cat⟩, ⟨q3.params.feats, q3.params.minSplit⟩, q3.labels⟩
      (q2.trans hn.symm) (by rw [hn]; exact hlib.boot) hob hob0).2

/-! ### Answers of equal forests -/

theorem _root_.Verif.Spec.SameTree.treeApply {F P G : Type} [Num F] {o o' : TreeObj F P G} (h : SameTree o o') (fba : FBA) :
    treeApply o.arr fba = treeApply o'.arr fba := by
  have hr := h.rest
  unfold Verif.treeApply
  congr 1
  funext i
  unfold findLeaf
  rw [findLeafFrom_noLoss h.nodes]
  rw [← hr]

theorem forall₂_mapM {α β γ : Type} {R : α → β → Prop} {f : α → M γ} {g : β → M γ} {l : List α} {l' : List β} (h : List.Forall₂ R l l')
    (hfg : ∀ a b, R a b → f a = g b) : l.mapM f = l'.mapM g := by
  induction h with
  | nil => rfl
  | cons hab _ ih => simp only [List.mapM_cons, hfg _ _ hab, ih]

theorem predictProba_same {F G : Type} [Num F] {k : Nat} {ts ts' : List (TreeObj F (List F) G)} (h : List.Forall₂ SameTree ts ts') (fba : FBA) :
    predictProba k ts fba = predictProba k ts' fba := by
  have hfold : ∀ out, ts.foldlM (fun out o => do
      let p ← TreeObj.predict mixV o fba
      addMat out p) out = ts'.foldlM (fun out o => do
      let p ← TreeObj.predict mixV o fba
      addMat out p) out := by
    induction h with
    | nil => intro out; rfl
    | cons ha _ ih => intro out; simp only [List.foldlM_cons, ha.predict, ih]
  unfold Verif.predictProba accumulateProba
  rw [hfold, h.length_eq]

theorem foldlM_zipIdx_same {α β γ : Type} {R : α → β → Prop} {f : γ → α × Nat → M γ} {g : γ → β × Nat → M γ} {l : List α} {l' : List β} (h : List.Forall₂ R l l')
    (hfg : ∀ out a b i, R a b → f out (a, i) = g out (b, i)) (k : Nat) (out : γ) : (l.zipIdx k).foldlM f out = (l'.zipIdx k).foldlM g out := by
  induction h generalizing k out with
  | nil => rfl
  | cons hab _ ih => simp only [List.zipIdx_cons, List.foldlM_cons, hfg _ _ _ _ hab, ih]

theorem predictProbaOvr_same {F G : Type} [Num F] {eps : F} {k E : Nat} {ts ts' : List (TreeObj F (List F) G)} (h : List.Forall₂ SameTree ts ts') (fba : FBA) :
    predictProbaOvr eps k E ts fba = predictProbaOvr eps k E ts' fba := by
  unfold Verif.predictProbaOvr
  refine congrArg (fun m => m >>= _) (foldlM_zipIdx_same h (fun out a b i hab => ?_) 0 _)
  simp only [hab.predict]

/-- What remains of a fitted classifier. -/
structure SameRest {F P : Type} (e e' : Est L V K F P G) : Prop where
  fitted : e.fitted = true
  nEstimators : e.nEstimators = e'.nEstimators
  fitted' : e'.fitted = true
  ovr : e.ovr = e'.ovr
  strategy : e.strategy = e'.strategy
  classes : e.classes = e'.classes
  nClasses : e.nClasses = e'.nClasses
  perTree : e.nClassesPerTree = e'.nClassesPerTree
  encoder : e.encoder = e'.encoder
  nSamples : e.nSamples = e'.nSamples
  nFeatures : e.nFeatures = e'.nFeatures

theorem SameRest.encode {F P : Type} {lib : Lib V K F G W} {e e' : Est L V K F P G} (h : SameRest e e') (n : Nat) (X : Dataset N V) :
    e.encode lib n X = e'.encode lib n X := by
  unfold Est.encode
  rw [h.encoder]

theorem SameRest.classifier {F : Type} [Num F] {lib : Lib V K F G W} {e e' : Est L V K F (List F) G} (h : SameRest e e') (ht : List.Forall₂ SameTree e.trees e'.trees) :
    SameClassifier lib e e' := by
  have hp : ∀ (N : Type) [DecidableEq N] (eps : F) (n : Nat) (X : Dataset N V), e.predictProba lib eps n X = e'.predictProba lib eps n X := by
    intro N _ eps n X
    unfold Est.predictProba
    rw [h.encode, h.fitted, h.fitted', h.ovr, h.nClasses, h.nEstimators]
    simp only [predictProba_same ht, predictProbaOvr_same ht]
  refine ⟨hp, fun N _ eps n X => ?_, fun N _ n X => ?_, fun N _ n X => ?_, ?_, ?_, ?_, ?_⟩
  · unfold Est.predict
    rw [hp, h.classes]
  · unfold Est.predictProbaTrees Est.checkNFeatures
    rw [h.encode, h.fitted, h.fitted', h.nFeatures, h.nClasses, h.ovr]
    refine congrArg (fun m => _ >>= m) (funext fun _ => congrArg (fun m => _ >>= m) (funext fun fba => ?_))
    exact forall₂_mapM ht fun a b hab => by rw [hab.predict]
  · unfold Est.apply
    rw [h.encode]
    have : ∀ fba, (e.trees.mapM fun o => treeApply o.arr fba) = e'.trees.mapM fun o => treeApply o.arr fba :=
      fun fba => forall₂_mapM ht fun a b hab => hab.treeApply fba
    simp only [this]
  · unfold Est.getClasses; rw [h.fitted, h.fitted', h.classes]
  · unfold Est.getNClasses; rw [h.fitted, h.fitted', h.nClasses]
  · unfold Est.getNSamplesIn; rw [h.fitted, h.fitted', h.nSamples]
  · unfold Est.getNFeaturesIn; rw [h.fitted, h.fitted', h.nFeatures]

theorem SameRest.regressor {F : Type} [Num F] {lib : Lib V K F G W} {e e' : Est L V K F F G} (h : SameRest e e') (ht : e.trees = e'.trees) :
    SameRegressor lib e e' := by
  refine ⟨fun N _ n X => ?_, fun N _ n X => ?_, fun N _ n X => ?_, ?_, ?_⟩
  · unfold Est.predictReg; rw [h.encode, ht]
  · unfold Est.apply; rw [h.encode, ht]
  · unfold Est.weightedDepth; rw [h.encode, ht]
  · unfold Est.getNSamplesIn; rw [h.fitted, h.fitted', h.nSamples]
  · unfold Est.getNFeaturesIn; rw [h.fitted, h.fitted', h.nFeatures]

/-! ### Assignments -/

/-- An assignment that is not an accepted one of `step` changes neither the trees nor what the predictions need. -/
theorem assign_other {F P : Type} [Num F] (x : Assign F K) (e e' : Est L V K F P G) (hs : SameRest e e') (hx : ∀ v, x ≠ .step v) :
    SameRest (Est.assign x e).2 e' ∧ (Est.assign x e).2.trees = e.trees ∧ (Est.assign x e).2.step = e.step ∧ (Est.assign x e).2.dirichlet = e.dirichlet := by
  have hf := hs.fitted
  have hif : ∀ (ok : Bool) (g : Est L V K F P G → Est L V K F P G),
      (ok = true → SameRest (g e) e' ∧ (g e).trees = e.trees ∧ (g e).step = e.step ∧ (g e).dirichlet = e.dirichlet) →
      SameRest (Est.setIf ok g e).2 e' ∧ (Est.setIf ok g e).2.trees = e.trees ∧ (Est.setIf ok g e).2.step = e.step ∧ (Est.setIf ok g e).2.dirichlet = e.dirichlet := by
    intro ok g hg
    unfold Est.setIf
    cases ok with
    | true => exact hg rfl
    | false => exact ⟨hs, rfl, rfl, rfl⟩
  obtain ⟨h1, h2, h3, h4, h5, h6, h7, h8, h9, h10, h11⟩ := hs
  have hs : SameRest e e' := ⟨h1, h2, h3, h4, h5, h6, h7, h8, h9, h10, h11⟩
  cases x with
  | step v => exact absurd rfl (hx v)
  | nEstimators n => exact hif _ _ fun h => by rw [hf] at h; cases h
  | maxDepth d =>
    cases d with
    | none => exact hif _ _ fun _ => ⟨⟨h1, h2, h3, h4, h5, h6, h7, h8, h9, h10, h11⟩, rfl, rfl, rfl⟩
    | some d => exact hif _ _ fun _ => ⟨⟨h1, h2, h3, h4, h5, h6, h7, h8, h9, h10, h11⟩, rfl, rfl, rfl⟩
  | maxFeatures m =>
    unfold Est.assign
    simp only
    cases setMaxFeatures m with
    | error x => exact ⟨hs, rfl, rfl, rfl⟩
    | ok m => exact ⟨⟨h1, h2, h3, h4, h5, h6, h7, h8, h9, h10, h11⟩, rfl, rfl, rfl⟩
  | randomState v =>
    unfold Est.assign Est.setRandomState
    simp only [hf, if_true]
    exact ⟨hs, trivial, trivial, trivial⟩
  | _ => exact hif _ _ fun _ => ⟨⟨h1, h2, h3, h4, h5, h6, h7, h8, h9, h10, h11⟩, rfl, rfl, rfl⟩

theorem setDirichlet_any {F G : Type} [Num F] (R : Rng G) (A : List F → List Nat) (n : Nat) (cr cr' : Criterion) (st st' : CatStrategy) (v : F) :
    TreeObj.setDirichlet (fun d => classifierTask R A n d cr st) v = TreeObj.setDirichlet (fun d => classifierTask R A n d cr' st') v := rfl

end

section
variable {L V K F Y P G W N : Type} [LinearOrder L] [DecidableEq V] [DecidableEq N] [LinearOrder K] [Field K] [IsStrictOrderedRing K] [FloorSemiring K] [Num F]

/-- A history of a fitted forest, with the same trees as a fit with the last accepted value of `step`. -/
theorem attempts_step {e1 : Est L V K F P G} {fitAll : F → M (List (TreeObj F P G))}
    (hC : ∀ {st : F} {ts} (v : F), Num.le st Num.zero = false → fitAll st = .ok ts → ∃ ts', ts.mapM (TreeObj.setStep v) = .ok ts' ∧ fitAll v = .ok ts')
    (hist : List (Assign F K)) {e : Est L V K F P G} (hs : SameRest e e1) (hst : Num.le e.step Num.zero = false) (ht : fitAll e.step = .ok e.trees) :
    SameRest (attempts Est.assign hist e) e1 ∧ (attempts Est.assign hist e).step = lastPositiveStep e.step hist ∧
      fitAll (lastPositiveStep e.step hist) = .ok (attempts Est.assign hist e).trees := by
  induction hist generalizing e with
  | nil => exact ⟨hs, rfl, ht⟩
  | cons x hist ih =>
    by_cases hx : ∃ v, x = .step v
    · obtain ⟨v, rfl⟩ := hx
      simp only [attempts, lastPositiveStep]
      cases hv : Num.le v Num.zero with
      | true =>
        have : (Est.assign (.step v) e).2 = e := by simp only [Est.assign, hv, if_true]
        rw [this]
        exact ih hs hst ht
      | false =>
        obtain ⟨ts', k1, k2⟩ := hC v hst ht
        have : (Est.assign (.step v) e).2 = { e with step := v, trees := ts' } := by
          simp only [Est.assign, hv, hs.fitted, k1, if_true, Bool.false_eq_true, if_false]
        rw [this]
        exact ih (e := { e with step := v, trees := ts' }) ⟨hs.1, hs.2, hs.3, hs.4, hs.5, hs.6, hs.7, hs.8, hs.9, hs.10, hs.11⟩ hv k2
    · have hx' : ∀ v, x ≠ .step v := fun v h => hx ⟨v, h⟩
      obtain ⟨q1, q2, q3, -⟩ := assign_other x e e1 hs hx'
      have hl : lastPositiveStep e.step (x :: hist) = lastPositiveStep e.step hist := by
        cases x <;> first | exact absurd rfl (hx' _) | rfl
      rw [hl]
      simp only [attempts]
      rw [← q3]
      exact ih q1 (by rw [q3]; exact hst) (by rw [q2, q3]; exact ht)

end

section
variable {L V K G W N : Type} [LinearOrder L] [DecidableEq V] [DecidableEq N] [LinearOrder K] [Field K] [IsStrictOrderedRing K] [FloorSemiring K]

/-- The same for a classifier and both parameters. -/
theorem attempts_cls {lib : Lib V K ℝ G W} {e1 : Est L V K ℝ (List ℝ) G} {fitAll : ℝ → ℝ → M (List (TreeObj ℝ (List ℝ) G))} {cr : Criterion} {str : CatStrategy}
    (hC : ∀ {st d : ℝ} {ts ts0} (v : ℝ), fitAll st d = .ok ts0 → List.Forall₂ SameTree ts ts0 →
      (∃ ts' ts0', ts.mapM (TreeObj.setDirichlet (fun d => classifierTask lib.rng lib.argsort e1.nClassesPerTree d cr str) v) = .ok ts' ∧ fitAll st v = .ok ts0' ∧
        List.Forall₂ SameTree ts' ts0') ∧
      ∃ ts' ts0', ts.mapM (TreeObj.setStep v) = .ok ts' ∧ fitAll v d = .ok ts0' ∧ List.Forall₂ SameTree ts' ts0')
    (hist : List (ClsAssign ℝ K)) {e : Est L V K ℝ (List ℝ) G} (hs : SameRest e e1) {ts0 : List (TreeObj ℝ (List ℝ) G)}
    (ht : fitAll e.step e.dirichlet = .ok ts0) (hsame : List.Forall₂ SameTree e.trees ts0) :
    SameRest (attempts (Est.assignCls lib) hist e) e1 ∧
      (attempts (Est.assignCls lib) hist e).step = lastPositiveStep e.step (hist.filterMap baseOf) ∧
      (attempts (Est.assignCls lib) hist e).dirichlet = lastAcceptedDirichlet e.dirichlet hist ∧
      ∃ ts0', fitAll (lastPositiveStep e.step (hist.filterMap baseOf)) (lastAcceptedDirichlet e.dirichlet hist) = .ok ts0' ∧
        List.Forall₂ SameTree (attempts (Est.assignCls lib) hist e).trees ts0' := by
  induction hist generalizing e ts0 with
  | nil => exact ⟨hs, rfl, rfl, ts0, ht, hsame⟩
  | cons x hist ih =>
    have keep : ∀ {e' : Est L V K ℝ (List ℝ) G}, (Est.assignCls lib x e).2 = e' → SameRest e' e1 → e'.trees = e.trees → e'.step = e.step → e'.dirichlet = e.dirichlet →
        lastPositiveStep e.step ((x :: hist).filterMap baseOf) = lastPositiveStep e.step (hist.filterMap baseOf) →
        lastAcceptedDirichlet e.dirichlet (x :: hist) = lastAcceptedDirichlet e.dirichlet hist →
        SameRest (attempts (Est.assignCls lib) (x :: hist) e) e1 ∧
          (attempts (Est.assignCls lib) (x :: hist) e).step = lastPositiveStep e.step ((x :: hist).filterMap baseOf) ∧
          (attempts (Est.assignCls lib) (x :: hist) e).dirichlet = lastAcceptedDirichlet e.dirichlet (x :: hist) ∧
          ∃ ts0', fitAll (lastPositiveStep e.step ((x :: hist).filterMap baseOf)) (lastAcceptedDirichlet e.dirichlet (x :: hist)) = .ok ts0' ∧
            List.Forall₂ SameTree (attempts (Est.assignCls lib) (x :: hist) e).trees ts0' := by
      intro e' he hs' h1 h2 h3 h4 h5
      rw [h4, h5]
      simp only [attempts]
      rw [he, ← h2, ← h3]
      exact ih hs' (by rw [h2, h3]; exact ht) (by rw [h1]; exact hsame)
    obtain ⟨r1, r2, r3, r4, r5, r6, r7, r8, r9, r10, r11⟩ := id hs
    cases x with
    | base x =>
      by_cases hx : ∃ v, x = .step v
      · obtain ⟨v, rfl⟩ := hx
        simp only [attempts, List.filterMap_cons, baseOf, lastPositiveStep, lastAcceptedDirichlet, Est.assignCls]
        cases hv : Num.le v (Num.zero : ℝ) with
        | true =>
          have : (Est.assign (.step v) e).2 = e := by simp only [Est.assign, hv, if_true]
          rw [this]
          exact ih hs ht hsame
        | false =>
          obtain ⟨ts', ts0', k1, k2, k3⟩ := (hC v ht hsame).2
          have : (Est.assign (.step v) e).2 = { e with step := v, trees := ts' } := by
            simp only [Est.assign, hv, hs.fitted, k1, if_true, Bool.false_eq_true, if_false]
          rw [this]
          exact ih (e := { e with step := v, trees := ts' }) ⟨r1, r2, r3, r4, r5, r6, r7, r8, r9, r10, r11⟩ k2 k3
      · have hx' : ∀ v, x ≠ .step v := fun v h => hx ⟨v, h⟩
        obtain ⟨q1, q2, q3, q4⟩ := assign_other x e e1 hs hx'
        refine keep rfl q1 q2 q3 q4 ?_ rfl
        cases x <;> first | exact absurd rfl (hx' _) | rfl
    | dirichlet v =>
      simp only [attempts, List.filterMap_cons, baseOf, lastAcceptedDirichlet]
      cases hv : Num.lt v (Num.zero : ℝ) with
      | true =>
        have : (Est.assignCls lib (.dirichlet v) e).2 = e := by simp only [Est.assignCls, hv, if_true]
        rw [this]
        exact ih hs ht hsame
      | false =>
        cases hne : neF e.dirichlet v with
        | false =>
          obtain rfl : e.dirichlet = v := neF_real.1 hne
          have : (Est.assignCls lib (.dirichlet e.dirichlet) e).2 = e := by
            simp only [Est.assignCls, hv, hne, Bool.and_false, Bool.false_eq_true, if_false]
          rw [this]
          exact ih hs ht hsame
        | true =>
          obtain ⟨ts', ts0', k1, k2, k3⟩ := (hC v ht hsame).1
          rw [setDirichlet_any lib.rng lib.argsort _ cr e.criterion str e.strategy, ← r8] at k1
          have : (Est.assignCls lib (.dirichlet v) e).2 = { e with dirichlet := v, trees := ts' } := by
            simp only [Est.assignCls, hv, hne, hs.fitted, k1, Bool.and_self, if_true, Bool.false_eq_true, if_false]
          rw [this]
          exact ih (e := { e with dirichlet := v, trees := ts' }) ⟨r1, r2, r3, r4, r5, r6, r7, r8, r9, r10, r11⟩ k2 k3
    | criterion c => exact keep rfl ⟨r1, r2, r3, r4, r5, r6, r7, r8, r9, r10, r11⟩ rfl rfl rfl rfl rfl
    | classWeight b => exact keep rfl ⟨r1, r2, r3, r4, r5, r6, r7, r8, r9, r10, r11⟩ rfl rfl rfl rfl rfl
    | multiclass b => exact keep (by simp only [Est.assignCls, r1, if_true]) hs rfl rfl rfl rfl rfl
    | catSplitStrategy s => exact keep (by simp only [Est.assignCls, r1, if_true]) hs rfl rfl rfl rfl rfl
    | classes => exact keep rfl hs rfl rfl rfl rfl rfl
    | nClasses => exact keep rfl hs rfl rfl rfl rfl rfl

end

section
variable {L V K F Y P G W N : Type} [LinearOrder L] [DecidableEq V] [DecidableEq N] [LinearOrder K] [Field K] [IsStrictOrderedRing K] [FloorSemiring K] [Num F]

/-- The fit with other values of `step` and `dirichlet`. -/
theorem Outcome.refit {lib : Lib V K F G W} {a : FitArgs N V} {p : FitData F Y P G} {e : Est L V K F P G} {np : W} {st d : F}
    (o : Outcome lib a p e np) (o' : Outcome lib a p { e with step := st, dirichlet := d } np) {ts : List (TreeObj F P G)} (h : o.fitAll st d = .ok ts) :
    o'.est.trees = ts ∧ SameRest o.est o'.est := by
  obtain ⟨mf, ic, enc, fba, trees, hmf1, hrs, hic, hacc, henc, hfba, htrees⟩ := o
  obtain ⟨mf2, ic2, enc2, fba2, trees2, hmf2, hrs2, hic2, hacc2, henc2, hfba2, htrees2⟩ := o'
  obtain rfl : mf = mf2 := Except.ok.inj (hmf1.symm.trans hmf2)
  obtain rfl : ic = ic2 := Except.ok.inj (hic.symm.trans hic2)
  obtain rfl : enc = enc2 := Except.ok.inj (henc.symm.trans henc2)
  obtain rfl : fba = fba2 := Except.ok.inj (hfba.symm.trans hfba2)
  exact ⟨Except.ok.inj (htrees2.symm.trans h), ⟨rfl, rfl, rfl, rfl, rfl, rfl, rfl, rfl, rfl, rfl, rfl⟩⟩

theorem SameRest.trans {e e' e'' : Est L V K F P G} (h : SameRest e e') (h' : SameRest e' e'') : SameRest e e'' :=
  ⟨h.1, h.2.trans h'.2, h'.3, h.4.trans h'.4, h.5.trans h'.5, h.6.trans h'.6, h.7.trans h'.7, h.8.trans h'.8, h.9.trans h'.9, h.10.trans h'.10, h.11.trans h'.11⟩

end

end Verif
