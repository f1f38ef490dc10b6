import Verif.Proofs.Pickle
import Verif.Props.Pool
import Verif.Props.Encoder

/-! # Pickling and `lighten` -/
namespace Verif

open Spec

variable {F Y P G : Type} [Num F]

/-! ## C41: pickling -/

theorem ObjOK.round_trip {fba : FBA} {train valid : List Nat} {o : TreeObj F P G}
    (ho : ObjOK fba train valid o) (hf : FBALayout fba) {x : TreeExtra F P} (hx : x.train = train ∧ x.valid = valid) (nFeatures : Nat)
    (zeroP : P) (g : PickleGarbage) : setstate zeroP g (getstate (o.dict x nFeatures)) = .ok (o.dict x nFeatures) := by
  obtain ⟨c, hc, rfl⟩ := ho.ctx
  obtain ⟨rfl, rfl⟩ := hx
  have h1 := unserializeTree_same zeroP x.isCls (o.jit x nFeatures) ho.arr.lenN ho.arr.lenP ho.arr.lenB rfl (by
    simp only [TreeObj.jit]; cases x.isCls <;> rfl)
  have h2 := unserializeCtx_same (P := P) g x.isCls (o.ctxJit x c) hf rfl rfl rfl rfl rfl ho.train ho.valid ho.left ho.right (by
    simp only [TreeObj.ctxJit]; cases x.isCls <;> rfl)
  have hv : ∀ (k : String) (v : Val F P), k ≠ "_tree_classifier" → k ≠ "_tree_regressor" → k ≠ "_tree_classifier_context" →
      k ≠ "_tree_regressor_context" → unserialize zeroP g k v = .ok (.val v) := by
    intro k v k1 k2 k3 k4
    unfold unserialize
    rw [if_neg k1, if_neg k2, if_neg k3, if_neg k4]
    rfl
  refine mapM_eq_ok.2 ?_
  unfold getstate
  rw [List.forall₂_map_left_iff]
  have key : ∀ e ∈ o.dict x nFeatures, (do return (e.1, ← unserialize zeroP g e.1 (serialize e.2)) : M (String × PyObj F P)) = .ok e := by
    have hs : ∀ (k : String) (v : Val F P), k ≠ "_tree_classifier" → k ≠ "_tree_regressor" → k ≠ "_tree_classifier_context" →
        k ≠ "_tree_regressor_context" → (do return (k, ← unserialize zeroP g k (serialize (.val v))) : M (String × PyObj F P)) = .ok (k, .val v) := by
      intro k v k1 k2 k3 k4
      rw [show serialize (.val v : PyObj F P) = v from rfl, hv k v k1 k2 k3 k4]
      rfl
    intro e he
    unfold TreeObj.dict at he
    rw [hc] at he
    rcases List.mem_append.1 he with he | he
    · simp only [List.mem_cons, List.not_mem_nil, or_false] at he
      rcases he with rfl | rfl | rfl | he
      · exact hs _ _ (by dsimp only; decide) (by dsimp only; decide) (by dsimp only; decide) (by dsimp only; decide)
      · simp only [unserialize]
        cases hb : x.isCls <;> rw [hb] at h1 <;> simp [h1]
      · simp only [unserialize]
        cases hb : x.isCls <;> rw [hb] at h2 <;> simp [h2]
      · rcases he with rfl | rfl | rfl | rfl | rfl | rfl | rfl | rfl | rfl | rfl | rfl | rfl | rfl | rfl <;>
          exact hs _ _ (by dsimp only; decide) (by dsimp only; decide) (by dsimp only; decide) (by dsimp only; decide)
    · split at he
      · simp only [List.mem_cons, List.not_mem_nil, or_false] at he
        rcases he with rfl | rfl | rfl <;> exact hs _ _ (by dsimp only; decide) (by dsimp only; decide) (by dsimp only; decide) (by dsimp only; decide)
      · simp at he
  exact List.forall₂_same.2 key

/-- **C41** For every tree of a fitted forest, also after any changes of `step` and `dirichlet`, unpickling restores the `__dict__` of the
tree exactly: node table, predictions, category sets, parameters, the packed data and the partitions of the samples. For all floats, and
whatever the uninitialised memory contains. -/
theorem C41_round_trip {R : Rng G} {T : F → Task F Y P G} {fba : FBA} {train valid : List Nat} {o : TreeObj F P G}
    (h : Reached R T fba train valid o) (hf : FBALayout fba) {x : TreeExtra F P} (hx : x.train = train ∧ x.valid = valid) (nFeatures : Nat)
    (zeroP : P) (g : PickleGarbage) : setstate zeroP g (getstate (o.dict x nFeatures)) = .ok (o.dict x nFeatures) :=
  h.ok.round_trip hf hx nFeatures zeroP g

/-- **C41** The `__dict__` holds everything that the methods of the tree use. -/
theorem C41_dict_is_complete {R : Rng G} {T : F → Task F Y P G} {fba : FBA} {train valid : List Nat} {o : TreeObj F P G}
    (h : Reached R T fba train valid o) (x : TreeExtra F P) (nFeatures : Nat) (w : Work G) :
    ∃ o', treeOf w o.dirichlet (o.dict x nFeatures) = .ok o' ∧ SameAttrs o o' := by
  obtain ⟨c, hc, -⟩ := h.ok.ctx
  refine ⟨{ o with work := { w with partTrain := o.work.partTrain, partValid := o.work.partValid, leftBuf := o.work.leftBuf, rightBuf := o.work.rightBuf } },
    ?_, ⟨rfl, rfl, rfl, rfl, rfl, rfl, rfl, rfl, rfl⟩⟩
  unfold treeOf TreeObj.dict
  rw [hc]
  cases hb : x.isCls
  · simp [TreeDict.attr, List.lookup, TreeObj.jit, TreeObj.ctxJit]
  · simp [TreeDict.attr, List.lookup, TreeObj.jit, TreeObj.ctxJit]

/-- **C41** Trees with the same attributes behave in the same way: predictions, leaves, and later changes of `step` and `dirichlet`, which
give trees with the same attributes again. -/
theorem C41_same_behaviour {o o' : TreeObj F P G} (h : SameAttrs o o') :
    (∀ mix fba, o.predict mix fba = o'.predict mix fba) ∧ (∀ fba, treeApply o.arr fba = treeApply o'.arr fba) ∧
    (∀ v, SameResult SameAttrs (o.setStep v) (o'.setStep v)) ∧
    ∀ (T : F → Task F Y P G) v, SameResult SameAttrs (o.setDirichlet T v) (o'.setDirichlet T v) := by
  obtain ⟨arr, agg, st, di, ctx, pt, pv, lb, rb, po, sa, rn⟩ := o
  obtain ⟨arr', agg', st', di', ctx', pt', pv', lb', rb', po', sa', rn'⟩ := o'
  obtain ⟨h1, h2, h3, h4, h5, h6, h7, h8, h9⟩ := h
  simp only at h1 h2 h3 h4 h5 h6 h7 h8 h9
  subst h1 h2 h3 h4 h5 h6 h7 h8 h9
  refine ⟨fun _ _ => rfl, fun _ => rfl, fun v => ?_, fun T v => ?_⟩
  · unfold TreeObj.setStep
    dsimp only
    split
    · cases ctx with
      | none => rfl
      | some c =>
        dsimp only
        split
        · exact SameResult.same.bind fun a b hab => hab ▸ SameResult.pure ⟨rfl, rfl, rfl, rfl, rfl, rfl, rfl, rfl, rfl⟩
        · exact SameResult.ok ⟨rfl, rfl, rfl, rfl, rfl, rfl, rfl, rfl, rfl⟩
    · exact SameResult.ok ⟨rfl, rfl, rfl, rfl, rfl, rfl, rfl, rfl, rfl⟩
  · unfold TreeObj.setDirichlet
    dsimp only
    split
    · cases ctx with
      | none => rfl
      | some c =>
        dsimp only
        have e : ∀ t, recomputePredictions (T v) c ⟨pt, pv, lb, rb, po, sa, rn⟩ t = recomputePredictions (T v) c ⟨pt, pv, lb, rb, po', sa', rn'⟩ t := fun t => rfl
        rw [e]
        exact SameResult.same.bind fun a b hab => hab ▸ SameResult.pure ⟨rfl, rfl, rfl, rfl, rfl, rfl, rfl, rfl, rfl⟩
    · exact SameResult.ok ⟨rfl, rfl, rfl, rfl, rfl, rfl, rfl, rfl, rfl⟩

/-- **C41** All trees of a fitted forest, after any history of changes of `step` and `dirichlet`, are of this kind. -/
theorem C41_forest {R : Rng G} {T : F → Task F Y P G} {fba : FBA} {f0 f : ForestObj F P G} {run : ForestObj F P G → M (ForestObj F P G)}
    (hrun : ∃ draw depth c gb seeds, c.fba = fba ∧ (run = ForestObj.fit R T draw depth c gb seeds ∨
      ∃ E ys ws, run = ForestObj.fitOvr R T draw depth c gb E ys ws seeds))
    (hfit : run f0 = .ok f) {hist : List (Change F)} {f' : ForestObj F P G} (hh : hist.foldlM (Change.apply T) f = .ok f') :
    ∃ ts, f'.trees = some ts ∧ ∀ o ∈ ts, ∃ train valid, Reached R T fba train valid o := by
  refine foldlM_inv_of_ok (I := fun _ (f : ForestObj F P G) => ∃ ts, f.trees = some ts ∧ ∀ o ∈ ts, ∃ train valid, Reached R T fba train valid o) ?_ hh ?_
  · obtain ⟨draw, depth, c, gb, seeds, hc, hr⟩ := hrun
    rcases hr with rfl | ⟨E, ys, ws, rfl⟩
    · unfold ForestObj.fit at hfit
      split at hfit
      · exact absurd hfit (by simp)
      · rw [bind_eq_ok] at hfit
        obtain ⟨ts, h1, h2⟩ := hfit
        injection h2 with h2
        subst h2
        refine ⟨ts, rfl, fun o ho => ?_⟩
        obtain ⟨_, h3⟩ := fitForest_inv h1
        obtain ⟨s, i, _, h4⟩ := h3 o ho
        exact buildTree_reached (by exact hc) h4
    · unfold ForestObj.fitOvr at hfit
      split at hfit
      · exact absurd hfit (by simp)
      · rw [bind_eq_ok] at hfit
        obtain ⟨ts, h1, h2⟩ := hfit
        injection h2 with h2
        subst h2
        refine ⟨ts, rfl, fun o ho => ?_⟩
        unfold fitOvr at h1
        obtain ⟨⟨sd, i⟩, hi, hb⟩ := mapM_mem_inv h1 ho
        rw [bind_eq_ok] at hb
        obtain ⟨y, hy, hb⟩ := hb
        rw [bind_eq_ok] at hb
        obtain ⟨w, hw, hb⟩ := hb
        exact buildTree_reached (by exact hc) hb
  · rintro pre ch post s s1 - ⟨ts, h1, h2⟩ he
    cases ch with
    | step v =>
      simp only [Change.apply, ForestObj.setStep, h1] at he
      split at he
      · exact absurd he (by simp)
      · rw [bind_eq_ok] at he
        obtain ⟨ts', h3, h4⟩ := he
        injection h4 with h4
        subst h4
        refine ⟨ts', rfl, fun o ho => ?_⟩
        obtain ⟨o1, h5, h6⟩ := mapM_mem_inv h3 ho
        obtain ⟨train, valid, h7⟩ := h2 o1 h5
        exact ⟨train, valid, h7.step h6⟩
    | dirichlet v =>
      simp only [Change.apply, ForestObj.setDirichlet, h1] at he
      split at he
      · exact absurd he (by simp)
      · split at he
        · rw [bind_eq_ok] at he
          obtain ⟨ts', h3, h4⟩ := he
          injection h4 with h4
          subst h4
          refine ⟨ts', rfl, fun o ho => ?_⟩
          obtain ⟨o1, h5, h6⟩ := mapM_mem_inv h3 ho
          obtain ⟨train, valid, h7⟩ := h2 o1 h5
          exact ⟨train, valid, h7.dirichlet h6⟩
        · injection he with he
          subst he
          exact ⟨ts, rfl, h2⟩

/-- **C41** The encoder makes datasets with the lengths that `C41_round_trip` asks for. -/
theorem C41_encoder {N V K : Type} [DecidableEq N] [DecidableEq V] [LinearOrder K] [Field K] {cv : Conv V K} {cfg : EncCfg K} {enc : List (FitCol V K)}
    {garbage : Nat → Word} {nSamples : Nat} {X : Dataset N V} {fba : FBA} (h : encoderTransform cv cfg enc garbage nSamples X = .ok fba) :
    FBALayout fba := by
  cases X with
  | frame X =>
    revert fba
    change Post FBALayout (transformDataFrame cv cfg enc garbage nSamples X)
    unfold transformDataFrame
    split
    · exact Post.error
    · refine (Post.trivial _).bind fun ms _ => Post.foldlM _ (layout_init _ _ _) fun b p hb => ?_
      exact (Post.trivial _).bind fun _ _ => (Post.trivial _).bind fun _ _ => (Post.trivial _).bind fun _ _ => fillColumn_layout hb _ _
  | array kind X =>
    revert fba
    change Post FBALayout (transformArray cv cfg enc garbage nSamples kind X)
    unfold transformArray
    split
    · exact Post.error
    · split
      · exact Post.error
      · refine (Post.trivial _).bind fun ms _ => Post.foldlM _ (layout_init _ _ _) fun b p hb => ?_
        refine (Post.trivial _).bind fun _ _ => (Post.trivial _).bind fun _ _ => (Post.trivial _).bind fun _ _ => ?_
        split <;> exact (Post.trivial _).bind fun _ _ => fillColumn_layout hb _ _

/-! ## C42: `lighten` -/

/-- **C42** After `lighten`, a tree gives the same predictions, leaves and weighted depths on all data. Missing: it cannot be unpickled any
more, see `C42_violated`. -/
theorem C42_tree_partial {R : Rng G} {T : F → Task F Y P G} {fba : FBA} {train valid : List Nat} {o : TreeObj F P G}
    (h : Reached R T fba train valid o) (data : FBA) :
    (∀ mix, o.lighten.predict mix data = o.predict mix data) ∧ treeApply o.lighten.arr data = treeApply o.arr data ∧
    ∀ step i, weightedDepthRow o.lighten.arr data step i = weightedDepthRow o.arr data step i := by
  have ho := h.ok
  refine ⟨fun mix => ?_, ?_, fun step i => weightedDepthRow_light ho.arr ho.pos data step i⟩
  · exact congrArg (fun f => (List.range data.nSamples).mapM f) (funext fun i => predictRow_light ho.arr ho.pos mix data o.aggregation o.step i)
  · exact congrArg (fun f => (List.range data.nSamples).mapM f) (funext fun i => (findLeaf_light ho.arr ho.pos data i).1)

/-- **C42** After `lighten`, a regressor gives the same predictions. Missing: see `C42_violated`. -/
theorem C42_regressor_partial {R : Rng G} {T : F → Task F Y F G} {fba : FBA} {ts : List (TreeObj F F G)}
    (h : ∀ o ∈ ts, ∃ train valid, Reached R T fba train valid o) (data : FBA) :
    forestPredict (ts.map TreeObj.lighten) data = forestPredict ts data := by
  unfold forestPredict
  rw [List.foldlM_map, List.length_map]
  refine congrArg (· >>= _) (foldlM_congr_mem fun o ho s => ?_)
  obtain ⟨_, _, hr⟩ := h o ho
  rw [(C42_tree_partial hr data).1]

/-- **C42** After `lighten`, a classifier gives the same probabilities, in both modes, and so the same labels. Missing: see
`C42_violated`. -/
theorem C42_classifier_partial {R : Rng G} {T : F → Task F Y (List F) G} {fba : FBA} {ts : List (TreeObj F (List F) G)}
    (h : ∀ o ∈ ts, ∃ train valid, Reached R T fba train valid o) (data : FBA) (nClasses : Nat) :
    predictProba nClasses (ts.map TreeObj.lighten) data = predictProba nClasses ts data ∧
    ∀ eps nEstimators, predictProbaOvr eps nClasses nEstimators (ts.map TreeObj.lighten) data = predictProbaOvr eps nClasses nEstimators ts data := by
  constructor
  · unfold predictProba accumulateProba
    rw [List.foldlM_map, List.length_map]
    refine congrArg (· >>= _) (foldlM_congr_mem fun o ho s => ?_)
    obtain ⟨_, _, hr⟩ := h o ho
    rw [(C42_tree_partial hr data).1]
  · intro eps m
    unfold predictProbaOvr
    rw [List.zipIdx_map, List.foldlM_map]
    refine congrArg (· >>= _) (foldlM_congr_mem fun x hx s => ?_)
    obtain ⟨o, i⟩ := x
    obtain ⟨_, _, hr⟩ := h o (by simpa using (List.mem_zipIdx hx).2.2 ▸ List.getElem_mem _)
    simp only [Prod.map, (C42_tree_partial hr data).1]
    rfl

/-- **C42** A lightened tree cannot be unpickled, whatever the tree: `__setstate__` raises ValueError or TypeError. -/
theorem C42_violated (o : TreeObj F P G) (x : TreeExtra F P) (nFeatures : Nat) (zeroP : P) (g : PickleGarbage) :
    setstate zeroP g (getstate (o.lighten.dict x nFeatures)) = .error .valueError ∨
    setstate zeroP g (getstate (o.lighten.dict x nFeatures)) = .error .typeError := by
  unfold setstate getstate TreeObj.dict
  simp only [List.cons_append, List.map_cons, List.mapM_cons]
  have h0 : unserialize zeroP g "is_classifier" (serialize (.val (.bool x.isCls) : PyObj F P)) = .ok (.val (.bool x.isCls)) := rfl
  have h2 : ∀ b : Bool, unserialize zeroP g (if b then "_tree_classifier_context" else "_tree_regressor_context")
      (serialize (.val .none : PyObj F P)) = .error .typeError := by
    intro b; cases b <;> rfl
  rw [h0, bind_ok]
  have hctx : o.lighten.ctx = none := rfl
  rw [hctx]
  simp only [h2]
  have h1 : ∀ e, unserialize zeroP g (if x.isCls then "_tree_classifier" else "_tree_regressor") (serialize (.tree (o.lighten.jit x nFeatures))) = .error e →
      e = .valueError := by
    intro e he
    cases hx : x.isCls <;> rw [hx] at he
    · have he' : (do return .tree (← unserializeTree zeroP false (serialize (.tree (o.lighten.jit x nFeatures)))) : M (PyObj F P)) = .error e := he
      cases hu : unserializeTree zeroP false (serialize (.tree (o.lighten.jit x nFeatures))) with
      | error e1 =>
        rw [hu] at he'
        injection he' with he'
        exact he' ▸ unserializeTree_error zeroP false _ (by simp [TreeObj.jit, hx]) _ hu
      | ok t =>
        rw [hu] at he'
        exact absurd he' (by simp [pure, Except.pure, bind, Except.bind])
    · have he' : (do return .tree (← unserializeTree zeroP true (serialize (.tree (o.lighten.jit x nFeatures)))) : M (PyObj F P)) = .error e := he
      cases hu : unserializeTree zeroP true (serialize (.tree (o.lighten.jit x nFeatures))) with
      | error e1 =>
        rw [hu] at he'
        injection he' with he'
        exact he' ▸ unserializeTree_error zeroP true _ (by simp [TreeObj.jit, hx]) _ hu
      | ok t =>
        rw [hu] at he'
        exact absurd he' (by simp [pure, Except.pure, bind, Except.bind])
  cases hu : unserialize zeroP g (if x.isCls then "_tree_classifier" else "_tree_regressor") (serialize (.tree (o.lighten.jit x nFeatures))) with
  | error e => left; rw [h1 e hu]; rfl
  | ok t => right; rfl

/-- **C42** The parameters of a lightened forest with at least one tree cannot be changed: AttributeError. -/
theorem C42_setters (T : F → Task F Y P G) (f : ForestObj F P G) (o : TreeObj F P G) (ts : List (TreeObj F P G)) (hf : f.trees = some (o :: ts)) (v : F) :
    (Num.le v Num.zero = false → neF o.step v = true → f.lighten.setStep v = .error .attributeError) ∧
    (Num.lt v Num.zero = false → neF f.dirichlet v = true → neF v o.dirichlet = true → f.lighten.setDirichlet T v = .error .attributeError) := by
  constructor
  · intro h1 h2
    simp only [ForestObj.setStep, h1, ForestObj.lighten, hf, Option.map_some, List.map_cons, List.mapM_cons]
    have : TreeObj.setStep v o.lighten = .error .attributeError := by
      unfold TreeObj.setStep
      rw [show o.lighten.step = o.step from rfl, h2]
      rfl
    rw [this]
    rfl
  · intro h1 h2 h3
    simp only [ForestObj.setDirichlet, h1, ForestObj.lighten, hf, h2, Option.map_some, List.map_cons, List.mapM_cons]
    have : TreeObj.setDirichlet T v o.lighten = .error .attributeError := by
      unfold TreeObj.setDirichlet
      rw [show o.lighten.dirichlet = o.dirichlet from rfl, h3]
      rfl
    rw [this]
    rfl

/-! ## The hypotheses can be met -/

/-- A classification tree on the samples `realTrain` and `realValid` of a packed dataset, after a change of `step`. -/
example : ∃ (fba : FBA) (o : TreeObj ℝ (List ℝ) Nat), FBALayout fba ∧ o.step = 2 ∧ o.aggregation = true ∧
    Reached toyRng (fun d => classifierTask toyRng realArgsort 2 d .gini .all) fba realTrain realValid o := by
  have hS : StrategyOK 2 .all := by unfold StrategyOK; decide
  obtain ⟨fba, h1, h2⟩ := real_input_matrix (ClassLabel 2) (fun _ h => h)
  obtain ⟨arr, w, t, h3, -⟩ := fitTree_spec toyRng (classifier_safe toyRng realArgsort_sorts.1 2 (1 / 2) .gini hS) realGarbage 3 h2
  have h4 : TreeObj.fit toyRng (fun d => classifierTask toyRng realArgsort 2 d .gini .all) (realCtx fba) realGarbage 3 (1 / 2) realTrain realValid =
      .ok ⟨arr, true, 1, 1 / 2, some (realCtx fba), w⟩ := by
    unfold TreeObj.fit
    rw [h3]
    rfl
  obtain ⟨o, f', h5, h6, h7⟩ := setStep_fit' (v := 2) realArgsort_sorts.1 hS h2 (SameTree.refl _) h4
  refine ⟨fba, o, arrayToBitarray_layout h1, ?_, ?_, (Reached.fit rfl h4).step h5⟩
  · unfold TreeObj.setStep at h5
    rw [if_pos (by simp [neF, Num.le])] at h5
    simp only [realCtx, if_true] at h5
    rw [bind_eq_ok] at h5
    obtain ⟨_, _, h5⟩ := h5
    injection h5 with h5
    rw [← h5]
  · unfold TreeObj.setStep at h5
    rw [if_pos (by simp [neF, Num.le])] at h5
    simp only [realCtx, if_true] at h5
    rw [bind_eq_ok] at h5
    obtain ⟨_, _, h5⟩ := h5
    injection h5 with h5
    rw [← h5]

/-- A forest for `C41_forest`, `C42_classifier_partial` and `C42_setters`. -/
example : ∃ (c : Ctx ℝ) (o1 o2 : TreeObj ℝ (List ℝ) Nat), ForestObj.fit toyRng (fun d => classifierTask toyRng realArgsort 2 d .gini .all) realDraw 1 c
    (fun _ => realGarbage) [3, 8] ⟨1, 1 / 2, true, none⟩ = .ok ⟨1, 1 / 2, true, some [o1, o2]⟩ ∧
    neF o1.step 2 = true ∧ neF 3 o1.dirichlet = true := by
  obtain ⟨c, f, h1, h2, h3, h4⟩ := real_forest_fit ⟨1, 1 / 2, true, none⟩ (fun _ => by norm_num)
  have h5 := h4
  unfold ForestObj.fit at h5
  split at h5
  · exact absurd h5 (by simp)
  rw [bind_eq_ok] at h5
  obtain ⟨ts, h6, h7⟩ := h5
  injection h7 with h7
  obtain ⟨l1, l2⟩ := fitForest_inv h6
  match ts, l1 with
  | [o1, o2], _ =>
    refine ⟨c, o1, o2, by rw [h4, ← h7], ?_⟩
    obtain ⟨s, i, _, hb⟩ := l2 o1 (by simp)
    unfold buildTree at hb
    rw [bind_eq_ok] at hb
    obtain ⟨b, _, hb⟩ := hb
    rw [bind_eq_ok] at hb
    obtain ⟨w, _, hb⟩ := hb
    unfold TreeObj.fit at hb
    rw [bind_eq_ok] at hb
    obtain ⟨x, _, hb⟩ := hb
    injection hb with hb
    rw [← hb]
    exact ⟨by simp [neF, Num.le], by norm_num [neF, Num.le]⟩

/-- A dataset from the encoder, for `C41_encoder`. -/
example : ∃ fba, encoderTransform exConv (exCfg none) exEnc (fun _ => 0) 3 exFrame = .ok fba ∧ FBALayout fba := by
  obtain ⟨h1, h2, h3, -⟩ := exFrame_ok
  obtain ⟨fba, h⟩ := (C06_transform_correct exFrame_fitted (by simp [exCfg]) h2 (by norm_num) h1 (fun _ => 0)).1 h3
  exact ⟨fba, h, C41_encoder h⟩

end Verif
