import Verif.Proofs.DirSetter
import Verif.Spec.Setters

set_option linter.unusedSectionVars false

/-! Changing `dirichlet` after `fit` is fitting with that value. -/
namespace Verif

open Spec

theorem classW_perm {D : Data ℝ} {l l' : List Nat} (h : l.Perm l') (k : Nat) : classW D l k = classW D l' k := by
  unfold classW
  exact ((h.filter _).map _).sum_eq

theorem totalW_perm {D : Data ℝ} {l l' : List Nat} (h : l.Perm l') : totalW D l = totalW D l' := (h.map _).sum_eq

theorem Final.root {F Y P G : Type} {w : Work G} {t : GTree F Y P} (h : Final w t) :
    (slice w.partTrain t.root.rcd.sT t.root.rcd.eT).Perm t.root.train ∧ (slice w.partValid t.root.rcd.sV t.root.rcd.eV).Perm t.root.valid := by
  cases t with
  | leaf a => exact h
  | node a l r => exact ⟨h.1, h.2.1⟩

section
variable {G : Type} {R : Rng G} {argsort : List ℝ → List Nat} {n : Nat} {cr : Criterion} {st : CatStrategy} {c : Ctx ℝ} {D : Data ℝ}
  {gb : Garbage ℝ} {seed : Nat} {train valid : List Nat} {okP : List ℝ → Prop}

/-- What `fit` stores for a node is what `recompute_node_predictions` computes for it. -/
theorem stable_class {v : ℝ} {arr : TreeArr ℝ (List ℝ)} {w : Work G} {t : GTree ℝ (List ℝ) (List ℝ)}
    (h : Fitted R (classifierTask R argsort n v cr st) c D (ClassLabel n) okP gb seed train valid arr w t) :
    Stable (classifierTask R argsort n v cr st) c.aggregation D w arr := by
  have key : ∀ (j : Nat) m, j < arr.nodeCount → arr.nodes[j]? = some m → ∃ u, SubAt t 0 u j ∧ HoldsNode arr arr.bpEnd j u.root m := by
    intro j m hj hm
    obtain ⟨u, hu⟩ := exists_subAt t 0 j (Nat.zero_le _) (by rw [h.count] at hj; omega)
    obtain ⟨m', hm'⟩ := (h.repr.sub hu).root
    have := hm'.entry
    rw [hm] at this
    injection this with this
    subst this
    exact ⟨u, hu, hm'⟩
  refine ⟨by rw [h.count, h.lenN.1]; exact h.lenN.2, fun j m hj hm i hi => ?_, fun j m hj hm i hi => ?_, fun j m hj hm => ?_⟩
  · obtain ⟨u, hu, hn⟩ := key j m hj hm
    obtain ⟨_, _, _, _, _, _, e1, e2, _⟩ := hn.fields
    rw [e1, e2] at hi
    exact ((h.ok.sub hu).facts.okTrain i ((h.final.sub hu).root.1.mem_iff.1 hi)).1
  · obtain ⟨u, hu, hn⟩ := key j m hj hm
    obtain ⟨_, _, _, _, _, _, _, _, e1, e2, _⟩ := hn.fields
    rw [e1, e2] at hi
    exact ((h.ok.sub hu).facts.okValid i ((h.final.sub hu).root.2.mem_iff.1 hi)).1
  · obtain ⟨u, hu, hn⟩ := key j m hj hm
    obtain ⟨_, _, _, _, _, _, e1, e2, e3, e4, _⟩ := hn.fields
    obtain ⟨p1, p2⟩ := (h.final.sub hu).root
    have hf := (h.ok.sub hu).facts
    obtain ⟨feats, _, hok, _⟩ := hf.stats
    have hT : ∀ i ∈ u.root.train, ClassLabel n (D.y i) := fun i hi => (hf.okTrain i hi).2
    have hV : ∀ i ∈ u.root.valid, ClassLabel n (D.y i) := fun i hi => (hf.okValid i hi).2
    have hpred := hok.yPred
    rw [nodePred_class R hT] at hpred
    injection hpred with hpred
    refine ⟨_, hn.pred, ?_, ?_⟩
    · rw [e1, e2, nodePred_class R (fun i hi => hT i (p1.mem_iff.1 hi)), ← hpred]
      congr 1
      unfold classPred
      simp only [classW_perm p1, totalW_perm p1]
    · have hlen : u.root.nc.yPred.length = n := by rw [← hpred]; exact classPred_length
      rw [e3, e4, nodeLoss_class R (fun i hi => hV i (p2.mem_iff.1 hi)) hlen]
      refine ⟨_, rfl, fun ha => ?_⟩
      have hloss := hok.loss
      rw [if_pos ha, nodeLoss_class R hV hlen] at hloss
      injection hloss with hloss
      rw [hn.isLeaf.2, ← hloss]
      exact (p2.map _).sum_eq

theorem neF_real {a b : ℝ} : neF a b = false ↔ a = b := by
  unfold neF
  simp only [Bool.not_eq_false', Bool.and_eq_true, Num.le, decide_eq_true_eq]
  exact ⟨fun h => le_antisymm h.1 h.2, fun h => ⟨h.le, h.ge⟩⟩

theorem SameTree.refl {F P G : Type} [Num F] (o : TreeObj F P G) : SameTree o o := ⟨rfl, rfl, fun _ _ => rfl, fun _ => rfl⟩

theorem TreeObj.fit_ok {F Y P : Type} [Num F] {T : F → Task F Y P G} {c : Ctx F} {gb : Garbage F} {d : F} {o : TreeObj F P G} :
    TreeObj.fit R T c gb seed d train valid = .ok o ↔ ∃ arr w, fitTree R (T d) c gb seed train valid = .ok (arr, w) ∧
      o = { arr := arr, aggregation := c.aggregation, step := c.step, dirichlet := d, ctx := some c, work := w } := by
  unfold TreeObj.fit
  rw [bind_eq_ok]
  constructor
  · rintro ⟨⟨arr, w⟩, h1, h2⟩
    simp only [pure_eq_ok] at h2
    injection h2 with h2
    exact ⟨arr, w, h1, h2.symm⟩
  · rintro ⟨arr, w, h1, rfl⟩
    exact ⟨⟨arr, w⟩, h1, rfl⟩

/-- The weights that `fit` has stored are a fixed point of `compute_tree_weights`, also when they are erased. -/
theorem refit_weights {F Y P : Type} [Num F] {T : Task F Y P G} {lab : F → Prop} {okY : Y → Prop} {okP : P → Prop} {c : Ctx F} {D : Data F}
    {gb : Garbage F} (hT : TaskSafe T lab okY okP)
    (h : FitInput c D lab train valid) (ha : c.aggregation = true) {arr : TreeArr F P} {w : Work G}
    (hf : fitTree R T c gb seed train valid = .ok (arr, w)) {ns : List (Node F)} (hs : SameBut arr.nodes ns)
    (hout : ∀ j : Nat, arr.nodeCount ≤ j → ns[j]? = arr.nodes[j]?) : computeTreeWeights ns arr.nodeCount c.step = .ok arr.nodes := by
  obtain ⟨t, hF⟩ := fitted_of hT h hf
  obtain ⟨s, r1, r2, hcase⟩ := fitTree_raw hf
  rcases hcase with ⟨_, ns0, e1, rfl, e3⟩ | ⟨hb, _⟩
  · have hcount : s.tree.nodeCount = t.size := hF.count
    have hrep : Repr s.tree s.tree.bpEnd t 0 := Repr.sameBut (arr := { s.tree with nodes := ns0 }) e3.symm hF.repr
    obtain ⟨ns1, q1, q2⟩ := weights_eq c.step hF.ok.shape hrep (ns := ns) (e3.trans hs) (fun j hj => by
      rw [hout j (by rw [hF.count]; exact hj)]; exact weights_out e1 j (by rw [hcount]; exact hj))
    rw [hcount] at e1
    rw [e1] at q1
    injection q1 with q1
    simp only
    rw [hcount, q2, q1]
  · rw [ha] at hb; exact absurd hb (by simp)

/-- Setting `dirichlet` on a tree that is equal to a fitted one is fitting with that value. -/
theorem setDirichlet_fit (hA : ArgsortPerm argsort) (hS : StrategyOK n st) (h : FitInput c D (ClassLabel n) train valid) {d v : ℝ}
    {o f : TreeObj ℝ (List ℝ) G} (ho : SameTree o f)
    (hf : TreeObj.fit R (fun d => classifierTask R argsort n d cr st) c gb seed d train valid = .ok f) :
    ∃ o' f', o.setDirichlet (fun d => classifierTask R argsort n d cr st) v = .ok o' ∧
      TreeObj.fit R (fun d => classifierTask R argsort n d cr st) c gb seed v train valid = .ok f' ∧ SameTree o' f' := by
  obtain ⟨arr, w, h1, rfl⟩ := TreeObj.fit_ok.1 hf
  have hod : o.dirichlet = d := congrArg TreeObj.dirichlet ho.rest
  have hoc : o.ctx = some c := congrArg TreeObj.ctx ho.rest
  have how : o.work = w := congrArg TreeObj.work ho.rest
  have hoa : o.aggregation = c.aggregation := congrArg TreeObj.aggregation ho.rest
  have hos : o.step = c.step := congrArg TreeObj.step ho.rest
  unfold TreeObj.setDirichlet
  rw [hod]
  cases hne : neF v d with
  | false =>
    obtain rfl := neF_real.1 hne
    exact ⟨o, _, rfl, hf, ho⟩
  | true =>
    have hsafe := classifier_safe R hA n v cr hS
    obtain ⟨arr', w', t, h2, hF⟩ := fitTree_spec R hsafe gb seed h
    obtain ⟨rfl, hnear⟩ := fits_near (T := classifierTask R argsort n d cr st) (e := finishClassPred n v) h1 h2
    have hno : Near c.aggregation [] o.arr arr' := by
      cases ha : c.aggregation with
      | true =>
        rw [ho.agg (by rw [hoa, ha])]
        rw [ha] at hnear
        exact hnear
      | false =>
        rw [ha] at hnear
        exact hnear.ofLoss ho.nodes (fun j hj => ho.unused j (by
          have : o.arr.nodeCount = arr.nodeCount := congrArg (fun o => o.arr.nodeCount) ho.rest
          rw [this]; exact hj)) (congrArg TreeObj.arr ho.rest)
    obtain ⟨t2, r1, r2⟩ := recompute_near h.holds (stable_class hF) hno
    obtain ⟨d1, d2⟩ := r2.done
    simp only [if_true, hoc, how]
    unfold recomputePredictions
    rw [r1, bind_ok]
    rw [hoa, hos]
    refine ⟨{ arr := if c.aggregation then { t2 with nodes := arr'.nodes } else t2, aggregation := c.aggregation, step := c.step, dirichlet := v, ctx := some c, work := w' },
      _, ?_, TreeObj.fit_ok.2 ⟨arr', w', h2, rfl⟩, ?_⟩
    · cases ha : c.aggregation with
      | true =>
        obtain ⟨s1, s2⟩ := d2 ha
        rw [r2.count]
        rw [if_pos rfl, refit_weights hsafe h ha h2 s1 s2, bind_ok, pure_eq_ok, bind_ok, pure_eq_ok, if_pos rfl]
      | false => rfl
    · have hrest : { t2 with nodes := arr'.nodes } = arr' := by
        have e1 := r2.count; have e2 := r2.capacity; have e3 := r2.binParts; have e4 := r2.bpCapacity; have e5 := r2.bpEnd
        obtain ⟨a1, a2, a3, a4, a5, a6, a7⟩ := t2
        obtain ⟨b1, b2, b3, b4, b5, b6, b7⟩ := arr'
        simp only at e1 e2 e3 e4 e5 d1 ⊢
        subst e1 e2 e3 e4 e5 d1
        rfl
      cases ha : c.aggregation with
      | true =>
        simp only [if_true, hrest]
        exact SameTree.refl _
      | false =>
        simp only [Bool.false_eq_true, if_false]
        refine ⟨by simp only [hrest], ?_, fun j hj => ?_, fun h0 => absurd h0 (by simp)⟩
        · apply List.ext_getElem?
          intro j
          simp only [List.getElem?_map]
          by_cases hl : j < arr'.nodes.length
          · obtain ⟨x, y, e, q1, _, _⟩ := r2.nodes j _ (List.getElem?_eq_getElem hl)
            rw [e, List.getElem?_eq_getElem hl]
            simp only [Option.map_some, noLoss, q1 ha]
          · have := r2.lenN
            rw [List.getElem?_eq_none (l := t2.nodes) (by omega), List.getElem?_eq_none (l := arr'.nodes) (by omega)]
        · simp only at hj ⊢
          rw [r2.count] at hj
          by_cases hl : j < arr'.nodes.length
          · obtain ⟨x, y, e, _, q2, _⟩ := r2.nodes j _ (List.getElem?_eq_getElem hl)
            obtain ⟨rfl, rfl⟩ := q2 hj
            rw [e, List.getElem?_eq_getElem hl]
          · have := r2.lenN
            rw [List.getElem?_eq_none (l := t2.nodes) (by omega), List.getElem?_eq_none (l := arr'.nodes) (by omega)]

/-- Setting `step` on a tree that is equal to a fitted one is fitting with that value. -/
theorem setStep_fit' (hA : ArgsortPerm argsort) (hS : StrategyOK n st) (h : FitInput c D (ClassLabel n) train valid) {d v : ℝ}
    {o f : TreeObj ℝ (List ℝ) G} (ho : SameTree o f)
    (hf : TreeObj.fit R (fun d => classifierTask R argsort n d cr st) c gb seed d train valid = .ok f) :
    ∃ o' f', o.setStep v = .ok o' ∧
      TreeObj.fit R (fun d => classifierTask R argsort n d cr st) { c with step := v } gb seed d train valid = .ok f' ∧ SameTree o' f' := by
  obtain ⟨f', e1, e2⟩ := setStep_fit (T := fun d => classifierTask R argsort n d cr st) (classifier_safe R hA n d cr hS) h hf (v := v) (fun h0 => neF_real.1 h0)
  cases ha : o.aggregation with
  | true => rw [ho.agg ha]; exact ⟨f', f', e1, e2, SameTree.refl _⟩
  | false =>
    obtain ⟨arr, w, h1, rfl⟩ := TreeObj.fit_ok.1 hf
    have hoc : o.ctx = some c := congrArg TreeObj.ctx ho.rest
    have hoa : o.aggregation = c.aggregation := congrArg TreeObj.aggregation ho.rest
    have hos : o.step = c.step := congrArg TreeObj.step ho.rest
    have hca : c.aggregation = false := hoa.symm.trans ha
    unfold TreeObj.setStep at e1 ⊢
    rw [hos]
    simp only at e1
    cases hne : neF c.step v with
    | false =>
      rw [hne] at e1
      injection e1 with e1
      subst e1
      exact ⟨o, _, rfl, e2, ho⟩
    | true =>
      simp only [hne, if_true, hca, Bool.false_eq_true, if_false] at e1
      injection e1 with e1
      subst e1
      refine ⟨{ o with step := v, ctx := some { c with step := v } }, _, by simp [hoc, hca], e2, ?_, ho.nodes, ho.unused, fun h0 => ?_⟩
      · have := ho.rest
        simp only at this ⊢
        obtain ⟨a1, a2, a3, a4, a5, a6⟩ := o
        simp only [TreeObj.mk.injEq] at this ⊢
        simp [this, hca]
      · simp only [ha] at h0
        exact absurd h0 (by simp)

end

end Verif
