import Verif.Proofs.Inspect
import Verif.Proofs.EndForest
import Verif.Props.Grow

/-! Lemmas about `apply` and the per-tree predictions of a forest. -/
set_option linter.unusedSectionVars false
namespace Verif

open Spec

section
variable {L V K G W N : Type} [LinearOrder L] [DecidableEq V] [DecidableEq N] [LinearOrder K] [Field K] [IsStrictOrderedRing K] [FloorSemiring K]

theorem FitFacts.apply_tree {Y P : Type} {lib : Lib V K ℝ G W} {a : FitArgs N V} {p : FitData ℝ Y P G} {lab : ℝ → Prop} {okW : List ℝ → Prop}
    {e e' : Est L V K ℝ P G} (h : FitFacts lib a p lab okW e e') (hT : ValidTask (p.task e.dirichlet) lab) (hlib : LibOK lib a.nRows) {fba : FBA}
    (hx : RowsOK fba (nCols a.X)) {o : TreeObj ℝ P G} (ho : o ∈ e'.trees) :
    ∃ l, treeApply o.arr fba = .ok l ∧ l.length = fba.nSamples ∧ ∀ i k, l[i]? = some k → LeafOfRow o.arr (binsOf fba i) k := by
  obtain ⟨c, gb, seed, D, hin, hlen, hn, hdd, -, -, -, hbt⟩ := h.trees o ho
  obtain ⟨bt, w, hB⟩ := buildTree_inv (D := D) (by rw [hn]; exact hlib.boot) hin hlen hbt
  have key : ∀ i, i < fba.nSamples → ∃ k, findLeaf o.arr fba i = .ok k ∧ LeafOfRow o.arr (binsOf fba i) k := by
    intro i hi
    obtain ⟨k, n, h1, h2, h3, h4, -, h5⟩ := C23_apply_total hT hB.input hB.fit fba i (binsOf fba i) fun j hj => by
      refine binsOf_row hx hi j ?_
      rw [← hdd]; exact hj
    exact ⟨k, h1, ⟨n, h2, h3⟩, h4, h5⟩
  obtain ⟨f, hf⟩ : ∃ f : Nat → Nat, ∀ i, i < fba.nSamples → findLeaf o.arr fba i = .ok (f i) ∧ LeafOfRow o.arr (binsOf fba i) (f i) :=
    ⟨fun i => if hi : i < fba.nSamples then (key i hi).choose else 0, fun i hi => by simp only [dif_pos hi]; exact (key i hi).choose_spec⟩
  refine ⟨(List.range fba.nSamples).map f, mapM_range_eq (fun i hi => (hf i hi).1), by simp, fun i k hk => ?_⟩
  obtain ⟨hi, rfl⟩ := List.getElem?_eq_some_iff.1 hk
  simp only [List.getElem_map, List.getElem_range]
  exact (hf i (by simpa using hi)).2

theorem FitFacts.apply {Y P : Type} {lib : Lib V K ℝ G W} {a : FitArgs N V} {p : FitData ℝ Y P G} {lab : ℝ → Prop} {okW : List ℝ → Prop}
    {e e' : Est L V K ℝ P G} (h : FitFacts lib a p lab okW e e') (hT : ValidTask (p.task e.dirichlet) lab) (hlib : LibOK lib a.nRows)
    {N' : Type} [DecidableEq N'] {n : Nat} {X : Dataset N' V} (hn : 0 < n) (hX : GoodInput n X) (hA : AcceptedBy lib e' X) :
    ∃ fba out, e'.encode lib n X = .ok fba ∧ e'.apply lib n X = .ok out ∧ out.length = e'.trees.length ∧
      ∀ (t : Nat) (o : TreeObj ℝ P G), e'.trees[t]? = some o → ∃ l, out[t]? = some l ∧ l.length = n ∧
        ∀ i k, l[i]? = some k → LeafOfRow o.arr (binsOf fba i) k := by
  obtain ⟨cfg', enc', he', hA'⟩ := hA
  obtain ⟨fba, hb, hrows, hx⟩ := h.encode hn hX (fun c e h => by
    have := h.symm.trans he'
    injection this with this
    obtain ⟨rfl, rfl⟩ := Prod.mk.inj this
    exact hA')
  have key : ∀ o ∈ e'.trees, ∃ l, treeApply o.arr fba = .ok l ∧ l.length = fba.nSamples ∧ ∀ i k, l[i]? = some k → LeafOfRow o.arr (binsOf fba i) k :=
    fun o ho => h.apply_tree hT hlib hx ho
  have : ∃ out, (e'.trees.mapM fun o => treeApply o.arr fba) = .ok out ∧ List.Forall₂ (fun (o : TreeObj ℝ P G) l => l.length = n ∧
      ∀ i k, l[i]? = some k → LeafOfRow o.arr (binsOf fba i) k) e'.trees out := by
    clear h he' hb
    generalize e'.trees = ts at key
    induction ts with
    | nil => exact ⟨[], rfl, .nil⟩
    | cons o ts ih =>
      obtain ⟨l, l1, l2⟩ := key o (by simp)
      obtain ⟨out, o1, o2⟩ := ih fun o' h' => key o' (by simp [h'])
      exact ⟨l :: out, by rw [List.mapM_cons, l1, bind_ok, o1]; rfl, .cons (by rw [← hrows]; exact l2) o2⟩
  obtain ⟨out, h1, h2⟩ := this
  refine ⟨fba, out, hb, by unfold Est.apply; rw [hb, bind_ok, h1], h2.length_eq.symm, fun t o ho => ?_⟩
  obtain ⟨ht, rfl⟩ := List.getElem?_eq_some_iff.1 ho
  have ht' : t < out.length := by rw [← h2.length_eq]; exact ht
  exact ⟨out[t], List.getElem?_eq_getElem _, h2.get (i := t) ht ht'⟩

theorem storeMat_exact (n m : Nat) (v : Nat → Nat → ℝ) : storeMat n m ((List.range n).map fun i => (List.range m).map (v i)) =
    .ok ((List.range n).map fun i => (List.range m).map (v i)) := by
  unfold storeMat
  rw [if_pos]
  rw [List.map_map, replicate_eq_range]
  exact List.map_congr_left fun i _ => by simp

theorem storeTrees {fba : FBA} {n m : Nat} (hrows : fba.nSamples = n) : ∀ (ts : List (TreeObj ℝ (List ℝ) G)) (v : Nat → Nat → Nat → ℝ),
    (∀ t (h : t < ts.length), ts[t].predict mixV fba = .ok ((List.range fba.nSamples).map fun i => (List.range m).map (v t i))) →
    (ts.mapM fun o => do
      let p ← o.predict mixV fba
      storeMat n m p) = .ok ((List.range ts.length).map fun t => (List.range n).map fun i => (List.range m).map (v t i)) := by
  intro ts
  induction ts with
  | nil => intro v _; rfl
  | cons o' ts ih =>
    intro v h
    have h0 := h 0 (by simp)
    simp only [List.getElem_cons_zero] at h0
    rw [List.mapM_cons, h0, bind_ok, hrows, storeMat_exact, bind_ok, ih (fun t => v (t + 1)) (fun t ht => by
      have := h (t + 1) (by simpa using ht)
      simpa using this), bind_ok, List.length_cons, List.range_succ_eq_map, List.map_cons, List.map_map]
    rfl

/-- The per-tree predictions of a fitted classifier, in both modes. -/
theorem class_trees {lib : Lib V K ℝ G W} {a : FitArgs N V} {y : List L} {s : World L V K ℝ (List ℝ) G W}
    (hlib : LibOK lib a.nRows) (hp : ParamsValid s.self (nCols a.X)) (hd : DataValid lib.conv a s y.length) (ht : a.targetsOK = true)
    (hrefit : s.self.ovr = true → s.self.fitted = true → 2 < y.dedup.length) (hst : StrategyOK y.dedup.length s.self.strategy)
    (hagg : s.self.aggregation = true → s.self.dirichlet ≠ 0) :
    ∃ s', fitClassifier lib a y s = (.ok (), s') ∧ s'.self.fitted = true ∧ s'.self.ovr = staysOvr s.self y ∧ s'.self.classes = sortedUnique y ∧
      s'.self.nClasses = (sortedUnique y).length ∧
      s'.self.trees.length = (if staysOvr s.self y then s.self.nEstimators * (sortedUnique y).length else s.self.nEstimators) ∧
      ∀ (N' : Type) [DecidableEq N'] (n : Nat) (X : Dataset N' V), 0 < n → GoodInput n X → AcceptedBy lib s'.self X →
        ∃ fba, ∃ v : Nat → Nat → Nat → ℝ, s'.self.encode lib n X = .ok fba ∧ fba.nSamples = n ∧
          s'.self.predictProbaTrees lib n X = .ok ((List.range s'.self.trees.length).map fun t => (List.range n).map fun i =>
            (List.range (if staysOvr s.self y then 2 else (sortedUnique y).length)).map (v t i)) ∧
          ∀ t (h : t < s'.self.trees.length), s'.self.trees[t].predict mixV fba =
            .ok ((List.range fba.nSamples).map fun i => (List.range (if staysOvr s.self y then 2 else (sortedUnique y).length)).map (v t i)) := by
  rw [← sortedUnique_length] at hrefit hst
  obtain ⟨e0, o, he0, hfit, hfacts⟩ := fitClassifier_ok (okW := fun _ => True) hlib hp hd ht hrefit
    (fun h h2 => by simp only [Num.le, Num.zero, decide_eq_true_eq] at h2; exact hagg h (le_antisymm h2.1 h2.2))
    hst (fun k _ => by simp [Num.toNat, Num.ofNat]) (fun _ _ => trivial)
  subst he0
  obtain ⟨train, htr, hval⟩ := FitFacts.class_values (e0 := preparedEst (withCategorical a.categorical s.self) y) rfl rfl hlib
    (strategy_tree hst _) hd.labels (weightsOf_length hd) hfacts
  refine ⟨_, hfit, rfl, rfl, rfl, rfl, hfacts.nTrees, fun N' _ n X hn hX hA => ?_⟩
  obtain ⟨cfg', enc', he', hA'⟩ := hA
  obtain ⟨fba, hb, hrows, hx⟩ := hfacts.encode hn hX (fun c e h => by
    have := h.symm.trans he'
    injection this with this
    obtain ⟨rfl, rfl⟩ := Prod.mk.inj this
    exact hA')
  obtain ⟨v, hv⟩ : ∃ v : Nat → Nat → Nat → ℝ, ∀ t (h : t < o.est.trees.length), o.est.trees[t].predict mixV fba =
      .ok ((List.range fba.nSamples).map fun i => (List.range (if staysOvr s.self y then 2 else (sortedUnique y).length)).map (v t i)) := by
    have : ∀ t (h : t < o.est.trees.length), ∃ v : Nat → Nat → ℝ, o.est.trees[t].predict mixV fba =
        .ok ((List.range fba.nSamples).map fun i => (List.range (if staysOvr s.self y then 2 else (sortedUnique y).length)).map (v i)) := by
      intro t h
      obtain ⟨g, -, -, -, h4⟩ := hval t h
      exact ⟨_, h4 fba hx⟩
    exact ⟨fun t => if h : t < o.est.trees.length then (this t h).choose else fun _ _ => 0, fun t h => by
      simp only [dif_pos h]; exact (this t h).choose_spec⟩
  refine ⟨fba, v, hb, hrows, ?_, hv⟩
  unfold Est.predictProbaTrees Est.checkNFeatures
  have hfe : X.nFeatures = o.est.nFeatures := by
    have h1 := hA'.1
    obtain ⟨cfg2, enc2, g1, -, -, -, g2, -⟩ := hfacts.encoder
    have := g1.symm.trans he'
    injection this with this
    obtain ⟨rfl, rfl⟩ := Prod.mk.inj this
    rw [g2] at h1
    exact (show X.nFeatures = nCols X by cases X <;> rfl).trans h1
  simp only
  rw [show o.est.fitted = true from rfl, if_neg (by simp), if_neg (by simp [hfe]), bind_ok, hb, bind_ok]
  have hcol : (if 2 < o.est.nClasses ∧ o.est.ovr = true then 2 else o.est.nClasses) = if staysOvr s.self y then 2 else (sortedUnique y).length := by
    rw [show o.est.ovr = staysOvr s.self y from rfl, show o.est.nClasses = (sortedUnique y).length from rfl]
    cases ho : staysOvr s.self y with
    | false => simp
    | true =>
      have : 2 < (sortedUnique y).length := by
        unfold staysOvr at ho
        simp only [Bool.and_eq_true, decide_eq_true_eq] at ho
        exact ho.2
      simp [this]
  rw [hcol]
  exact storeTrees hrows o.est.trees v hv

end

end Verif
