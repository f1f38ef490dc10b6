import Verif.Proofs.FullTree

/-! The values of the trees of a forest that is grown without limits. -/
set_option linter.unusedSectionVars false
namespace Verif

open Spec

theorem rowWeight_pos {given : List ℝ} {balanced : Bool} {n : Nat} {lab : Nat → Nat} {i : Nat} (hg : ∀ w ∈ given, 0 < w) (hl : given.length = n) (hi : i < n) :
    0 < rowWeight given balanced n lab i := by
  have h1 : 0 < given.getD i 0 := getD_prop (Q := fun v => 0 < v) hg (by omega)
  unfold rowWeight
  refine mul_pos h1 ?_
  cases balanced with
  | false => simp
  | true =>
    simp only [if_true]
    unfold balanceFactor
    have h2 : 0 < ((Finset.range n).image lab).card := Finset.card_pos.2 ⟨lab i, Finset.mem_image.2 ⟨i, Finset.mem_range.2 hi, rfl⟩⟩
    have h3 : 0 < ((Finset.range n).filter fun r => lab r = lab i).card :=
      Finset.card_pos.2 ⟨i, Finset.mem_filter.2 ⟨Finset.mem_range.2 hi, rfl⟩⟩
    have : 0 < n := by omega
    positivity

section
variable {L V K P G W N : Type} [LinearOrder L] [DecidableEq V] [DecidableEq N] [LinearOrder K] [Field K] [IsStrictOrderedRing K] [FloorSemiring K]

theorem treeLabel_lt {b : Bool} {y : List L} {k i : Nat} (hi : i < y.length) :
    treeLabel b (classOf (sortedUnique y) y) k i < if b then 2 else (sortedUnique y).length := by
  unfold treeLabel
  cases b with
  | true => simp only [if_true]; split <;> omega
  | false =>
    simp only [Bool.false_eq_true, if_false, classOf, List.getElem?_eq_getElem hi]
    exact List.idxOf_lt_length_of_mem (mem_sortedUnique.2 (List.getElem_mem hi))

theorem keys_ne_nil {n : Nat} {st : CatStrategy} (hn : 0 < n) : ∀ keys ∈ strategyKeys n st, keys ≠ [] := by
  intro keys h
  cases st with
  | all =>
    rw [List.mem_singleton.1 h]
    intro h0
    rw [List.map_eq_nil_iff, List.range_eq_nil] at h0
    omega
  | binary => rw [List.mem_singleton.1 h]; simp
  | random =>
    obtain ⟨k, _, rfl⟩ := List.mem_map.1 h
    simp

/-- The settings of a tree of a forest without limits. -/
theorem _root_.Verif.Spec.TreeSettings.noLimits {F : Type} {c : Ctx F} {e0 e' e : Est L V K F P G} {a : FitArgs N V} {lib : Lib V K F G W} {lim : Option Nat}
    (hno : NoLimits e a) (h1 : e0.aggregation = e.aggregation) (h2 : e0.minSplit = e.minSplit) (h3 : e0.minLeaf = e.minLeaf)
    (h4 : e0.maxDepth = e.maxDepth) (h5 : FeaturesTried e.maxFeatures (nCols a.X) e'.maxFeatures_) (h : TreeSettings c e0 e')
    (hl : DepthLimit lib a.randomizedDepth e0.maxDepth lim) :
    lim = none ∧ c.aggregation = false ∧ c.minSplit = 2 ∧ c.minLeaf = 1 ∧ c.maxFeatures = nCols a.X := by
  refine ⟨?_, ?_, ?_, ?_, ?_⟩
  · rw [DepthLimit, hno.depth.2, if_neg (by simp), h4, hno.depth.1] at hl; exact hl
  · rw [h.aggregation, h1, hno.aggregation]
  · rw [h.minSplit, h2, hno.minSplit]
  · rw [h.minLeaf, h3, hno.minLeaf]
  · rw [h.maxFeatures]
    rw [hno.features] at h5
    exact h5

theorem FitFacts.isCategorical_length {F Y P : Type} [Num F] {lib : Lib V K F G W} {a : FitArgs N V} {p : FitData F Y P G} {lab : F → Prop} {okW : List F → Prop} {e e' : Est L V K F P G}
    (h : FitFacts lib a p lab okW e e') : e'.isCategorical_.length = nCols a.X := by
  obtain ⟨cfg, enc, -, -, -, -, h1, h2, -⟩ := h.encoder
  rw [h2, List.length_map, h1]

/-- Every tree of a classifier without limits gives a drawn row with a consistent label the smoothed share of its own label. -/
theorem class_full {lib : Lib V K ℝ G W} {a : FitArgs N V} {y : List L} {s s' : World L V K ℝ (List ℝ) G W}
    (hlib : LibOK lib a.nRows) (hs : ArgsortSorts lib.argsort) (hp : ParamsValid s.self (nCols a.X)) (hd : DataValid lib.conv a s y.length)
    (ht : a.targetsOK = true) (hrefit : s.self.ovr = true → s.self.fitted = true → 2 < y.dedup.length) (hst : StrategyOK y.dedup.length s.self.strategy)
    (hw : ∀ w ∈ s.weights, 0 < w) (hno : NoLimits s.self a) (hfit : fitClassifier lib a y s = (.ok (), s')) :
    ∃ train, ∃ draws : Nat → List Nat, s'.self.encode lib a.nRows a.X = .ok train ∧ train.nSamples = a.nRows ∧ AcceptedBy lib s'.self a.X ∧
      ∀ t o, s'.self.trees[t]? = some o → (∃ seed, s'.self.seeds[t]? = some seed ∧ BootstrapOf (lib.boot a.nRows) a.nRows seed (draws t)) ∧
        ∃ u : Nat → Nat → ℝ, o.predict mixV train = .ok ((List.range a.nRows).map fun i =>
            (List.range (if staysOvr s.self y then 2 else (sortedUnique y).length)).map (u i)) ∧
          ∀ i < a.nRows, i ∈ draws t → Consistent (nCols a.X) (binsOf train)
              (treeLabel (staysOvr s.self y) (classOf (sortedUnique y) y) (if staysOvr s.self y then t / s.self.nEstimators else 0)) (draws t) i →
            ∃ wt : ℝ, 0 < wt ∧ ∀ j, u i j =
              (wt * (if treeLabel (staysOvr s.self y) (classOf (sortedUnique y) y) (if staysOvr s.self y then t / s.self.nEstimators else 0) i = j then 1 else 0) +
                s.self.dirichlet) / (wt + (if staysOvr s.self y then 2 else (sortedUnique y).length : Nat) * s.self.dirichlet) := by
  rw [← sortedUnique_length] at hrefit hst
  obtain ⟨e0, o, he0, hfit', hfacts⟩ := fitClassifier_ok (okW := fun _ => True) hlib hp hd ht hrefit
    (fun h => absurd h (by rw [hno.aggregation]; simp)) hst (fun k _ => by simp [Num.toNat, Num.ofNat]) (fun _ _ => trivial)
  subst he0
  rw [hfit] at hfit'
  obtain ⟨-, rfl⟩ := Prod.mk.inj hfit'
  have hpos := (weightsOf_sign (a := a) fun v hv => (hw v hv).le).2 hw
  have hlen := weightsOf_length hd
  obtain ⟨train, htr, hval⟩ := FitFacts.class_values (e0 := preparedEst (withCategorical a.categorical s.self) y) rfl rfl hlib
    (strategy_tree hst _) hd.labels hlen hfacts
  obtain ⟨train', htr', hall⟩ := FitFacts.greedy hlib hd.rows.2 (RealTask.classifier lib.rng _ _ _ hs (strategy_tree hst _)) o hfacts
    (prepared_entries hd.labels hlen hpos)
  obtain rfl : train' = train := Except.ok.inj (htr'.symm.trans htr)
  obtain ⟨cfg, enc, henc, -, -, -, -, -, hacc⟩ := hfacts.encoder
  obtain ⟨fba, hb, hrows, hx⟩ := hfacts.encode hd.rows.1 hd.good (fun c e h => by
    have := h.symm.trans henc
    injection this with this
    obtain ⟨rfl, rfl⟩ := Prod.mk.inj this
    exact hacc)
  obtain rfl : fba = train' := Except.ok.inj (hb.symm.trans htr)
  refine ⟨fba, fun t => if h : t < o.est.trees.length then (hval t h).choose.draws else [], htr, hrows, ⟨cfg, enc, henc, hacc⟩, fun t ob hob => ?_⟩
  obtain ⟨hlt, rfl⟩ := List.getElem?_eq_some_iff.1 hob
  have hg := (hval t hlt).choose_spec
  obtain ⟨g, hgd⟩ : ∃ g, g = (hval t hlt).choose := ⟨_, rfl⟩
  rw [← hgd] at hg
  simp only [dif_pos hlt]
  rw [← hgd]
  obtain ⟨g1, g2, ⟨seed, g3, g4⟩, g5⟩ := hg
  refine ⟨⟨seed, g3, g4⟩, _, by rw [g5 fba hx, hrows], fun i hi hid hcons => ?_⟩
  obtain ⟨c, D, seed', draws, lim, h1, h2, h3, h4, h5, h6⟩ := hall t _ hob
  obtain rfl : seed' = seed := Option.some.inj (h3.symm.trans g3)
  obtain rfl := g4.unique h4
  have hft : FeaturesTried s.self.maxFeatures (nCols a.X) o.est.maxFeatures_ := featuresTried_ok hd.columns hp.accepted o.hmf
  obtain ⟨rfl, l1, l2, l3, l4⟩ := TreeSettings.noLimits (e0 := preparedEst (withCategorical a.categorical s.self) y) hno rfl rfl rfl rfl hft h1 h2
  obtain ⟨k, hk⟩ : ∃ k, k = if staysOvr s.self y then t / s.self.nEstimators else 0 := ⟨_, rfl⟩
  obtain ⟨lab, hlab⟩ : ∃ lab, lab = treeLabel (staysOvr s.self y) (classOf (sortedUnique y) y) k := ⟨_, rfl⟩
  obtain ⟨m, hm⟩ : ∃ m, m = if staysOvr s.self y then 2 else (sortedUnique y).length := ⟨_, rfl⟩
  have hlab' : treeLabel (staysOvr s.self y) (classOf (sortedUnique y) y) (if staysOvr s.self y then t / s.self.nEstimators else 0) = lab := by
    rw [hlab, hk]
  have hlt' : ∀ r < a.nRows, lab r < m := fun r hr => by rw [hlab, hm]; exact treeLabel_lt (by rw [hd.labels]; exact hr)
  have hDy : ∀ r < a.nRows, ⌊D.y r⌋₊ = lab r := fun r hr => by
    rw [h5.labels r hr]
    have : (preparedOf lib s.self y (weightsOf a s)).ovr = staysOvr s.self y := rfl
    rw [this, show (preparedEst (withCategorical a.categorical s.self) y).nEstimators = s.self.nEstimators from rfl, hlab']
    simp
  have hDw : ∀ r < a.nRows, 0 < D.w r := fun r hr => by
    rw [h5.weights r hr]
    have h0 : 0 < rowWeight (weightsOf a s) s.self.balanced a.nRows (treeLabel (staysOvr s.self y) (classOf (sortedUnique y) y)
      (if (preparedOf lib s.self y (weightsOf a s)).ovr then t / (preparedEst (withCategorical a.categorical s.self) y).nEstimators else 0)) r :=
      rowWeight_pos hpos hlen hr
    split
    · rename_i hc
      have : 0 < g.draws.count r := List.count_pos_iff.2 hc
      positivity
    · exact h0
  rw [hlab'] at hcons ⊢
  rw [← g1] at h6
  have hland := land_leaf (x := binsOf fba i) (fun k n a b => by
    obtain ⟨-, feats, f, -, hf, -⟩ := h6.split k n a b
    exact ⟨f, hf⟩) g2 .root
  obtain ⟨hv, node, hnode, hleaf⟩ := hland
  have hone : ∀ r < a.nRows, r ∈ g.draws → Visits g.arr (binsOf fba r) (g.shape.land (rowGoes g.arr (binsOf fba i))) → lab r = lab i := by
    intro r hr hrd hrv
    refine h6.one_label (keys_ne_nil (by have := hlt' i hi; rw [hm] at this; omega)) l1 l2 l3 (by rw [l4, h5.cols])
      (by rw [h1.isCategorical, hfacts.isCategorical_length, h5.cols]) ?_ hi hid (by rw [h5.cols, h5.bins]; exact hcons) hnode hleaf
      (by rw [h5.bins]; exact hv) hr hrd (by rw [h5.bins]; exact hrv)
    intro l hl hI i hi r hr
    have := class_pure (fun i hi => hDw i (hl i hi).1) (fun i hi => by
      have := hlt' i (hl i hi).1
      rw [← hDy i (hl i hi).1, hm] at this
      exact this) hI hi hr
    rwa [hDy r (hl r hr).1, hDy i (hl i hi).1] at this
  refine ⟨_, drawnSum_pos (S := ⟨a.nRows, binsOf fba, rowWeight (weightsOf a s) s.self.balanced a.nRows lab, g.draws⟩) (t := g.arr)
    (k := g.shape.land (rowGoes g.arr (binsOf fba i))) (fun r hr => rowWeight_pos hpos hlen hr) hi hid hv, fun j => ?_⟩
  rw [treeValue, show (preparedEst (withCategorical a.categorical s.self) y).aggregation = s.self.aggregation from rfl, hno.aggregation,
    if_neg (by simp), ← hm]
  rw [show (preparedEst (withCategorical a.categorical s.self) y).nEstimators = s.self.nEstimators from rfl,
    show (preparedEst (withCategorical a.categorical s.self) y).dirichlet = s.self.dirichlet from rfl, hlab']
  exact share_pure (S := ⟨a.nRows, binsOf fba, rowWeight (weightsOf a s) s.self.balanced a.nRows lab, g.draws⟩) hone j

/-- Every tree of a regressor without limits gives a drawn row with a consistent label its own label. -/
theorem reg_full {lib : Lib V K ℝ G W} {a : FitArgs N V} {y : List ℝ} {s s' : World L V K ℝ ℝ G W}
    (hlib : LibOK lib a.nRows) (hs : ArgsortSorts lib.argsort) (hp : ParamsValid s.self (nCols a.X)) (hd : DataValid lib.conv a s y.length)
    (hw : ∀ w ∈ s.weights, 0 < w) (ho : s.self.ovr = false) (hno : NoLimits s.self a) (hfit : fitRegressor lib a y s = (.ok (), s')) :
    ∃ train, ∃ draws : Nat → List Nat, ∃ u : Nat → Nat → ℝ, s'.self.encode lib a.nRows a.X = .ok train ∧ s'.self.trees.length = s.self.nEstimators ∧
      s'.self.predictReg lib a.nRows a.X = .ok ((List.range a.nRows).map fun i => (∑ t ∈ Finset.range s.self.nEstimators, u t i) / s.self.nEstimators) ∧
      ∀ t o, s'.self.trees[t]? = some o → (∃ seed, s'.self.seeds[t]? = some seed ∧ BootstrapOf (lib.boot a.nRows) a.nRows seed (draws t)) ∧
        o.predict mixF train = .ok ((List.range a.nRows).map (u t)) ∧
          ∀ i < a.nRows, i ∈ draws t → Consistent (nCols a.X) (binsOf train) (fun i => y.getD i 0) (draws t) i → u t i = y.getD i 0 := by
  obtain ⟨e0, o, he0, hfit', hfacts⟩ := fitRegressor_ok hlib hp hd
  subst he0
  rw [hfit] at hfit'
  obtain ⟨-, rfl⟩ := Prod.mk.inj hfit'
  have hpos := (weightsOf_sign (a := a) fun v hv => (hw v hv).le).2 hw
  have hlen := weightsOf_length hd
  have hnt : o.est.trees.length = s.self.nEstimators := by
    have := hfacts.nTrees
    rwa [show (withCategorical a.categorical s.self).ovr = s.self.ovr from rfl, ho, if_neg (by simp)] at this
  obtain ⟨train, htr, hval⟩ := FitFacts.reg_values hlib hfacts
  obtain ⟨train', htr', hall⟩ := FitFacts.greedy (ly := fun _ i => y.getD i 0) (lw := fun _ i => (givenWeights a s).getD i 0) hlib hd.rows.2
    (RealTask.regressor hs) o hfacts (fun k yy w i h2 h3 hi => by
      have e2 := List.mem_singleton.1 (List.mem_of_getElem? h2)
      have e3 := List.mem_singleton.1 (List.mem_of_getElem? h3)
      rw [e2, e3]
      exact ⟨rfl, rfl, getD_prop (Q := fun v => 0 < v) hpos (by rw [weightsOf_length hd]; exact hi)⟩)
  obtain rfl : train' = train := Except.ok.inj (htr'.symm.trans htr)
  obtain ⟨cfg, enc, henc, -, -, -, -, -, hacc⟩ := hfacts.encoder
  obtain ⟨fba, hb, hrows, hx⟩ := hfacts.encode hd.rows.1 hd.good (fun c e h => by
    have := h.symm.trans henc
    injection this with this
    obtain ⟨rfl, rfl⟩ := Prod.mk.inj this
    exact hacc)
  obtain rfl : fba = train' := Except.ok.inj (hb.symm.trans htr)
  obtain ⟨g, hg⟩ : ∃ g : Nat → GrownTree ℝ, ∀ t (h : t < o.est.trees.length), g t = (hval t h).choose :=
    ⟨fun t => if h : t < o.est.trees.length then (hval t h).choose else ⟨o.est.trees[0]'(by rw [hnt]; exact hp.estimators) |>.arr, .leaf 0, []⟩,
      fun t h => dif_pos h⟩
  have hval' := fun t (h : t < o.est.trees.length) => by have := (hval t h).choose_spec; rw [← hg t h] at this; exact this
  refine ⟨fba, fun t => (g t).draws, fun t i => treeValue (g t) s.self.aggregation s.self.step
      (Sample.squareLoss ⟨a.nRows, binsOf fba, fun i => (weightsOf a s).getD i 0, (g t).draws⟩ (g t).arr fun i => y.getD i 0)
      (Sample.average ⟨a.nRows, binsOf fba, fun i => (weightsOf a s).getD i 0, (g t).draws⟩ (g t).arr fun i => y.getD i 0) (binsOf fba i),
    htr, hnt, ?_, fun t ob hob => ?_⟩
  · unfold Est.predictReg
    simp only
    rw [hb, bind_ok, reg_exact _ _ _ fun t h => (hval' t h).2.2.2 fba hx, hrows, hnt]
    rfl
  obtain ⟨hlt, rfl⟩ := List.getElem?_eq_some_iff.1 hob
  obtain ⟨g1, g2, ⟨seed, g3, g4⟩, g5⟩ := hval' t hlt
  refine ⟨⟨seed, g3, g4⟩, by rw [g5 fba hx, hrows]; rfl, fun i hi hid hcons => ?_⟩
  obtain ⟨c, D, seed', draws, lim, h1, h2, h3, h4, h5, h6⟩ := hall t _ hob
  obtain rfl : seed' = seed := Option.some.inj (h3.symm.trans g3)
  obtain rfl := g4.unique h4
  have hft : FeaturesTried s.self.maxFeatures (nCols a.X) o.est.maxFeatures_ := featuresTried_ok hd.columns hp.accepted o.hmf
  obtain ⟨rfl, l1, l2, l3, l4⟩ := TreeSettings.noLimits (e0 := withCategorical a.categorical s.self) hno rfl rfl rfl rfl hft h1 h2
  have hW : ∀ r < a.nRows, 0 < (weightsOf a s).getD r 0 := fun r hr => getD_prop (Q := fun v => 0 < v) hpos (by rw [hlen]; exact hr)
  have hDw : ∀ r < a.nRows, 0 < D.w r := fun r hr => by
    rw [h5.weights r hr]
    have h0 : 0 < (givenWeights a s).getD r 0 := hW r hr
    split
    · rename_i hc
      have : 0 < (g t).draws.count r := List.count_pos_iff.2 hc
      positivity
    · exact h0
  rw [← g1] at h6
  obtain ⟨hv, node, hnode, hleaf⟩ := land_leaf (x := binsOf fba i) (fun k n a b => by
    obtain ⟨-, feats, f, -, hf, -⟩ := h6.split k n a b
    exact ⟨f, hf⟩) g2 .root
  have hone : ∀ r < a.nRows, r ∈ (g t).draws → Visits (g t).arr (binsOf fba r) ((g t).shape.land (rowGoes (g t).arr (binsOf fba i))) →
      y.getD r 0 = y.getD i 0 := by
    intro r hr hrd hrv
    refine h6.one_label (lab := fun i => y.getD i 0) (by simp) l1 l2 l3 (by rw [l4, h5.cols])
      (by rw [h1.isCategorical, hfacts.isCategorical_length, h5.cols]) ?_ hi hid (by rw [h5.cols, h5.bins]; exact hcons) hnode hleaf
      (by rw [h5.bins]; exact hv) hr hrd (by rw [h5.bins]; exact hrv)
    intro l hl hI i hi r hr
    have := variance_pure (fun i hi => hDw i (hl i hi).1) hI hi hr
    rw [h5.labels r (hl r hr).1, h5.labels i (hl i hi).1] at this
    exact this
  simp only [treeValue, hno.aggregation]
  rw [if_neg (by simp)]
  exact average_pure (S := ⟨a.nRows, binsOf fba, fun i => (weightsOf a s).getD i 0, (g t).draws⟩) hW hi hid hv hone

end

end Verif
