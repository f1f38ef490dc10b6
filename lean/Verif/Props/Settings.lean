import Verif.Proofs.Settings
import Verif.Proofs.SplitLimit
import Verif.Props.Deep
import Verif.Props.Modes
import Verif.Props.Relabel

/-! # C110–C115: settings that have no effect -/
set_option linter.unusedSectionVars false
namespace Verif

open Spec

section
variable {L V K F P G W N : Type} [LinearOrder L] [DecidableEq V] [DecidableEq N] [LinearOrder K] [Field K] [IsStrictOrderedRing K] [FloorSemiring K] [Num F]

/-- **C110** A regressor with other values of `max_features`, `subsample` and `cat_min_categories` that mean the same for the data: the same number `k` of features tried,
all rows, the same number `m` of categories. `fit` does the same. -/
theorem C110_regressor {lib : Lib V K F G W} {a : FitArgs N V} {y : List F} {s t : World L V K F F G W} {mf : MaxFeatures K} {sub : Option Nat} {cm : CatMin} {k m : Nat}
    (hk : 1 ≤ k ∧ k ≤ nCols a.X) (hs : setMaxFeatures s.self.maxFeatures = .ok s.self.maxFeatures) (hs' : setMaxFeatures mf = .ok mf)
    (hf : FeaturesTried s.self.maxFeatures (nCols a.X) k) (hf' : FeaturesTried mf (nCols a.X) k)
    (hsub : KeepsAll a.nRows s.self.subsample) (hsub' : KeepsAll a.nRows sub) (hcm : CatMinAccepted cm)
    (hm : MinCategories lib a.nRows m s.self.catMin) (hm' : MinCategories lib a.nRows m cm) (h : fitRegressor lib a y s = (.ok (), t)) :
    fitRegressor lib a y { s with self := withSpelling mf sub cm s.self } = (.ok (), { t with self := withSpelling mf sub cm t.self }) := by
  obtain ⟨h1, h2, h⟩ := fitRegressor_needs h
  have k := fitRest_spelling (s := { s with self := withCategorical a.categorical s.self })
    ((getMaxFeatures_of hs' hk hf').trans (getMaxFeatures_of hs hk hf).symm) hsub hsub' ((catMin_value hm').trans (catMin_value hm).symm) hcm h
  exact fitRegressor_of (s := { s with self := withSpelling mf sub cm s.self }) h1 h2 k

/-- **C110** The same for a classifier. -/
theorem C110_classifier {lib : Lib V K F G W} {a : FitArgs N V} {y : List L} (hy : y ≠ []) {s t : World L V K F (List F) G W} {mf : MaxFeatures K} {sub : Option Nat} {cm : CatMin}
    {k m : Nat} (hk : 1 ≤ k ∧ k ≤ nCols a.X) (hs : setMaxFeatures s.self.maxFeatures = .ok s.self.maxFeatures) (hs' : setMaxFeatures mf = .ok mf)
    (hf : FeaturesTried s.self.maxFeatures (nCols a.X) k) (hf' : FeaturesTried mf (nCols a.X) k)
    (hsub : KeepsAll a.nRows s.self.subsample) (hsub' : KeepsAll a.nRows sub) (hcm : CatMinAccepted cm)
    (hm : MinCategories lib a.nRows m s.self.catMin) (hm' : MinCategories lib a.nRows m cm) (h : fitClassifier lib a y s = (.ok (), t)) :
    fitClassifier lib a y { s with self := withSpelling mf sub cm s.self } = (.ok (), { t with self := withSpelling mf sub cm t.self }) := by
  by_cases hr : s.self.ovr = true → s.self.fitted = true → 2 < (sortedUnique y).length
  · obtain ⟨h1, h2, h3, h4, h⟩ := fitClassifier_needs hy hr h
    have k := fitRest_spelling (s := World.mk (preparedEst (withCategorical a.categorical s.self) y) _ _)
      ((getMaxFeatures_of hs' hk hf').trans (getMaxFeatures_of hs hk hf).symm) hsub hsub' ((catMin_value hm').trans (catMin_value hm).symm) hcm h
    exact fitClassifier_of (s := { s with self := withSpelling mf sub cm s.self }) hy hr h1 h2 h3 h4 k
  · push Not at hr
    exact absurd h (fitClassifier_refit hr.1 hr.2.1 hr.2.2)

/-- **C110** Forests that differ in the spelling of the three settings only answer alike. -/
theorem C110_predict (lib : Lib V K F G W) (mf : MaxFeatures K) (sub : Option Nat) (cm : CatMin) (X : Dataset N V) (n : Nat) (eps : F) :
    (∀ e : Est L V K F P G, (withSpelling mf sub cm e).apply lib n X = e.apply lib n X) ∧
    (∀ e : Est L V K F (List F) G, (withSpelling mf sub cm e).predictProba lib eps n X = e.predictProba lib eps n X) ∧
    (∀ e : Est L V K F (List F) G, (withSpelling mf sub cm e).predict lib eps n X = e.predict lib eps n X) ∧
    ∀ e : Est L V K F F G, (withSpelling mf sub cm e).predictReg lib n X = e.predictReg lib n X :=
  ⟨fun _ => rfl, fun _ => rfl, fun _ => rfl, fun _ => rfl⟩

/-- **C111** When no column is treated as categorical, `cat_split_strategy` has no effect: with any other value `fit` does the same and gives the same trees. -/
theorem C111_fit {lib : Lib V K F G W} {a : FitArgs N V} {y : List L} (hy : y ≠ []) {s t : World L V K F (List F) G W} (st : CatStrategy)
    (hc : ∀ b ∈ t.self.isCategorical_, b = false) (h : fitClassifier lib a y s = (.ok (), t)) :
    fitClassifier lib a y { s with self := withStrategy st s.self } = (.ok (), { t with self := withStrategy st t.self }) := by
  by_cases hr : s.self.ovr = true → s.self.fitted = true → 2 < (sortedUnique y).length
  · obtain ⟨h1, h2, h3, h4, h⟩ := fitClassifier_needs hy hr h
    have k := fitRest_orders (fun _ => classOrders lib.rng lib.argsort (if staysOvr (withCategorical a.categorical s.self) y then 2 else (sortedUnique y).length) st) st h hc
    exact fitClassifier_of (s := { s with self := withStrategy st s.self }) hy hr h1 h2 h3 h4 k
  · push Not at hr
    exact absurd h (fitClassifier_refit hr.1 hr.2.1 hr.2.2)

/-- **C111** Forests that differ in `cat_split_strategy` only answer alike. -/
theorem C111_predict (lib : Lib V K F G W) (st : CatStrategy) (X : Dataset N V) (n : Nat) (eps : F) (e : Est L V K F (List F) G) :
    (withStrategy st e).apply lib n X = e.apply lib n X ∧ (withStrategy st e).predictProba lib eps n X = e.predictProba lib eps n X ∧
    (withStrategy st e).predict lib eps n X = e.predict lib eps n X :=
  ⟨rfl, rfl, rfl⟩

/-- **C112** Two classifiers that differ in `min_samples_split` only, with values of at most twice `min_samples_leaf`. When no random choice of a class is made
(`cat_split_strategy` is not "random" or no column is categorical), both fits succeed and do the same: the forests have the same nodes and answer every call alike. -/
theorem C112_classifier {lib : Lib V K F G W} {a : FitArgs N V} {y : List L} {s : World L V K F (List F) G W}
    (hlib : LibOK lib a.nRows) (hp : ParamsValid s.self (nCols a.X)) (hd : DataValid lib.conv a s y.length) (ht : a.targetsOK = true)
    (hrefit : s.self.ovr = true → s.self.fitted = true → 2 < y.dedup.length) (hst : StrategyOK y.dedup.length s.self.strategy)
    (hdir : s.self.aggregation = true → ¬(Num.le s.self.dirichlet Num.zero = true ∧ Num.le Num.zero s.self.dirichlet = true))
    (hF : ∀ k, k < max 2 y.dedup.length → Num.toNat (Num.ofNat k : F) = k) {ms : Nat} (hms : 1 ≤ ms)
    (h1 : s.self.minSplit ≤ 2 * s.self.minLeaf) (h2 : ms ≤ 2 * s.self.minLeaf) :
    ∃ s1 s2, fitClassifier lib a y s = (.ok (), s1) ∧ fitClassifier lib a y { s with self := { s.self with minSplit := ms } } = (.ok (), s2) ∧
      (s.self.strategy ≠ .random ∨ (∀ b ∈ s1.self.isCategorical_, b = false) →
        NoContext s2.self.trees = NoContext s1.self.trees ∧
        s2 = { s1 with self := { s1.self with minSplit := ms, trees := s2.self.trees } } ∧
        ∀ (N' : Type) [DecidableEq N'] (eps : F) (n : Nat) (X : Dataset N' V), s2.self.predictProba lib eps n X = s1.self.predictProba lib eps n X ∧
          s2.self.predict lib eps n X = s1.self.predict lib eps n X ∧ s2.self.apply lib n X = s1.self.apply lib n X) := by
  rw [← sortedUnique_length] at hrefit hst hF
  obtain ⟨e0, o, he0, hfit, hfacts⟩ := fitClassifier_ok (okW := fun _ => True) hlib hp hd ht hrefit hdir hst hF (fun _ _ => trivial)
  obtain ⟨e0', o', he0', hfit', hfacts'⟩ := fitClassifier_ok (s := { s with self := { s.self with minSplit := ms } }) (okW := fun _ => True) hlib
    ⟨hp.1, hp.2, hp.3, hp.4, hms, hp.6, hp.7⟩ ⟨hd.1, hd.2, hd.3, hd.4, hd.5, hd.6, hd.7⟩ ht hrefit hdir hst hF (fun _ _ => trivial)
  subst he0 he0'
  have hT : ValidTask ((preparedOf lib s.self y (weightsOf a s)).task (preparedEst (withCategorical a.categorical s.self) y).dirichlet) _ := .classifier lib.rng _ _ _ hlib.argsort (strategy_tree hst _)
  refine ⟨_, _, hfit, hfit', fun hnd => ?_⟩
  obtain ⟨k1, k2⟩ := Outcome.split (ms := ms) hlib hT o o' hfacts hfacts' (hnd.imp (fun h bins ys g os g' e => classOrders_gen _ _ _ h e) id) h1 h2
  refine ⟨k1, congrArg (fun e => World.mk e _ _) k2, fun N' _ eps n X => ⟨?_, ?_, ?_⟩⟩
  · exact predictProba_noContext (m := o.est.maxDepth) (e := { o.est with minSplit := ms }) k2 k1 n X
  · exact predict_noContext (m := o.est.maxDepth) (e := { o.est with minSplit := ms }) k2 k1 n X
  · exact apply_noContext (m := o.est.maxDepth) (e := { o.est with minSplit := ms }) k2 k1 n X

/-- **C112** The same for regressors. -/
theorem C112_regressor {lib : Lib V K F G W} {a : FitArgs N V} {y : List F} {s : World L V K F F G W}
    (hlib : LibOK lib a.nRows) (hp : ParamsValid s.self (nCols a.X)) (hd : DataValid lib.conv a s y.length) {ms : Nat} (hms : 1 ≤ ms)
    (h1 : s.self.minSplit ≤ 2 * s.self.minLeaf) (h2 : ms ≤ 2 * s.self.minLeaf) :
    ∃ s1 s2, fitRegressor lib a y s = (.ok (), s1) ∧ fitRegressor lib a y { s with self := { s.self with minSplit := ms } } = (.ok (), s2) ∧
      NoContext s2.self.trees = NoContext s1.self.trees ∧ s2 = { s1 with self := { s1.self with minSplit := ms, trees := s2.self.trees } } ∧
      ∀ (N' : Type) [DecidableEq N'] (n : Nat) (X : Dataset N' V), s2.self.predictReg lib n X = s1.self.predictReg lib n X ∧
        s2.self.apply lib n X = s1.self.apply lib n X := by
  obtain ⟨e0, o, he0, hfit, hfacts⟩ := fitRegressor_ok hlib hp hd
  obtain ⟨e0', o', he0', hfit', hfacts'⟩ := fitRegressor_ok (s := { s with self := { s.self with minSplit := ms } }) hlib
    ⟨hp.1, hp.2, hp.3, hp.4, hms, hp.6, hp.7⟩ ⟨hd.1, hd.2, hd.3, hd.4, hd.5, hd.6, hd.7⟩
  subst he0 he0'
  obtain ⟨k1, k2⟩ := Outcome.split (ms := ms) hlib (.regressor hlib.argsort) o o' hfacts hfacts' (.inl fun bins ys g os g' e => regOrders_gen _ e) h1 h2
  refine ⟨_, _, hfit, hfit', k1, congrArg (fun e => World.mk e _ _) k2, fun N' _ n X => ⟨?_, ?_⟩⟩
  · exact predictReg_noContext (m := o.est.maxDepth) (e := { o.est with minSplit := ms }) k2 k1 n X
  · exact apply_noContext (m := o.est.maxDepth) (e := { o.est with minSplit := ms }) k2 k1 n X

/-- **C113** When all classes are equally frequent, `class_weight="balanced"` has no effect (multinomial, or at most two classes): `fit` with and without it does the
same. For any arithmetic in which the product with one is exact and the computed weights of the classes are one. -/
theorem C113_balanced {lib : Lib V K F G W} {a : FitArgs N V} {y : List L} (hy : y ≠ []) {s t : World L V K F (List F) G W} (b : Bool)
    (hmul : ∀ x : F, Num.mul x Num.one = x)
    (hdiv : ∀ l ∈ y, Num.div (Num.ofNat y.length : F) (Num.mul (Num.ofNat y.dedup.length) (Num.ofNat (y.count l))) = Num.one)
    (ho : s.self.ovr = false ∨ y.dedup.length ≤ 2) (h : fitClassifier lib a y s = (.ok (), t)) :
    fitClassifier lib a y { s with self := withBalanced b s.self } = (.ok (), { t with self := withBalanced b t.self }) := by
  have hso : ∀ e : Est L V K F (List F) G, e.ovr = s.self.ovr → staysOvr e y = false := fun e he => by
    unfold staysOvr
    rw [he, sortedUnique_length]
    rcases ho with ho | ho
    · rw [ho]; rfl
    · rw [decide_eq_false (by omega), Bool.and_false]
  by_cases hr : s.self.ovr = true → s.self.fitted = true → 2 < (sortedUnique y).length
  · obtain ⟨h1, h2, h3, h4, h⟩ := fitClassifier_needs hy hr h
    have hlen : (weightsOf a s).length = y.length := by
      unfold weightsOf
      cases hw : a.weights with
      | none => simp [h1]
      | some _ => exact (h2 (by rw [hw]; simp)).trans h1.symm
    have hcw : ∀ e : Est L V K F (List F) G, e.ovr = s.self.ovr → classWeights e y (weightsOf a s) = [weightsOf a s] := fun e he =>
      classWeights_equal hmul hdiv (hso e he) hlen
    have hcl : ∀ e : Est L V K F (List F) G, e.ovr = s.self.ovr → callerWeights e a y s.weights (weightsOf a s) = s.weights := fun e he => by
      unfold callerWeights
      rw [hcw e he]
      split
      · rename_i hb
        simp only [Bool.and_eq_true, beq_iff_eq] at hb
        unfold weightsOf
        rw [hb.2]
        rfl
      · rfl
    refine fitClassifier_of (s := { s with self := withBalanced b s.self }) hy hr h1 h2 h3 h4 ?_
    have e1 : preparedOf lib (withCategorical a.categorical (withBalanced b s.self)) y (weightsOf a s) =
        preparedOf lib (withCategorical a.categorical s.self) y (weightsOf a s) := by
      unfold preparedOf
      rw [hcw (withCategorical a.categorical (withBalanced b s.self)) rfl, hcw (withCategorical a.categorical s.self) rfl]
      rfl
    rw [hcl (withCategorical a.categorical s.self) rfl] at h
    have := fitRest_balanced b h
    rw [← e1] at this
    show fitRest lib a (preparedOf lib (withCategorical a.categorical (withBalanced b s.self)) y (weightsOf a s))
      { s with self := preparedEst (withCategorical a.categorical (withBalanced b s.self)) y,
               weights := callerWeights (withCategorical a.categorical (withBalanced b s.self)) a y s.weights (weightsOf a s) } = _
    rw [hcl (withCategorical a.categorical (withBalanced b s.self)) rfl]
    exact this
  · push Not at hr
    exact absurd h (fitClassifier_refit hr.1 hr.2.1 hr.2.2)

/-- **C113** Forests that differ in `class_weight` only answer alike. -/
theorem C113_predict (lib : Lib V K F G W) (b : Bool) (X : Dataset N V) (n : Nat) (eps : F) (e : Est L V K F (List F) G) :
    (withBalanced b e).apply lib n X = e.apply lib n X ∧ (withBalanced b e).predictProba lib eps n X = e.predictProba lib eps n X ∧
    (withBalanced b e).predict lib eps n X = e.predict lib eps n X :=
  ⟨rfl, rfl, rfl⟩

/-- **C114** As long as no numerical column has more different values than `max_bins`, the value of `max_bins` has no effect on `fit` of a regressor. -/
theorem C114_regressor {lib : Lib V K F G W} {a : FitArgs N V} {y : List F} {s t : World L V K F F G W} {b : Nat} (hb : 3 ≤ b)
    (h : fitRegressor lib a y s = (.ok (), t)) (h1 : FewValues a.X t.self.isCategorical_ s.self.maxBins) (h2 : FewValues a.X t.self.isCategorical_ b) :
    fitRegressor lib a y { s with self := withMaxBins b s.self } = (.ok (), { t with self := withMaxBins b t.self }) := by
  obtain ⟨g1, g2, h⟩ := fitRegressor_needs h
  exact fitRegressor_of (s := { s with self := withMaxBins b s.self }) g1 g2 (fitRest_maxBins hb h h1 h2)

/-- **C114** The same for a classifier. -/
theorem C114_classifier {lib : Lib V K F G W} {a : FitArgs N V} {y : List L} (hy : y ≠ []) {s t : World L V K F (List F) G W} {b : Nat} (hb : 3 ≤ b)
    (h : fitClassifier lib a y s = (.ok (), t)) (h1 : FewValues a.X t.self.isCategorical_ s.self.maxBins) (h2 : FewValues a.X t.self.isCategorical_ b) :
    fitClassifier lib a y { s with self := withMaxBins b s.self } = (.ok (), { t with self := withMaxBins b t.self }) := by
  by_cases hr : s.self.ovr = true → s.self.fitted = true → 2 < (sortedUnique y).length
  · obtain ⟨g1, g2, g3, g4, h⟩ := fitClassifier_needs hy hr h
    exact fitClassifier_of (s := { s with self := withMaxBins b s.self }) hy hr g1 g2 g3 g4 (fitRest_maxBins hb h h1 h2)
  · push Not at hr
    exact absurd h (fitClassifier_refit hr.1 hr.2.1 hr.2.2)

/-- **C115** When `categorical_features` is given, `cat_min_categories` has no effect on `fit` of a regressor. -/
theorem C115_regressor {lib : Lib V K F G W} {a : FitArgs N V} {y : List F} {s t : World L V K F F G W} {cm : CatMin} {m : Nat} (hd : Declares a.categorical)
    (hcm : CatMinAccepted cm) (hm : MinCategories lib a.nRows m cm) (h : fitRegressor lib a y s = (.ok (), t)) :
    fitRegressor lib a y { s with self := withCatMin cm m s.self } = (.ok (), { t with self := withCatMin cm m t.self }) := by
  obtain ⟨g1, g2, h⟩ := fitRegressor_needs h
  exact fitRegressor_of (s := { s with self := withCatMin cm m s.self }) g1 g2 (fitRest_catMin hd hcm hm h)

/-- **C115** The same for a classifier. -/
theorem C115_classifier {lib : Lib V K F G W} {a : FitArgs N V} {y : List L} (hy : y ≠ []) {s t : World L V K F (List F) G W} {cm : CatMin} {m : Nat}
    (hd : Declares a.categorical) (hcm : CatMinAccepted cm) (hm : MinCategories lib a.nRows m cm) (h : fitClassifier lib a y s = (.ok (), t)) :
    fitClassifier lib a y { s with self := withCatMin cm m s.self } = (.ok (), { t with self := withCatMin cm m t.self }) := by
  by_cases hr : s.self.ovr = true → s.self.fitted = true → 2 < (sortedUnique y).length
  · obtain ⟨g1, g2, g3, g4, h⟩ := fitClassifier_needs hy hr h
    exact fitClassifier_of (s := { s with self := withCatMin cm m s.self }) hy hr g1 g2 g3 g4 (fitRest_catMin hd hcm hm h)
  · push Not at hr
    exact absurd h (fitClassifier_refit hr.1 hr.2.1 hr.2.2)

/-- **C114** Forests that differ in `max_bins` only answer alike. -/
theorem C114_predict (lib : Lib V K F G W) (b : Nat) (X : Dataset N V) (n : Nat) (eps : F) :
    (∀ e : Est L V K F P G, (withMaxBins b e).apply lib n X = e.apply lib n X) ∧
    (∀ e : Est L V K F (List F) G, (withMaxBins b e).predictProba lib eps n X = e.predictProba lib eps n X) ∧
    (∀ e : Est L V K F (List F) G, (withMaxBins b e).predict lib eps n X = e.predict lib eps n X) ∧
    ∀ e : Est L V K F F G, (withMaxBins b e).predictReg lib n X = e.predictReg lib n X := by
  have henc : ∀ {P : Type} (e : Est L V K F P G), (withMaxBins b e).encode lib n X = e.encode lib n X := fun e =>
    encode_encoder (f := fun c => { c with maxBins := b }) (fun _ => rfl) rfl n X
  refine ⟨fun e => ?_, fun e => ?_, fun e => ?_, fun e => ?_⟩
  · unfold Est.apply; rw [henc]; rfl
  · unfold Est.predictProba; rw [henc]; rfl
  · unfold Est.predict Est.predictProba; rw [henc]; rfl
  · unfold Est.predictReg; rw [henc]; rfl

/-- **C115** Forests that differ in `cat_min_categories` only answer alike. -/
theorem C115_predict (lib : Lib V K F G W) (cm : CatMin) (m : Nat) (X : Dataset N V) (n : Nat) (eps : F) :
    (∀ e : Est L V K F P G, (withCatMin cm m e).apply lib n X = e.apply lib n X) ∧
    (∀ e : Est L V K F (List F) G, (withCatMin cm m e).predictProba lib eps n X = e.predictProba lib eps n X) ∧
    (∀ e : Est L V K F (List F) G, (withCatMin cm m e).predict lib eps n X = e.predict lib eps n X) ∧
    ∀ e : Est L V K F F G, (withCatMin cm m e).predictReg lib n X = e.predictReg lib n X := by
  have henc : ∀ {P : Type} (e : Est L V K F P G), (withCatMin cm m e).encode lib n X = e.encode lib n X := fun e =>
    encode_encoder (f := fun c => { c with catMin := m }) (fun _ => rfl) rfl n X
  refine ⟨fun e => ?_, fun e => ?_, fun e => ?_, fun e => ?_⟩
  · unfold Est.apply; rw [henc]; rfl
  · unfold Est.predictProba; rw [henc]; rfl
  · unfold Est.predict Est.predictProba; rw [henc]; rfl
  · unfold Est.predictReg; rw [henc]; rfl

end

/-- **C113** With real numbers: the classes are equally frequent when the number of classes times the number of rows of any class is the number of rows. -/
theorem C113_real {L V K G W N : Type} [LinearOrder L] [DecidableEq V] [DecidableEq N] [LinearOrder K] [Field K] [IsStrictOrderedRing K] [FloorSemiring K]
    {lib : Lib V K ℝ G W} {a : FitArgs N V} {y : List L} (hy : y ≠ []) {s t : World L V K ℝ (List ℝ) G W} (b : Bool)
    (hf : ∀ l ∈ y, y.dedup.length * y.count l = y.length) (ho : s.self.ovr = false ∨ y.dedup.length ≤ 2) (h : fitClassifier lib a y s = (.ok (), t)) :
    fitClassifier lib a y { s with self := withBalanced b s.self } = (.ok (), { t with self := withBalanced b t.self }) := by
  refine C113_balanced hy b (fun x => mul_one x) (fun l hl => ?_) ho h
  have h0 : (0 : ℝ) < y.length := by exact_mod_cast List.length_pos_iff.2 hy
  show (y.length : ℝ) / ((y.dedup.length : ℝ) * (y.count l : ℝ)) = 1
  rw [show (y.dedup.length : ℝ) * (y.count l : ℝ) = y.length by exact_mod_cast hf l hl]
  exact div_self h0.ne'

/-- **C109**, partial: labels with a single class and any `cat_split_strategy`, when no column is treated as categorical (which `fit` with the strategy "all" tells):
`fit` succeeds and this class is predicted with probability one for every row of every acceptable dataset. -/
theorem C109_numerical_partial {L V K G W N : Type} [LinearOrder L] [DecidableEq V] [DecidableEq N] [LinearOrder K] [Field K] [IsStrictOrderedRing K] [FloorSemiring K]
    {lib : Lib V K ℝ G W} {a : FitArgs N V} {n : Nat} {l : L} {s : World L V K ℝ (List ℝ) G W} {eps : ℝ} (heps : 0 ≤ eps)
    (hlib : LibOK lib a.nRows) (hp : ParamsValid s.self (nCols a.X)) (hd : DataValid lib.conv a s n) (ht : a.targetsOK = true)
    (hrefit : s.self.ovr = true → s.self.fitted = false)
    (hdir : 0 ≤ s.self.dirichlet) (hagg : s.self.aggregation = true → 0 < s.self.dirichlet)
    (hw : ∀ w ∈ s.weights, 0 ≤ w) (hpos : 0 < s.self.dirichlet ∨ ∀ w ∈ s.weights, 0 < w) :
    ∃ s0, fitClassifier lib a (List.replicate n l) { s with self := withStrategy .all s.self } = (.ok (), s0) ∧ ((∀ b ∈ s0.self.isCategorical_, b = false) →
      ∃ s', fitClassifier lib a (List.replicate n l) s = (.ok (), s') ∧ s'.self.classes = [l] ∧ AcceptedBy lib s'.self a.X ∧
        ∀ (N' : Type) [DecidableEq N'] (k : Nat) (X : Dataset N' V), 0 < k → GoodInput k X → AcceptedBy lib s'.self X →
          s'.self.predictProba lib eps k X = .ok (List.replicate k [1]) ∧ s'.self.predict lib eps k X = .ok (List.replicate k l)) := by
  obtain ⟨s0, h1, h2, h3, h4⟩ := C109_classifier_partial (s := { s with self := withStrategy .all s.self }) (l := l) heps hlib ⟨hp.1, hp.2, hp.3, hp.4, hp.5, hp.6, hp.7⟩
    ⟨hd.1, hd.2, hd.3, hd.4, hd.5, hd.6, hd.7⟩ ht hrefit (by simp [withStrategy]) hdir hagg hw hpos
  have hn0 : n ≠ 0 := by
    have hn : n = a.nRows := hd.labels
    rw [hn]; exact Nat.pos_iff_ne_zero.1 hd.rows.1
  refine ⟨s0, h1, fun hc => ⟨_, C111_fit (s := { s with self := withStrategy .all s.self }) (by simp [hn0]) s.self.strategy hc h1, h2, h3, fun N' _ k X hk hX hA => ?_⟩⟩
  exact h4 N' k X hk hX hA

/-! ### Examples -/

section
attribute [local instance] ratNum

/-- With a categorical column the strategy has an effect: the generator has moved. -/
example : fitClassifier modeLib (modeArgs none) modeY3 (ratWorld 1 false .random) ≠
    (.ok (), { (fitClassifier modeLib (modeArgs none) modeY3 (ratWorld 1 false .all)).2 with
      self := withStrategy .random (fitClassifier modeLib (modeArgs none) modeY3 (ratWorld 1 false .all)).2.self }) := by
  intro h
  have h2 : (fitClassifier modeLib (modeArgs none) modeY3 (ratWorld 1 false .random)).2.self.trees.map (·.work.rng) =
    (fitClassifier modeLib (modeArgs none) modeY3 (ratWorld 1 false .all)).2.self.trees.map (·.work.rng) := by rw [h]; rfl
  exact absurd h2 (by decide +kernel)

/-- `C113_balanced`: two classes with four rows each. -/
example : ∃ t : World Nat Nat ℚ ℚ (List ℚ) Nat Nat, fitClassifier modeLib (modeArgs none) modeY (ratWorld 1 false .binary) = (.ok (), t) ∧
    fitClassifier modeLib (modeArgs none) modeY { ratWorld 1 false .binary with self := withBalanced true (ratWorld 1 false .binary).self } =
      (.ok (), { t with self := withBalanced true t.self }) := by
  have h : fitClassifier modeLib (modeArgs none) modeY (ratWorld 1 false .binary) =
    (.ok (), (fitClassifier modeLib (modeArgs none) modeY (ratWorld 1 false .binary)).2) := Prod.ext (by decide +kernel) rfl
  exact ⟨_, h, C113_balanced (by decide) true (fun x => mul_one x) (by decide +kernel) (.inl rfl) h⟩

end

/-- The fit of the examples: three classes, `X` with six rows, `cat_min_categories` and `max_bins`. -/
theorem set_fit (cf : CatFeatures) (hcf : cf = .none ∨ cf = .ints [0]) {cm : CatMin} (hcm : CatMinAccepted cm) {b : Nat} (hb : 3 ≤ b ∧ b < 2 ^ 63) :
    ∃ t, fitClassifier estLib { estArgs none false with categorical := cf } [3, 3, 5, 5, 8, 8]
      { estWorld (List ℝ) false true .none 0 with self := { (estWorld (List ℝ) false true .none 0).self with catMin := cm, maxBins := b } } = (.ok (), t) := by
  have hd := estData_valid (P := List ℝ) (ovr := false) (balanced := true) (cf := .none) (np := 0) none false
  have hp := estToy_valid (P := List ℝ) (ovr := false) (balanced := true) (cf := .none) (sub := none) 2
  obtain ⟨ic, -, hf⟩ := hd.fittable
  obtain ⟨e0, o, -, h, -⟩ := fitClassifier_ok (okW := fun _ => True) (a := { estArgs none false with categorical := cf }) (y := [3, 3, 5, 5, 8, 8])
    (s := { estWorld (List ℝ) false true .none 0 with self := { (estWorld (List ℝ) false true .none 0).self with catMin := cm, maxBins := b } })
    (estLib_ok (n := 6) (by norm_num)) ⟨hp.1, hb, hp.3, hp.4, hp.5, hp.6, hp.7.1, hcm⟩
    ⟨hd.1, hd.2, hd.3, hd.4, hd.5, hd.6, by
      rcases hcf with rfl | rfl
      · exact ⟨none, rfl, hf⟩
      · exact ⟨some [true, false], rfl, hf⟩⟩ rfl (fun h => by cases h)
    (fun _ h => absurd (of_decide_eq_true h.1) (by norm_num [estWorld, estToy, Num.zero])) est_strategy (fun k _ => Nat.floor_natCast k) (fun _ _ => trivial)
  exact ⟨_, h⟩

/-- `C110_classifier`: two columns, None and 1.0 both mean two features; six rows, "log" and "sqrt" both mean two categories; no subsample and one of 60000 rows. -/
example : ∃ (s t : World Nat Nat ℚ ℝ (List ℝ) Nat Nat), s.self.catMin = .log ∧ fitClassifier estLib { estArgs none false with categorical := .none } [3, 3, 5, 5, 8, 8] s = (.ok (), t) ∧
    fitClassifier estLib { estArgs none false with categorical := .none } [3, 3, 5, 5, 8, 8] { s with self := withSpelling (.float (some 1)) (some 60000) .sqrt s.self } =
      (.ok (), { t with self := withSpelling (.float (some 1)) (some 60000) .sqrt t.self }) := by
  obtain ⟨t, h⟩ := set_fit .none (.inl rfl) (cm := .log) (fun k hk => by cases hk) (b := 5) ⟨by norm_num, by norm_num⟩
  refine ⟨_, t, rfl, h, C110_classifier (k := 2) (m := 2) (by decide) (by decide) rfl ?_ rfl ?_ ?_ ?_ ?_ ?_ ?_ h⟩
  · simp [setMaxFeatures]
  · exact ⟨1, rfl, .inl (by norm_num [estArgs, estX, nCols])⟩
  · intro k hk; cases hk
  · intro k hk; cases hk; exact ⟨by norm_num, by norm_num [estArgs]⟩
  · intro k hk; cases hk
  · exact .inr ⟨rfl, by decide⟩
  · exact .inl ⟨Nat.eq_sqrt (n := 6).2 (by decide), le_rfl⟩

/-- `C114_classifier`: at most six values per column; 6 bins or 100. -/
example : ∃ (s t : World Nat Nat ℚ ℝ (List ℝ) Nat Nat), s.self.maxBins = 6 ∧ fitClassifier estLib { estArgs none false with categorical := .none } [3, 3, 5, 5, 8, 8] s = (.ok (), t) ∧
    fitClassifier estLib { estArgs none false with categorical := .none } [3, 3, 5, 5, 8, 8] { s with self := withMaxBins 100 s.self } =
      (.ok (), { t with self := withMaxBins 100 t.self }) := by
  obtain ⟨t, h⟩ := set_fit .none (.inl rfl) (cm := .int 4) (fun k hk => by cases hk; decide) (b := 6) ⟨by norm_num, by norm_num⟩
  have hfew : ∀ b ic, 6 ≤ b → FewValues estX ic b := fun b ic hb j cells _ hj => by
    unfold columnOf estX at hj
    simp only at hj
    rcases j with _ | _ | j
    all_goals simp at hj
    all_goals subst hj; exact le_trans (by decide) hb
  exact ⟨_, t, rfl, h, C114_classifier (by decide) (by decide) h (hfew _ _ le_rfl) (hfew _ _ (by decide))⟩

/-- `C115_classifier`: the first column is declared as categorical; `cat_min_categories` is 4 or "log". -/
example : ∃ (s t : World Nat Nat ℚ ℝ (List ℝ) Nat Nat), s.self.catMin = .int 4 ∧ fitClassifier estLib { estArgs none false with categorical := .ints [0] } [3, 3, 5, 5, 8, 8] s = (.ok (), t) ∧
    fitClassifier estLib { estArgs none false with categorical := .ints [0] } [3, 3, 5, 5, 8, 8] { s with self := withCatMin .log 2 s.self } =
      (.ok (), { t with self := withCatMin .log 2 t.self }) := by
  obtain ⟨t, h⟩ := set_fit (.ints [0]) (.inr rfl) (cm := .int 4) (fun k hk => by cases hk; decide) (b := 6) ⟨by norm_num, by norm_num⟩
  exact ⟨_, t, rfl, h, C115_classifier (by decide) (by simp [Declares]) (fun k hk => by cases hk) (.inr ⟨rfl, by decide⟩) h⟩

/-- No column of the example is categorical. -/
theorem num_noCat {y : List Nat} (hy : y ≠ []) {s t : World Nat Nat ℚ ℝ (List ℝ) Nat Nat} (ho : s.self.ovr = false) (hk : s.self.catMin = .int 4)
    (h : fitClassifier estLib numArgs y s = (.ok (), t)) : ∀ b ∈ t.self.isCategorical_, b = false := by
  obtain ⟨-, -, -, -, h⟩ := fitClassifier_needs hy (fun h => by rw [ho] at h; cases h) h
  obtain ⟨o, rfl⟩ := fitRest_inv h
  intro b hb
  have hb' : b ∈ o.enc.map FitCol.isCat := hb
  obtain ⟨fc, hfc, rfl⟩ := List.mem_map.1 hb'
  obtain ⟨j, hj, rfl⟩ := List.mem_iff_getElem.1 hfc
  have hic : o.ic = none := by
    have := o.hic; simp only [getIsCategorical, numArgs] at this; injection this with this; exact this.symm
  have hl : o.enc.length = 1 := encoderFit_length o.henc
  obtain rfl : j = 0 := by omega
  obtain ⟨decl, fc, h4, -, h5, h6⟩ := C10_fit_frame_partial o.henc 0 "a" _ rfl
  rw [List.getElem?_eq_getElem hj] at h4
  obtain rfl := Option.some.inj h4
  have h7 : decl = none := by
    rw [show (Est.encCfg estLib _ numArgs.nRows o.ic).isCategorical = none from hic] at h5; exact h5
  subst h7
  have h8 := h6 (fun h => by cases h)
  cases h9 : o.enc[0] with
  | num _ => rfl
  | cat cs =>
    have := h8.1 ⟨cs, h9⟩
    rw [show (Est.encCfg estLib (preparedEst (withCategorical numArgs.categorical s.self) y) numArgs.nRows o.ic).catMin = 4 by
      show CatMin.value estLib numArgs.nRows s.self.catMin = 4
      rw [hk]; rfl] at this
    exact absurd this (by unfold ShouldBeCategorical; decide)

/-- `C111_fit`: a numerical column, three classes; "random" instead of "all". -/
example : ∃ t : World Nat Nat ℚ ℝ (List ℝ) Nat Nat, fitClassifier estLib numArgs [3, 3, 5, 5, 8, 8] (estWorld _ false true .none 0) = (.ok (), t) ∧
    fitClassifier estLib numArgs [3, 3, 5, 5, 8, 8] { estWorld (List ℝ) false true .none 0 with self := withStrategy .random (estWorld (List ℝ) false true .none 0).self } =
      (.ok (), { t with self := withStrategy .random t.self }) := by
  obtain ⟨e0, o, -, h, -⟩ := fitClassifier_ok (okW := fun _ => True) (a := numArgs) (y := [3, 3, 5, 5, 8, 8]) (s := estWorld (List ℝ) false true .none 0)
    (estLib_ok (n := 6) (by norm_num)) (estToy_valid _) (numData_valid _) rfl (fun h => by cases h)
    (fun _ h => absurd (of_decide_eq_true h.1) (by norm_num [estWorld, estToy, Num.zero])) est_strategy (fun k _ => Nat.floor_natCast k) (fun _ _ => trivial)
  exact ⟨_, h, C111_fit (by decide) .random (num_noCat (by decide) rfl rfl h) h⟩

/-- `C109_numerical_partial`: a numerical column, the strategy "binary", six rows of class 3. -/
example : ∃ s' : World Nat Nat ℚ ℝ (List ℝ) Nat Nat, fitClassifier estLib numArgs (List.replicate 6 3)
    { estWorld (List ℝ) false true .none 0 with self := withStrategy .binary (estWorld (List ℝ) false true .none 0).self } = (.ok (), s') ∧ s'.self.classes = [3] := by
  have hd := numData_valid (estWorld (List ℝ) false true .none 0)
  have hp := estToy_valid (P := List ℝ) (ovr := false) (balanced := true) (cf := .none) (sub := none) 1
  obtain ⟨s0, h1, h2⟩ := C109_numerical_partial (s := { estWorld (List ℝ) false true .none 0 with self := withStrategy .binary (estWorld (List ℝ) false true .none 0).self })
    (a := numArgs) (n := 6) (l := 3) (eps := 0) le_rfl (estLib_ok (n := 6) (by norm_num)) ⟨hp.1, hp.2, hp.3, hp.4, hp.5, hp.6, hp.7⟩
    ⟨hd.1, hd.2, hd.3, hd.4, hd.5, hd.6, hd.7⟩ rfl (fun _ => rfl)
    (by norm_num [withStrategy, estWorld, estToy]) (fun _ => by norm_num [withStrategy, estWorld, estToy])
    (fun w hw => (realW_pos w hw).le) (.inl (by norm_num [withStrategy, estWorld, estToy]))
  obtain ⟨s', h3, h4, -⟩ := h2 (num_noCat (by decide) rfl rfl h1)
  exact ⟨s', h3, h4⟩

/-- The hypotheses of `C112_classifier` hold: a split needs one or two rows. -/
example : ∃ s1 s2 : World Nat Nat ℚ ℝ (List ℝ) Nat Nat, fitClassifier estLib (estArgs none false) [3, 3, 5, 5, 8, 8] (estWorld (List ℝ) false true .none 0) = (.ok (), s1) ∧
    fitClassifier estLib (estArgs none false) [3, 3, 5, 5, 8, 8]
      { estWorld (List ℝ) false true .none 0 with self := { (estWorld (List ℝ) false true .none 0).self with minSplit := 1 } } = (.ok (), s2) ∧
    s2.self.predict estLib 0 6 estX = s1.self.predict estLib 0 6 estX := by
  have hd := estData_valid (P := List ℝ) (ovr := false) (balanced := true) (cf := .none) (np := 0) none false
  have hp := estToy_valid (P := List ℝ) (ovr := false) (balanced := true) (cf := .none) (sub := none) 2
  obtain ⟨s1, s2, h1, h2, h3⟩ := C112_classifier (y := [3, 3, 5, 5, 8, 8]) (ms := 1) (estLib_ok (n := 6) (by norm_num)) hp hd rfl (fun h _ => by cases h) est_strategy
    (by
      intro _ h
      have := h.1
      simp only [estWorld, estToy, Num.le, Num.zero] at this
      norm_num at this) (fun k _ => by simp [Num.toNat, Num.ofNat]) (by norm_num) (by norm_num [estWorld, estToy]) (by norm_num [estWorld, estToy])
  exact ⟨s1, s2, h1, h2, ((h3 (.inl (by simp [estWorld, estToy]))).2.2 _ 0 6 estX).2.1⟩

end Verif
