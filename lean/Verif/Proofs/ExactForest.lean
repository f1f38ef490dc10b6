import Verif.Proofs.ExactTree
import Verif.Proofs.FullForest

/-! The predictions of trees without limits for their own rows, when the sums are exact. -/
set_option linter.unusedSectionVars false
namespace Verif

open Spec

section
variable {F Y P G V : Type} [Num F] [AddCommGroup V] {T : Task F Y P G} {lab : F → Prop} {c : Ctx F} {D : Data F}
  {train valid : List Nat} {arr : TreeArr F P} {w : Work G}

/-- The weights of a tree after the bootstrap, in any arithmetic. -/
theorem bootData_weight (D : Data F) {n : Nat} {draws : List Nat} {i : Nat} (h : i ∈ drawnRows n draws) :
    (bootData D ⟨drawnRows n draws, leftOutRows n draws, (drawnRows n draws).map draws.count⟩).w i = Num.mul (D.w i) (Num.ofNat (draws.count i)) := by
  have key : ∀ l : List Nat, (l.zip (l.map draws.count)).lookup i = if i ∈ l then some (draws.count i) else none := by
    intro l
    induction l with
    | nil => simp
    | cons a l ih =>
      rw [List.map_cons, List.zip_cons_cons, List.lookup_cons]
      by_cases h : i = a
      · subst h; simp
      · have hb : (i == a) = false := by simpa using h
        rw [hb, ih]
        simp [h]
  simp only [bootData, key, if_pos h]

/-- The prediction of a tree without limits for a training row with a consistent label comes from rows with this label only. -/
theorem pure_leaf {α : Type} {R : Rng G} {gb : Garbage F} {seed N : Nat} {Rw : F → ℤ → Prop} {bw : ℤ → Prop} {kw : Nat → ℤ} {Ry : Y → V → Prop}
    {bv : V → Prop} {e : Nat → V} {Q : ℤ → V → F → Prop} {cls : Nat → α} (hV : ValidTask T lab)
    (hne : ∀ bins ySum g os g', T.orders bins ySum g = .ok (os, g') → os ≠ [])
    (hG : GainLaws F) (hI : LtIrrefl F) (hinf : ∀ x : F, Num.gtNegInf x = true) (hin : FitInput c D lab train valid)
    (hf : fitTree R T c gb seed train valid = .ok (arr, w))
    (hN : train.length ≤ N) (hlim : LimitFor N c.maxDepth none) (hagg : c.aggregation = false) (hsplit : c.minSplit = 2) (hleaf : c.minLeaf = 1)
    (hmf : c.maxFeatures = D.d) (E : ExactSums T D train Rw bw kw Ry bv e)
    (hQ : ∀ {wL wR a b x y u u' v v'}, T.childs wL wR a b = .ok (x, y) → Rw wL u → Rw wR u' → Ry a v → Ry b v' → Q u v x ∧ Q u' v' y)
    (hpure : ∀ (l : List Nat) (x : F), l.Sublist train → Q (l.map kw).sum (l.map e).sum x → Num.le x Num.zero = true →
      ∀ i ∈ l, ∀ r ∈ l, cls r = cls i) :
    ∃ v : Nat → P, (∀ (mix : F → P → P → P) (fba : FBA) (step : F) (i : Nat), (∀ j, j < D.d → fba.getValue i j = .ok (D.X i j)) →
        predictRow mix arr fba false step i = .ok (v i)) ∧
      ∀ i ∈ train, Consistent D.d D.X cls train i → ∃ l : List Nat, l.Sublist train ∧ i ∈ l ∧ (∀ r ∈ l, cls r = cls i) ∧ nodePred T D l = .ok (v i) := by
  obtain ⟨okY, okP, hT⟩ := validTask_safe hV
  obtain ⟨t, hfit⟩ := fitted_of hT hin hf
  have h := hfit.facts
  refine ⟨fun i => (leafNode (D.X i) t).nc.yPred, fun mix fba step i hx => predictRow_leaf h hx mix step, fun i hi hc => ?_⟩
  have hs := leafNode_sub (D.X i) t 0
  obtain ⟨hnf, -, -⟩ := h.ok.sub hs
  obtain ⟨feats, -, h2, -⟩ := hnf.stats
  have hsub := h.train_sublist hs
  have hmem : i ∈ (leafNode (D.X i) t).train := by
    have h3 := (h.routed _ _ hs).1
    simp only [GTree.root] at h3
    rw [h3]
    unfold routed
    have := (h.leafOf_visits (D.X i) t 0 (.refl _ _) .root).1
    exact List.mem_filter.2 ⟨hi, by simpa using this⟩
  refine ⟨_, hsub, hmem, fun r hr => ?_, h2.yPred⟩
  rcases leaf_reason hV hT hne hG hI hinf hin hf h hN hlim hagg hsplit hleaf hmf hs hmem hr with rfl | hb | ⟨hk, x, hx, hx0⟩
  · rfl
  · exact hc r (hsub.subset hr) hb
  · obtain ⟨x', hx', hq⟩ := E.impurity hT hQ hin.holds hin.params h hs hk
    simp only [GTree.root] at hx' hq
    obtain rfl : x = x' := Option.some.inj (hx.symm.trans hx')
    exact hpure _ x hsub hq hx0 i hmem r hr

end

section
variable {L V K F Y P G W N : Type} [Num F] [LinearOrder L] [DecidableEq V] [DecidableEq N] [LinearOrder K] [Field K] [IsStrictOrderedRing K] [FloorSemiring K]

/-- One tree of a forest without limits: its settings, its data and its bootstrap. -/
structure FreeTree (lib : Lib V K F G W) (a : FitArgs N V) (T : Task F Y P G) (lab : F → Prop) (train : FBA) (y w : List F) (seed : Nat) (draws : List Nat)
    (c : Ctx F) (ob : TreeObj F P G) : Prop where
  boot : BootstrapOf (lib.boot a.nRows) a.nRows seed draws
  counts : ((drawnRows a.nRows draws).map draws.count).sum = a.nRows
  input : FitInput c (bootData (encData train y w) ⟨drawnRows a.nRows draws, leftOutRows a.nRows draws, (drawnRows a.nRows draws).map draws.count⟩) lab
    (drawnRows a.nRows draws) (leftOutRows a.nRows draws)
  fit : ∃ gb, fitTree lib.rng T c gb seed (drawnRows a.nRows draws) (leftOutRows a.nRows draws) = .ok (ob.arr, ob.work)
  limit : LimitFor a.nRows c.maxDepth none
  agg : c.aggregation = false ∧ ob.aggregation = false
  minSplit : c.minSplit = 2
  minLeaf : c.minLeaf = 1
  features : c.maxFeatures = nCols a.X

/-- The trees of a forest without limits. -/
theorem FitFacts.free {lib : Lib V K F G W} {a : FitArgs N V} {p : FitData F Y P G} {lab : F → Prop} {okW : List F → Prop} {e e1 : Est L V K F P G} {np : W}
    (hlib : LibOK lib a.nRows) (hn : 0 < a.nRows ∧ a.nRows < 2 ^ 63) (hg : GoodInput a.nRows a.X) (hc : 1 ≤ nCols a.X) (hacc : ParamsValid e1 (nCols a.X))
    (hno : NoLimits e1 a) (h1 : e.aggregation = e1.aggregation) (h2 : e.minSplit = e1.minSplit) (h3 : e.minLeaf = e1.minLeaf)
    (h4 : e.maxDepth = e1.maxDepth) (h5 : e.maxFeatures = e1.maxFeatures) (o : Outcome lib a p e np) (h : FitFacts lib a p lab okW e o.est) :
    ∃ train, o.est.encode lib a.nRows a.X = .ok train ∧ train.nSamples = a.nRows ∧ train.nFeatures = nCols a.X ∧ RowsOK train (nCols a.X) ∧
      ∀ (t : Nat) (ob : TreeObj F P G), o.est.trees[t]? = some ob → ∃ seed y w draws c, o.est.seeds[t]? = some seed ∧
        p.ys[if p.ovr then t / e.nEstimators else 0]? = some y ∧ p.ws[if p.ovr then t / e.nEstimators else 0]? = some w ∧
        y.length = a.nRows ∧ w.length = a.nRows ∧ FreeTree lib a (p.task e.dirichlet) lab train y w seed draws c ob := by
  obtain ⟨train, htr, hrows, hcols, hall⟩ := h.indexed
  obtain ⟨cfg, enc, henc, -, -, -, -, -, hacc'⟩ := h.encoder
  obtain ⟨fba, hb, -, hx⟩ := h.encode hn.1 hg (fun c e h => by
    have := h.symm.trans henc
    injection this with this
    obtain ⟨rfl, rfl⟩ := Prod.mk.inj this
    exact hacc')
  obtain rfl : fba = train := Except.ok.inj (hb.symm.trans htr)
  refine ⟨fba, htr, hrows, hcols, hx, fun t ob ht => ?_⟩
  obtain ⟨c, gb, seed, y, w, g1, g2, g3, g4, g5, g6, g7, -, g9, g10⟩ := hall t _ ht
  have hD : (encData fba y w).n = a.nRows := hrows
  obtain ⟨b, w', hgen, hB⟩ := buildTree_boot (D := encData fba y w) (by rw [hD]; exact hlib.boot) g9 (by rw [g6, g5]; exact hrows.symm) g10
  rw [hD] at hgen
  obtain ⟨draws, hbs, hdr⟩ := genTV_explicit hgen
  have hset0 := o.settings ht hB.ctx hn.2
  obtain ⟨hset, lim, hl1, hl2⟩ := hset0
  have hft : FeaturesTried e.maxFeatures (nCols a.X) o.est.maxFeatures_ := featuresTried_ok hc (by rw [h5]; exact hacc.accepted) o.hmf
  rw [h5] at hft
  obtain ⟨rfl, l1, l2, l3, l4⟩ := TreeSettings.noLimits hno h1 h2 h3 h4 hft hset hl1
  have hpart := hB.part
  rw [hD] at hpart
  have hdr' : b = ⟨drawnRows a.nRows draws, leftOutRows a.nRows draws, (drawnRows a.nRows draws).map draws.count⟩ := hdr
  subst hdr'
  exact ⟨seed, y, w, draws, _, g1, g2, g3, g4, g5, hbs, hpart.2.2.2.2.2, hB.input, ⟨gb, hB.fit⟩, hl2, ⟨l1, by rw [hB.agg, ← l1]⟩, l2, l3, l4⟩

end

end Verif
