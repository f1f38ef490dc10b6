import Verif.Proofs.EndForest
import Verif.Props.Gain
import Verif.Props.Grow
import Verif.Spec.Greedy

/-! The trees of a fitted forest and the hyperparameters. -/
set_option linter.unusedSectionVars false
namespace Verif

open Spec

section
variable {K : Type} [LinearOrder K] [Field K] [IsStrictOrderedRing K] [FloorSemiring K]

theorem featuresTried_ok {mf : MaxFeatures K} {d k : Nat} (hd : 1 ≤ d) (hs : setMaxFeatures mf = .ok mf) (h : getMaxFeatures mf d = .ok k) :
    FeaturesTried mf d k := by
  have hsq : ∀ {k}, max 1 d.sqrt = k → k * k ≤ d ∧ d < (k + 1) * (k + 1) := by
    rintro _ rfl
    have h1 : 1 ≤ d.sqrt := Nat.le_sqrt.2 (by omega)
    rw [max_eq_right h1]
    exact ⟨Nat.sqrt_le d, Nat.lt_succ_sqrt d⟩
  cases mf with
  | none => simp only [getMaxFeatures, Except.ok.injEq] at h; exact h.symm
  | str s =>
    simp only [setMaxFeatures] at hs
    split at hs
    · rename_i hs'
      simp only [getMaxFeatures] at h
      rcases hs' with rfl | rfl | rfl
      · simp only [FeaturesTried]; rw [if_neg (by decide)]
        exact hsq (by simpa using h)
      · simp only [FeaturesTried, if_true]
        have h : max 1 (Nat.log 2 d) = k := by simpa using h
        subst h
        by_cases h2 : 2 ≤ d
        · left
          have h1 : 1 ≤ Nat.log 2 d := Nat.log_pos (by omega) h2
          rw [max_eq_right h1]
          exact ⟨Nat.pow_log_le_self 2 (by omega), Nat.lt_pow_succ_log_self (by omega) d⟩
        · right
          exact ⟨by rw [Nat.log_of_lt (by omega)]; rfl, by omega⟩
      · simp only [FeaturesTried]; rw [if_neg (by decide)]
        exact hsq (by simpa using h)
    · cases hs
  | int i =>
    simp only [setMaxFeatures] at hs
    split at hs
    · cases hs
    · simp only [getMaxFeatures] at h
      split at h
      · cases h
      · injection h with h
        simp only [FeaturesTried]; omega
  | float f =>
    cases f with
    | none => simp [getMaxFeatures] at h
    | some x =>
      simp only [getMaxFeatures] at h
      split at h
      · cases h
      · rename_i hx
        push Not at hx
        injection h with h
        subst h
        refine ⟨x, rfl, ?_⟩
        have h0 : 0 ≤ x * d := mul_nonneg hx.2.le (Nat.cast_nonneg d)
        by_cases h1 : x * d < 1
        · right
          exact ⟨by rw [Nat.floor_eq_zero.2 h1]; rfl, h1⟩
        · left
          have hf : 1 ≤ ⌊x * d⌋₊ := Nat.one_le_floor_iff _ |>.2 (not_lt.1 h1)
          rw [max_eq_right hf]
          exact ⟨Nat.floor_le h0, Nat.lt_floor_add_one _, hf⟩
  | other => simp [getMaxFeatures] at h

end

section
variable {F Y P G : Type} [Num F]

theorem depth_le_index {arr : TreeArr F P} (h : WellFormed arr) : ∀ k n, NodeAt arr k n → n.depth ≤ k := by
  intro k
  induction k using Nat.strong_induction_on with
  | _ k ih =>
    intro n hn
    by_cases hk : k = 0
    · subst hk; rw [h.rootDepth n hn]
    · obtain ⟨p, ⟨np, hp, hc⟩, -⟩ := h.parent k n hn hk
      have hl : np.isLeaf = false := by
        by_contra hl
        have := h.leaf p np hp (by simpa using hl)
        rcases hc with hc | hc <;> simp [this] at hc
      obtain ⟨l, r, nl, nr, h1, h2, -, h3, h4, h5, h6, -, -, h7, h8⟩ := h.children p np hp hl
      rcases hc with hc | hc
      · rw [h1] at hc; injection hc with hc; subst hc
        have : nl = n := by have := h5.2.symm.trans hn.2; injection this
        subst this
        have := ih p h3 np hp
        omega
      · rw [h2] at hc; injection hc with hc; subst hc
        have : nr = n := by have := h6.2.symm.trans hn.2; injection this
        subst this
        have := ih p h4 np hp
        omega

/-- The limit that a tree gets for its depth: `none` stands for a number that no tree reaches. -/
def LimitFor (n maxDepth : Nat) (lim : Option Nat) : Prop := lim = some maxDepth ∨ lim = none ∧ 2 * n ≤ maxDepth

variable {R : Rng G} {T : Task F Y P G} {lab : F → Prop} {c : Ctx F} {D : Data F} {gb : Garbage F} {seed : Nat}
  {train valid : List Nat} {arr : TreeArr F P} {w : Work G}

/-- The limits of one tree. -/
theorem tree_limits (hT : ValidTask T lab) (h : FitInput c D lab train valid) (hf : fitTree R T c gb seed train valid = .ok (arr, w)) {N : Nat}
    (hN : train.length ≤ N) {lim : Option Nat} (hlim : LimitFor N c.maxDepth lim) :
    WellFormed arr ∧ ∀ k n, NodeAt arr k n → n.nTrain = (routed arr D train k).length ∧ n.nValid = (routed arr D valid k).length ∧
      (c.maxDepth ≤ n.depth → ∃ m, lim = some m ∧ m ≤ n.depth) ∧
      WithinLimits c.minSplit c.minLeaf lim c.aggregation k n (routed arr D train k) (routed arr D valid k) := by
  have hwf := C21_well_formed hT h hf
  refine ⟨hwf, fun k n hn => ?_⟩
  obtain ⟨_, h1, _, h2⟩ := (C22_routing hT h hf).1 k n hn
  obtain ⟨s1, _, s3⟩ := C19_stopping hT h hf hn
  obtain ⟨arr', w', hf', _, hcount, _⟩ := C20_grow_terminates R hT gb seed h
  rw [hf] at hf'
  injection hf' with hf'
  obtain ⟨rfl, rfl⟩ := Prod.mk.inj hf'
  have hdep := depth_le_index hwf k n hn
  have hkc := hn.1
  have hpos : 1 ≤ train.length := List.length_pos_of_ne_nil h.nonempty
  refine ⟨h1, h2, fun hc => ?_, fun m hm => ?_, fun hk => ?_, fun hl => ?_⟩
  · rcases hlim with rfl | ⟨_, h0⟩
    · exact ⟨_, rfl, hc⟩
    · omega
  · rcases hlim with rfl | ⟨rfl, _⟩
    · injection hm with hm; omega
    · cases hm
  · have := C18_min_samples_leaf hT h hf hn (fun h0 => hk ((hwf.root k n hn).1 h0))
    rw [h1, h2] at this
    exact this
  · obtain ⟨a1, a2, a3, _⟩ := s3 hl
    rw [h1] at a1
    rw [h2] at a2
    refine ⟨a1, a2, fun m hm => ?_⟩
    rcases hlim with rfl | ⟨rfl, _⟩
    · injection hm with hm; omega
    · cases hm

end

section
variable {Y P G : Type} {R : Rng G} {T : Task ℝ Y P G} {lab : ℝ → Prop} {I : Data ℝ → List Nat → ℝ} {Ks : List (List Key)}
  {c : Ctx ℝ} {D : Data ℝ} {gb : Garbage ℝ} {seed : Nat} {train valid : List Nat} {arr : TreeArr ℝ P} {w : Work G}

theorem realTask_valid (hT : RealTask T lab I Ks) : ValidTask T lab := by
  cases hT with
  | classifier R nClasses d cr ha hs => exact .classifier R nClasses d cr ha.1 hs
  | regressor ha => exact .regressor ha.1

/-- One tree is grown greedily. -/
theorem tree_greedy (hT : RealTask T lab I Ks) (h : FitInput c D lab train valid) (hw : ∀ i ∈ train, 0 < D.w i)
    (hf : fitTree R T c gb seed train valid = .ok (arr, w)) {N : Nat} (hN : train.length ≤ N) {lim : Option Nat} (hlim : LimitFor N c.maxDepth lim) :
    Greedy I Ks c lim D train valid arr := by
  obtain ⟨hwf, hnodes⟩ := tree_limits (realTask_valid hT) h hf hN hlim
  refine ⟨hwf, fun k n hn => (hnodes k n hn).2.2.2, fun k n hn hl => ?_, fun k n hn hl => ?_⟩
  · obtain ⟨g1, _, g3⟩ := C26_max_gain hT h hw hf hn
    refine ⟨fun hk => ?_, g1 hl⟩
    have := ((C19_stopping (realTask_valid hT) h hf hn).2.2 hl).2.2.2 _ (g3 hk)
    simp only [Num.le, Num.zero, decide_eq_false_iff_not] at this
    exact not_le.1 this
  · obtain ⟨_, g2, _⟩ := C26_max_gain hT h hw hf hn
    obtain ⟨h1, h2, h3, _⟩ := hnodes k n hn
    rcases g2 hl with (g | ⟨ga, g⟩ | g | g) | g
    · exact .inl (.inl (by omega))
    · exact .inl (.inr (.inl ⟨ga, by omega⟩))
    · exact .inl (.inr (.inr (.inl (h3 g))))
    · exact .inl (.inr (.inr (.inr g)))
    · exact .inr g

end

section
variable {L V K F Y P G W N : Type} [LinearOrder L] [DecidableEq V] [DecidableEq N] [LinearOrder K] [Field K] [IsStrictOrderedRing K]
  [FloorSemiring K] [Num F]

theorem depthsOf_getElem? {lib : Lib V K F G W} {r : Bool} {d : Nat} : ∀ {k : Nat} {np : W} {i m : Nat}, (depthsOf lib r d k np).1[i]? = some m →
    if r then ∃ np, m = (lib.depth np).1 else m = d := by
  intro k
  induction k with
  | zero => intro np i m h; simp [depthsOf] at h
  | succ k ih =>
    intro np i m h
    cases i with
    | zero =>
      simp only [depthsOf, List.getElem?_cons_zero] at h
      cases r with
      | true => simp only [if_true] at h ⊢; injection h with h; exact ⟨np, h.symm⟩
      | false => simp only [Bool.false_eq_true, if_false] at h ⊢; injection h with h; exact h.symm
    | succ i =>
      simp only [depthsOf, List.getElem?_cons_succ] at h
      exact ih h

theorem buildTree_sets {R : Rng G} {T : F → Task F Y P G} {draw : Nat → List Nat} {depth : Nat} {c : Ctx F} {gb : Garbage F} {d : F} {seed : Nat}
    {o : TreeObj F P G} (h : buildTree R T draw depth c gb d seed = .ok o) : ∃ w, o.ctx = some { c with w := w } := by
  unfold buildTree TreeObj.fit at h
  simp only [bind_eq_ok] at h
  obtain ⟨b, -, w, -, ⟨arr, k⟩, -, h⟩ := h
  injection h with h
  rw [← h]
  exact ⟨w, rfl⟩

/-- The settings of a tree of a fitted forest. -/
theorem Outcome.settings {lib : Lib V K F G W} {a : FitArgs N V} {p : FitData F Y P G} {e : Est L V K F P G} {np : W} (o : Outcome lib a p e np)
    {t : Nat} {ob : TreeObj F P G} (ht : o.est.trees[t]? = some ob) {c : Ctx F} (hc : ob.ctx = some c) (hn : a.nRows < 2 ^ 63) :
    TreeSettings c e o.est ∧ ∃ lim, DepthLimit lib a.randomizedDepth e.maxDepth lim ∧ LimitFor a.nRows c.maxDepth lim := by
  obtain ⟨seed, depth, y, w, -, hdep, -, -, hb⟩ := growTrees_getElem? o.htrees ht
  obtain ⟨w', hw'⟩ := buildTree_sets hb
  rw [hc] at hw'
  injection hw' with hw'
  subst hw'
  refine ⟨⟨rfl, rfl, rfl, rfl, rfl⟩, ?_⟩
  have := depthsOf_getElem? hdep
  unfold DepthLimit
  cases hr : a.randomizedDepth with
  | true =>
    rw [hr] at this
    obtain ⟨np', h⟩ := this
    exact ⟨some depth, by rw [if_pos rfl]; exact ⟨np', by rw [h]⟩, .inl rfl⟩
  | false =>
    rw [hr] at this
    simp only [Bool.false_eq_true, if_false] at this ⊢
    refine ⟨e.maxDepth, rfl, ?_⟩
    cases hm : e.maxDepth with
    | none => rw [hm] at this; exact .inr ⟨rfl, by simp only [this, Option.getD_none]; omega⟩
    | some m => rw [hm] at this; exact .inl (by simp only [this, Option.getD_some])

/-- What is known of tree `t` of a fitted forest. -/
theorem FitFacts.tree {lib : Lib V K F G W} {a : FitArgs N V} {p : FitData F Y P G} {lab : F → Prop} {okW : List F → Prop} {e : Est L V K F P G} {np : W}
    (hlib : LibOK lib a.nRows) (hn : a.nRows < 2 ^ 63) (o : Outcome lib a p e np) (h : FitFacts lib a p lab okW e o.est) :
    ∃ train, o.est.encode lib a.nRows a.X = .ok train ∧ train.nSamples = a.nRows ∧ train.nFeatures = nCols a.X ∧ ∀ (t : Nat) (ob : TreeObj F P G), o.est.trees[t]? = some ob →
      ∃ (c : Ctx F) (gb : Garbage F) (seed : Nat) (y w : List F) (draws : List Nat) (b : Boot) (lim : Option Nat),
        o.est.seeds[t]? = some seed ∧ p.ys[if p.ovr then t / e.nEstimators else 0]? = some y ∧ p.ws[if p.ovr then t / e.nEstimators else 0]? = some w ∧
        y.length = a.nRows ∧ w.length = a.nRows ∧ BootstrapOf (lib.boot a.nRows) a.nRows seed draws ∧
        b = ⟨drawnRows a.nRows draws, leftOutRows a.nRows draws, (drawnRows a.nRows draws).map draws.count⟩ ∧
        FitInput c (bootData (encData train y w) b) lab b.train b.valid ∧
        fitTree lib.rng (p.task e.dirichlet) c gb seed b.train b.valid = .ok (ob.arr, ob.work) ∧
        TreeSettings c e o.est ∧ DepthLimit lib a.randomizedDepth e.maxDepth lim ∧ LimitFor a.nRows c.maxDepth lim := by
  obtain ⟨train, htr, hrows, hcols, hall⟩ := h.indexed
  refine ⟨train, htr, hrows, hcols, fun t ob ht => ?_⟩
  obtain ⟨c, gb, seed, y, w, h1, h2, h3, h4, h5, h6, -, -, h9, h10⟩ := hall t _ ht
  obtain ⟨b, w', hgen, hB⟩ := buildTree_boot (D := encData train y w) (by
    rw [show (encData train y w).n = a.nRows from hrows]; exact hlib.boot) h9 (by rw [h6, h5]; exact hrows.symm) h10
  rw [show (encData train y w).n = a.nRows from hrows] at hgen
  obtain ⟨draws, hbs, hdr⟩ := genTV_explicit hgen
  obtain ⟨hset, lim, hl1, hl2⟩ := o.settings ht hB.ctx hn
  exact ⟨_, gb, seed, y, w, draws, b, lim, h1, h2, h3, h4, h5, hbs, hdr, hB.input, hB.fit, hset, hl1, hl2⟩

theorem drawnRows_length (n : Nat) (draws : List Nat) : (drawnRows n draws).length ≤ n := by
  unfold drawnRows
  exact (List.length_filter_le _ _).trans (by simp)

/-- The limits of the trees of a fitted forest, whatever the floating-point arithmetic does. -/
theorem FitFacts.limits {lib : Lib V K F G W} {a : FitArgs N V} {p : FitData F Y P G} {lab : F → Prop} {okW : List F → Prop} {e : Est L V K F P G} {np : W}
    (hlib : LibOK lib a.nRows) (hn : a.nRows < 2 ^ 63) (hT : ValidTask (p.task e.dirichlet) lab) (o : Outcome lib a p e np)
    (h : FitFacts lib a p lab okW e o.est) :
    ∃ train, o.est.encode lib a.nRows a.X = .ok train ∧ ∀ (t : Nat) (ob : TreeObj F P G), o.est.trees[t]? = some ob → ∃ seed draws lim,
      o.est.seeds[t]? = some seed ∧ BootstrapOf (lib.boot a.nRows) a.nRows seed draws ∧ DepthLimit lib a.randomizedDepth e.maxDepth lim ∧
      TreeLimits e.minSplit e.minLeaf lim e.aggregation a.nRows (binsOf train) draws ob.arr := by
  obtain ⟨train, htr, -, -, hall⟩ := h.tree hlib hn o
  refine ⟨train, htr, fun t ob ht => ?_⟩
  obtain ⟨c, gb, seed, y, w, draws, b, lim, h1, -, -, -, -, hbs, hb, hin, hfit, hset, hl1, hl2⟩ := hall t ob ht
  refine ⟨seed, draws, lim, h1, hbs, hl1, ?_⟩
  obtain ⟨hwf, hnodes⟩ := tree_limits hT hin hfit (N := a.nRows) (by rw [hb]; exact drawnRows_length _ _) hl2
  refine ⟨hwf, fun k n hk => ?_⟩
  obtain ⟨g1, g2, -, g4⟩ := hnodes k n hk
  rw [hset.minSplit, hset.minLeaf, hset.aggregation] at g4
  subst hb
  exact ⟨g1, g2, g4⟩

end

section
variable {L V K Y P G W N : Type} [LinearOrder L] [DecidableEq V] [DecidableEq N] [LinearOrder K] [Field K] [IsStrictOrderedRing K] [FloorSemiring K]

/-- The trees of a fitted forest are grown greedily. -/
theorem FitFacts.greedy {lib : Lib V K ℝ G W} {a : FitArgs N V} {p : FitData ℝ Y P G} {lab : ℝ → Prop} {okW : List ℝ → Prop} {e : Est L V K ℝ P G} {np : W}
    {I : Data ℝ → List Nat → ℝ} {Ks : List (List Key)} {ly lw : Nat → Nat → ℝ}
    (hlib : LibOK lib a.nRows) (hn : a.nRows < 2 ^ 63) (hT : RealTask (p.task e.dirichlet) lab I Ks) (o : Outcome lib a p e np)
    (h : FitFacts lib a p lab okW e o.est)
    (hy : ∀ k y w i, p.ys[k]? = some y → p.ws[k]? = some w → i < a.nRows → y.getD i 0 = ly k i ∧ w.getD i 0 = lw k i ∧ 0 < w.getD i 0) :
    ∃ train, o.est.encode lib a.nRows a.X = .ok train ∧ ∀ (t : Nat) (ob : TreeObj ℝ P G), o.est.trees[t]? = some ob → ∃ c D seed draws lim,
      TreeSettings c e o.est ∧ DepthLimit lib a.randomizedDepth e.maxDepth lim ∧ o.est.seeds[t]? = some seed ∧
      BootstrapOf (lib.boot a.nRows) a.nRows seed draws ∧
      TreeData D a.nRows (nCols a.X) (binsOf train) (ly (if p.ovr then t / e.nEstimators else 0)) (lw (if p.ovr then t / e.nEstimators else 0)) draws ∧
      Greedy I Ks c lim D (drawnRows a.nRows draws) (leftOutRows a.nRows draws) ob.arr := by
  obtain ⟨train, htr, hrows, hcols, hall⟩ := h.tree hlib hn o
  refine ⟨train, htr, fun t ob ht => ?_⟩
  obtain ⟨c, gb, seed, y, w, draws, b, lim, h1, h2, h3, h4, h5, hbs, hb, hin, hfit, hset, hl1, hl2⟩ := hall t ob ht
  have hD := fun i hi => hy _ y w i h2 h3 hi
  have hw : ∀ i, (bootData (encData train y w) b).w i = if i < a.nRows ∧ i ∈ draws then w.getD i 0 * draws.count i else w.getD i 0 := by
    intro i
    rw [hb]
    exact bootData_w (encData train y w) a.nRows draws i
  refine ⟨c, bootData (encData train y w) b, seed, draws, lim, hset, hl1, h1, hbs, ⟨hrows, hcols, rfl, fun i hi => (hD i hi).1, fun i hi => ?_⟩, ?_⟩
  · rw [hw, (hD i hi).2.1]
    by_cases hd : i ∈ draws
    · rw [if_pos ⟨hi, hd⟩, if_pos hd]
    · rw [if_neg (fun h => hd h.2), if_neg hd]
  · have hpos : ∀ i ∈ b.train, 0 < (bootData (encData train y w) b).w i := by
      intro i hi
      rw [hb] at hi
      simp only [drawnRows, List.mem_filter, List.mem_range, decide_eq_true_eq] at hi
      rw [hw, if_pos hi]
      exact mul_pos (hD i hi.1).2.2 (by exact_mod_cast List.count_pos_iff.2 hi.2)
    have := tree_greedy hT hin hpos hfit (N := a.nRows) (by rw [hb]; exact drawnRows_length _ _) hl2
    rw [hb] at this ⊢
    exact this

end

end Verif
