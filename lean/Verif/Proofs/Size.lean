import Verif.Proofs.Greedy
import Verif.Proofs.OutOfBag
import Verif.Props.Encoder
import Verif.Spec.Size

set_option linter.unusedSectionVars false

/-! The number of leaves of a grown tree. -/
namespace Verif

open Spec

section
variable {F Y P G : Type} [Num F] {T : Task F Y P G} {c : Ctx F} {D : Data F} {lab : F → Prop} {okP : P → Prop}

theorem GOK.children {a : GNode F Y P} {l r : GTree F Y P} {k : Nat} (h : GOK T c D lab okP (.node a l r) k) :
    l.root.train.length + r.root.train.length = a.train.length ∧ 0 < l.root.train.length ∧ 0 < r.root.train.length ∧
    c.minLeaf ≤ l.root.train.length ∧ c.minLeaf ≤ r.root.train.length ∧ c.minSplit ≤ a.train.length := by
  obtain ⟨hf, hfd, -, -, -, -, -, tl, tr, -, -⟩ := h
  obtain ⟨hst, feats, -, hn, hsp⟩ := hf.split hfd
  have h1 := (stopHere_false hst).1
  rw [hn.nTrain] at h1
  have h2 : l.root.train.length = a.sp.nTrainL := by rw [tl, hsp.nTrainL]; rfl
  have h3 : r.root.train.length = a.sp.nTrainR := by rw [tr, hsp.nTrainR]; rfl
  refine ⟨?_, by rw [h2]; exact hsp.pos.1, by rw [h3]; exact hsp.pos.2, by rw [h2]; exact hsp.leaf.1, by rw [h3]; exact hsp.leaf.2.1, h1⟩
  rw [tl, tr]
  exact (List.length_eq_length_filter_add (l := a.train) _).symm

theorem GOK.children_valid {a : GNode F Y P} {l r : GTree F Y P} {k : Nat} (h : GOK T c D lab okP (.node a l r) k) (ha : c.aggregation = true) :
    l.root.valid.length + r.root.valid.length = a.valid.length ∧ c.minLeaf ≤ l.root.valid.length ∧ c.minLeaf ≤ r.root.valid.length := by
  obtain ⟨hf, hfd, -, -, -, -, -, -, -, vl, vr⟩ := h
  obtain ⟨-, feats, -, -, hsp⟩ := hf.split hfd
  have h2 : l.root.valid.length = a.sp.nValidL := by rw [vl, hsp.nValidL ha]; rfl
  have h3 : r.root.valid.length = a.sp.nValidR := by rw [vr, hsp.nValidR ha]; rfl
  refine ⟨?_, by rw [h2]; exact (hsp.leaf.2.2 ha).1, by rw [h3]; exact (hsp.leaf.2.2 ha).2⟩
  rw [vl, vr]
  exact (List.length_eq_length_filter_add (l := a.valid) _).symm

theorem GOK.leaves_minLeaf {t : GTree F Y P} : ∀ {k : Nat}, GOK T c D lab okP t k → c.minLeaf ≤ t.root.train.length →
    t.leaves * c.minLeaf ≤ t.root.train.length := by
  induction t with
  | leaf a => intro k _ h; simpa [GTree.leaves] using h
  | node a l r ihl ihr =>
    intro k h _
    obtain ⟨h1, -, -, h4, h5, -⟩ := h.children
    obtain ⟨-, -, -, hr, hl, -⟩ := h
    have := ihl hl h4
    have := ihr hr h5
    simp only [GTree.leaves, GTree.root, Nat.add_mul]
    omega

theorem GOK.leaves_minLeaf_valid (ha : c.aggregation = true) {t : GTree F Y P} : ∀ {k : Nat}, GOK T c D lab okP t k → c.minLeaf ≤ t.root.valid.length →
    t.leaves * c.minLeaf ≤ t.root.valid.length := by
  induction t with
  | leaf a => intro k _ h; simpa [GTree.leaves] using h
  | node a l r ihl ihr =>
    intro k h _
    obtain ⟨h1, h4, h5⟩ := h.children_valid ha
    obtain ⟨-, -, -, hr, hl, -⟩ := h
    have := ihl hl h4
    have := ihr hr h5
    simp only [GTree.leaves, GTree.root, Nat.add_mul]
    omega

theorem GTree.leaves_pos (t : GTree F Y P) : 0 < t.leaves := by
  induction t with
  | leaf => simp [GTree.leaves]
  | node => simp only [GTree.leaves]; omega

theorem GOK.leaves_minSplit {t : GTree F Y P} : ∀ {k : Nat}, GOK T c D lab okP t k → t.leaves = 1 ∨ t.leaves + max 2 c.minSplit ≤ t.root.train.length + 2 := by
  induction t with
  | leaf a => intro k _; exact .inl rfl
  | node a l r ihl ihr =>
    intro k h
    obtain ⟨h1, h2, h3, -, -, h6⟩ := h.children
    obtain ⟨-, -, -, hr, hl, -⟩ := h
    have := ihl hl
    have := ihr hr
    simp only [GTree.leaves, GTree.root]
    omega

theorem GOK.leaves_depth {t : GTree F Y P} : ∀ {k : Nat}, GOK T c D lab okP t k → t.leaves = 1 ∨ t.leaves ≤ 2 ^ (c.maxDepth - t.root.rcd.depth) := by
  induction t with
  | leaf a => intro k _; exact .inl rfl
  | node a l r ihl ihr =>
    intro k h
    obtain ⟨hf, hfd, -, hr, hl, el, er, -⟩ := h
    have hd := (stopHere_false (hf.split hfd).1).2.2.2
    have e1 : l.root.rcd.depth = a.rcd.depth + 1 := by rw [el]; rfl
    have e2 : r.root.rcd.depth = a.rcd.depth + 1 := by rw [er]; rfl
    have g1 := ihl hl
    have g2 := ihr hr
    rw [e1] at g1
    rw [e2] at g2
    have hp : 2 ^ (c.maxDepth - a.rcd.depth) = 2 * 2 ^ (c.maxDepth - (a.rcd.depth + 1)) := by
      rw [← pow_succ']; congr 1; omega
    have := Nat.one_le_two_pow (n := c.maxDepth - (a.rcd.depth + 1))
    simp only [GTree.leaves, GTree.root]
    omega

theorem GOK.representatives {t : GTree F Y P} : ∀ {k : Nat}, GOK T c D lab okP t k →
    ∃ rows : List Nat, rows.length = t.leaves ∧ (∀ i ∈ rows, i ∈ t.root.train) ∧ rows.Pairwise fun i i' => ∃ j, D.X i j ≠ D.X i' j := by
  induction t with
  | leaf a =>
    intro k h
    obtain ⟨i, hi⟩ := List.exists_mem_of_ne_nil _ h.1.nonempty
    exact ⟨[i], rfl, by simpa [GTree.root] using hi, by simp⟩
  | node a l r ihl ihr =>
    intro k h
    obtain ⟨-, -, -, hr, hl, -, -, tl, tr, -, -⟩ := h
    obtain ⟨L, l1, l2, l3⟩ := ihl hl
    obtain ⟨R, r1, r2, r3⟩ := ihr hr
    refine ⟨L ++ R, by rw [List.length_append, l1, r1]; rfl, ?_, ?_⟩
    · intro i hi
      rcases List.mem_append.1 hi with hi | hi
      · have := l2 i hi
        rw [tl] at this
        exact (List.mem_filter.1 this).1
      · have := r2 i hi
        rw [tr] at this
        exact (List.mem_filter.1 this).1
    · refine List.pairwise_append.2 ⟨l3, r3, fun i hi i' hi' => ⟨a.sp.feature, fun he => ?_⟩⟩
      have h1 := l2 i hi
      have h2 := r2 i' hi'
      rw [tl] at h1
      rw [tr] at h2
      have h1 := (List.mem_filter.1 h1).2
      have h2 := (List.mem_filter.1 h2).2
      simp only [he] at h1
      simp [h1] at h2

theorem Facts.leafCount {train valid : List Nat} {arr : TreeArr F P} {w : Work G} {t : GTree F Y P} (h : Facts T c D lab okP train valid arr w t) :
    leafCount arr = t.leaves := by
  have h1 := h.leafCount_aux t 0 (.refl _ _)
  rw [← List.range_eq_range', ← h.count] at h1
  exact h1

/-- The bounds of one tree; `lim` is the limit for the depth. -/
theorem tree_size {R : Rng G} {gb : Garbage F} {seed : Nat} {train valid : List Nat} {arr : TreeArr F P} {w : Work G} (hT : ValidTask T lab)
    (h : FitInput c D lab train valid) (hf : fitTree R T c gb seed train valid = .ok (arr, w)) {N : Nat} {lim : Option Nat} (hlim : LimitFor N c.maxDepth lim) :
    SizeBounds c.minSplit c.minLeaf lim c.aggregation train valid (fun i i' => ∃ j, D.X i j ≠ D.X i' j) arr := by
  obtain ⟨okP, t, hF⟩ := fit_facts hT h hf
  have hlc := hF.leafCount
  have hok := hF.ok
  have h1 := hF.okTrain
  have h2 := hF.okValid
  have h3 : t.root.rcd.depth = 0 := by rw [hF.rcd]; rfl
  refine ⟨by rw [hlc, hF.count]; exact t.size_leaves, ?_, ?_, ?_, ?_⟩
  · rw [hlc]
    cases t with
    | leaf a => exact .inl rfl
    | node a l r =>
      refine .inr ⟨?_, fun ha => ?_⟩
      · obtain ⟨g1, -, -, g4, g5, -⟩ := hok.children
        rw [← h1]
        exact hok.leaves_minLeaf (by simp only [GTree.root]; omega)
      · obtain ⟨g1, g2, g3⟩ := hok.children_valid ha
        rw [← h2]
        exact hok.leaves_minLeaf_valid ha (by simp only [GTree.root]; omega)
  · rw [hlc, ← h1]
    exact hok.leaves_minSplit
  · intro m hm
    have := hok.leaves_depth
    rw [h3, Nat.sub_zero] at this
    rcases hlim with hl | ⟨hl, -⟩
    · rw [hm] at hl; cases hl
      have := Nat.one_le_two_pow (n := c.maxDepth)
      omega
    · rw [hm] at hl; cases hl
  · rw [hlc, ← h1]
    exact hok.representatives

end

section
variable {L V K F Y P G W N : Type} [LinearOrder L] [DecidableEq V] [DecidableEq N] [LinearOrder K] [Field K] [IsStrictOrderedRing K] [FloorSemiring K] [Num F]

/-- Equal cells have equal bins. -/
theorem FitFacts.bins_of_cells {lib : Lib V K F G W} {a : FitArgs N V} {p : FitData F Y P G} {lab : F → Prop} {okW : List F → Prop} {e e' : Est L V K F P G}
    (h : FitFacts lib a p lab okW e e') (hd : 0 < a.nRows) (hgood : GoodInput a.nRows a.X) {train : FBA} (htr : e'.encode lib a.nRows a.X = .ok train) :
    ∀ r < a.nRows, ∀ r' < a.nRows, ∀ f, binsOf train r f ≠ binsOf train r' f → cell a.X r f ≠ cell a.X r' f := by
  obtain ⟨cfg, enc, he, hF, hm, h63, hlen, -, -⟩ := h.encoder
  obtain ⟨_, hok, _⟩ := encoderFit_ok hm hF
  have htr' : encoderTransform lib.conv cfg enc lib.words a.nRows a.X = .ok train := by simp only [Est.encode, he] at htr; exact htr
  obtain ⟨-, q2, q3, -, q5, q6, q7⟩ := encoderTransform_ok hok h63 hd hgood htr'
  intro r hr r' hr' f hne hc
  by_cases hf : f < enc.length
  · obtain ⟨c, hc1⟩ := q6 r f hf hr
    obtain ⟨-, fc, v, g1, g2, g3, -⟩ := q7 r f c hc1
    obtain ⟨-, fc', v', g1', g2', g3', -⟩ := q7 r' f c (hc ▸ hc1)
    rw [g1] at g1'; cases g1'
    rw [g2] at g2'; cases g2'
    exact hne (by simp only [binsOf, g3, g3'])
  · exact hne (by rw [binsOf_beyond q3 (by omega), binsOf_beyond q3 (by omega)])

/-- The sizes of the trees of a forest. -/
theorem FitFacts.sizes {lib : Lib V K F G W} {a : FitArgs N V} {p : FitData F Y P G} {lab : F → Prop} {okW : List F → Prop} {e : Est L V K F P G} {np : W}
    (hlib : LibOK lib a.nRows) (hn : a.nRows < 2 ^ 63) (hpos : 0 < a.nRows) (hgood : GoodInput a.nRows a.X) (hT : ValidTask (p.task e.dirichlet) lab)
    (o : Outcome lib a p e np) (h : FitFacts lib a p lab okW e o.est) : ForestSize lib e o.est a := by
  obtain ⟨train, htr, hrows, -, hall⟩ := h.tree hlib hn o
  have hbins := h.bins_of_cells hpos hgood htr
  intro t ob ht
  obtain ⟨c, gb, seed, y, w, draws, b, lim, h1, -, -, -, -, hbs, hb, hin, hfit, hset, hl1, hl2⟩ := hall t ob ht
  have hs := tree_size hT hin hfit hl2
  rw [hset.minSplit, hset.minLeaf, hset.aggregation] at hs
  subst hb
  refine ⟨seed, draws, lim, h1, hbs, hl1, hs.nodes, hs.minLeaf, hs.minSplit, hs.depth, ?_⟩
  obtain ⟨rows, g1, g2, g3⟩ := hs.distinct
  refine ⟨rows, g1, g2, ?_⟩
  have hlt : ∀ i ∈ rows, i < a.nRows := by
    intro i hi
    have := g2 i hi
    simp only [drawnRows, List.mem_filter, List.mem_range] at this
    exact this.1
  refine List.Pairwise.imp_of_mem (fun {i i'} hi hi' hne => ?_) g3
  obtain ⟨j, hj⟩ := hne
  exact ⟨j, hbins i (hlt i hi) i' (hlt i' hi') j hj⟩

end

end Verif
