import Verif.Proofs.Lockstep
import Verif.Proofs.TreeFacts
import Verif.Proofs.Constant
import Verif.Spec.Cut

set_option linter.unusedSectionVars false

/-! Two trees grown on the same rows with different limits on the nodes that are split. -/
namespace Verif

open Spec

variable {F Y P G : Type} [Num F]

/-- All nodes of the tree. -/
def GTree.All (p : GNode F Y P → Prop) : GTree F Y P → Prop
  | .leaf a => p a
  | .node a l r => p a ∧ l.All p ∧ r.All p

theorem GTree.All.root {p : GNode F Y P → Prop} {t : GTree F Y P} (h : t.All p) : p t.root := by
  cases t with
  | leaf a => exact h
  | node a l r => exact h.1

/-- The statistics and the split of the node are those of its rows, with the given features. -/
structure PureAt (T : Task F Y P G) (c : Ctx F) (feats : List Nat) (a : GNode F Y P) : Prop where
  stats : nodeStats T c feats a.train a.valid (a.rcd.eT - a.rcd.sT) (a.rcd.eV - a.rcd.sV) = .ok a.nc
  split : (stopHere c a.rcd a.nc.nTrain a.nc.nValid = true ∧ a.sp = Split.reset) ∨
    (stopHere c a.rcd a.nc.nTrain a.nc.nValid = false ∧ ∃ g g', findNodeSplit T c a.nc feats g = .ok (a.sp, g'))

theorem splitIndices_sampled {c : Ctx F} {sp : Split F} {w w2 : Work G} {sT eT sV eV posT posV : Nat}
    (h : splitIndices c sp w sT eT sV eV = .ok (w2, posT, posV)) : w2.sampled = w.sampled := by
  unfold splitIndices at h
  rw [bind_eq_ok] at h
  obtain ⟨⟨a1, a2, a3, a4⟩, _, h⟩ := h
  rw [bind_eq_ok] at h
  obtain ⟨⟨b1, b2, b3, b4⟩, _, h⟩ := h
  simp only [pure_eq_ok, Except.ok.injEq, Prod.mk.injEq] at h
  rw [← h.1]

theorem pureAt_of {R : Rng G} {T : Task F Y P G} {c : Ctx F} (hmf : c.maxFeatures = c.fba.nFeatures) {w w1 : Work G}
    {r : Record F} {nc : NodeCtx F Y P} {sp : Split F} {g : G} {i : Nat}
    (h1 : computeNodeContext R T c w r.sT r.eT r.sV r.eV = .ok (nc, w1)) (h2 : chooseSplit T c r nc w1 = .ok (sp, g)) :
    w1.sampled = w.sampled ∧
    PureAt T c w.sampled ⟨i, r, nc, sp, slice w.partTrain r.sT r.eT, slice w.partValid r.sV r.eV⟩ := by
  unfold computeNodeContext sampleFeatures at h1
  simp only [hmf, ne_eq, not_true_eq_false, if_false, pure_eq_ok, bind_ok] at h1
  rw [bind_eq_ok] at h1
  obtain ⟨nT, e1, h1⟩ := h1
  rw [bind_eq_ok] at h1
  obtain ⟨nV, e2, h1⟩ := h1
  rw [bind_eq_ok] at h1
  obtain ⟨nc', e3, h1⟩ := h1
  injection h1 with h1
  injection h1 with h1 h3
  subst h1 h3
  refine ⟨rfl, ?_, ?_⟩
  · have e4 : nT = r.eT - r.sT := by
      unfold usub at e1; split at e1 <;> simp_all
    have e5 : nV = r.eV - r.sV := by
      unfold usub at e2; split at e2 <;> simp_all
    rw [e4, e5] at e3
    exact e3
  · unfold chooseSplit at h2
    split at h2 <;> rename_i hs
    · injection h2 with h2
      injection h2 with h2 _
      exact Or.inl ⟨hs, h2.symm⟩
    · exact Or.inr ⟨by simpa using hs, _, _, h2⟩

theorem Grown.pure {R : Rng G} {T : Task F Y P G} {c : Ctx F} (hmf : c.maxFeatures = c.fba.nFeatures) {s s' : RS G}
    {r : Record F} {t : GTree F Y P} (h : Grown R T c s r t s') :
    s'.work.sampled = s.work.sampled ∧ t.All (PureAt T c s.work.sampled) := by
  induction h with
  | leaf h1 h2 h3 =>
    obtain ⟨e1, e2⟩ := pureAt_of hmf h1 h2
    exact ⟨e1, e2⟩
  | node h1 h2 h3 h4 _ _ ih1 ih2 =>
    obtain ⟨e1, e2⟩ := pureAt_of hmf h1 h2
    have e3 := splitIndices_sampled h4
    simp only at e3
    obtain ⟨i1, i2⟩ := ih1
    obtain ⟨i3, i4⟩ := ih2
    simp only at i1 i2
    rw [i1, e3, e1] at i3 i4
    rw [e3, e1] at i2
    exact ⟨i3, e2, i4, i2⟩

/-- No split depends on the generator: neither do the orders of the categories, or no column is categorical. -/
def NoDraw (T : Task F Y P G) (c : Ctx F) : Prop :=
  (∀ bins ys g g', RelM (fun x y => x.1 = y.1) (T.orders bins ys g) (T.orders bins ys g')) ∨
    ∀ j : Nat, c.isCategorical[j]? ≠ some true

theorem findBestAlong_noDraw {T : Task F Y P G} {c : Ctx F} (hn : NoDraw T c) (nc : NodeCtx F Y P) (h : Hist F Y) (f : Nat)
    (b : Split F) (g g' : G) :
    RelM (fun x y => x.1 = y.1) (findBestAlong T c nc h f b g) (findBestAlong T c nc h f b g') := by
  unfold findBestAlong
  rcases hn with hn | hn
  · refine RelM.same.bind fun ic _ e => ?_
    subst e
    dsimp only
    split
    · refine (hn _ _ _ _).bind fun x y e => ?_
      obtain ⟨x1, x2⟩ := x
      obtain ⟨y1, y2⟩ := y
      simp only at e
      subst e
      refine RelM.same.bind fun u _ e => ?_
      subst e
      exact RelM.pure' rfl
    · refine RelM.same.bind fun u _ e => ?_
      subst e
      refine RelM.same.bind fun u _ e => ?_
      subst e
      exact RelM.pure' rfl
  · intro x y hx hy
    rw [bind_eq_ok] at hx hy
    obtain ⟨i1, h1, h2⟩ := hx
    obtain ⟨i2, h3, h4⟩ := hy
    rw [h1] at h3
    injection h3 with h3
    subst h3
    have hi : i1 = false := by
      unfold rd at h1
      have := hn f
      cases hc : c.isCategorical[f]? with
      | none => rw [hc] at h1; cases h1
      | some z => rw [hc] at h1 this; cases h1; simpa using this
    subst hi
    revert x y
    refine (?_ : RelM _ _ _)
    dsimp only
    refine RelM.same.bind fun u _ e => ?_
    subst e
    refine RelM.same.bind fun u _ e => ?_
    subst e
    exact RelM.pure' rfl

theorem findNodeSplit_noDraw {T : Task F Y P G} {c : Ctx F} (hn : NoDraw T c) (nc : NodeCtx F Y P) (feats : List Nat)
    (g g' : G) : RelM (fun x y => x.1 = y.1) (findNodeSplit T c nc feats g) (findNodeSplit T c nc feats g') := by
  unfold findNodeSplit
  refine (RelM.foldlM (S := fun x y => x.1 = y.1) (fun s s' x hs => ?_) rfl).bind fun x y e => ?_
  · refine RelM.same.bind fun h _ e => ?_
    subst e
    split
    · rw [hs]
      exact findBestAlong_noDraw hn _ _ _ _ _ _
    · exact RelM.pure' hs
  · obtain ⟨x1, x2⟩ := x
    obtain ⟨y1, y2⟩ := y
    simp only at e
    subst e
    dsimp only
    split
    · refine RelM.same.bind fun u _ e => ?_
      subst e
      exact RelM.pure' rfl
    · exact RelM.pure' rfl

theorem tryBins_limits (T : Task F Y P G) (c : Ctx F) (m ms : Nat) (nc : NodeCtx F Y P) (h : Hist F Y) (f : Nat) (ic : Bool)
    (cs o bs : List Nat) (s : TryAcc F Y) (b : Split F) :
    tryBins T { c with maxDepth := m, minSplit := ms } nc h f ic cs o bs s b = tryBins T c nc h f ic cs o bs s b := by
  induction bs generalizing s b with
  | nil => rfl
  | cons x bs ih =>
    unfold tryBins
    simp only [ih]
    rfl

theorem findNodeSplit_limits (T : Task F Y P G) (c : Ctx F) (m ms : Nat) (nc : NodeCtx F Y P) (feats : List Nat) (g : G) :
    findNodeSplit T { c with maxDepth := m, minSplit := ms } nc feats g = findNodeSplit T c nc feats g := by
  unfold findNodeSplit findBestAlong tryOrder
  simp only [tryBins_limits]
  rfl

/-- The node breaks a limit of the context. -/
def stopBy (c : Ctx F) (a : GNode F Y P) : Prop :=
  c.maxDepth ≤ a.rcd.depth ∨ a.train.length < c.minSplit ∨ (c.aggregation = true ∧ a.valid.length < c.minSplit)

/-- Two nodes with the same rows, statistics and impurity. -/
structure SameG (a b : GNode F Y P) : Prop where
  nc : a.nc = b.nc
  train : a.train = b.train
  valid : a.valid = b.valid
  depth : a.rcd.depth = b.rcd.depth
  impurity : a.rcd.impurity = b.rcd.impurity

/-- The first tree is the second, cut. -/
def GCut (c : Ctx F) : GTree F Y P → GTree F Y P → Prop
  | .leaf a, .leaf b => SameG a b
  | .leaf a, .node b _ _ => SameG a b ∧ stopBy c b
  | .node _ _ _, .leaf _ => False
  | .node a l r, .node b l' r' => SameG a b ∧ a.sp = b.sp ∧ ¬stopBy c b ∧ GCut c l l' ∧ GCut c r r'

section
variable {T : Task F Y P G} {c : Ctx F} {D : Data F} {lab : F → Prop} {okP : P → Prop}

theorem stopHere_iff (c : Ctx F) (a : GNode F Y P) (h1 : a.nc.nTrain = a.train.length) (h2 : a.nc.nValid = a.valid.length) :
    stopHere c a.rcd a.nc.nTrain a.nc.nValid = true ↔
      stopBy c a ∨ ∃ x, a.rcd.impurity = some x ∧ Num.le x Num.zero = true := by
  unfold stopHere stopBy
  rw [h1, h2]
  simp only [Bool.or_eq_true, decide_eq_true_eq, Bool.and_eq_true]
  constructor
  · rintro (((h | h) | h) | h)
    · exact Or.inl (Or.inr (Or.inl h))
    · exact Or.inl (Or.inr (Or.inr h))
    · refine Or.inr ?_
      cases hi : a.rcd.impurity with
      | none => rw [hi] at h; cases h
      | some x => rw [hi] at h; exact ⟨x, rfl, h⟩
    · exact Or.inl (Or.inl h)
  · rintro ((h | h | h) | ⟨x, h, h'⟩)
    · exact Or.inr h
    · exact Or.inl (Or.inl (Or.inl h))
    · exact Or.inl (Or.inl (Or.inr h))
    · refine Or.inl (Or.inr ?_)
      rw [h]
      exact h'

theorem gcut_of (hn : NoDraw T c) {m ms : Nat} (hm : c.maxDepth ≤ m) (hms : ms ≤ c.minSplit) {feats : List Nat}
    {t' : GTree F Y P} : ∀ {t : GTree F Y P} {k k' : Nat}, GOK T c D lab okP t k →
    GOK T { c with maxDepth := m, minSplit := ms } D lab okP t' k' →
    t.All (PureAt T c feats) → t'.All (PureAt T { c with maxDepth := m, minSplit := ms } feats) →
    t.root.train = t'.root.train → t.root.valid = t'.root.valid → t.root.rcd.depth = t'.root.rcd.depth →
    t.root.rcd.impurity = t'.root.rcd.impurity → GCut c t t' := by
  have key : ∀ {a b : GNode F Y P}, NodeFacts T c D lab okP a →
      NodeFacts T { c with maxDepth := m, minSplit := ms } D lab okP b → PureAt T c feats a →
      PureAt T { c with maxDepth := m, minSplit := ms } feats b → a.train = b.train → a.valid = b.valid →
      a.rcd.depth = b.rcd.depth → a.rcd.impurity = b.rcd.impurity →
      SameG a b ∧ (a.sp.found = true → b.sp.found = true → a.sp = b.sp ∧ ¬stopBy c b) ∧
        (a.sp.found = false → b.sp.found = true → stopBy c b) ∧ (a.sp.found = true → b.sp.found = true) := by
    intro a b fa fb pa pb h1 h2 h3 h4
    have hnc : a.nc = b.nc := by
      have e1 := pa.stats
      have e2 := pb.stats
      rw [← fa.rangeT.2, ← fa.rangeV.2] at e1
      rw [← fb.rangeT.2, ← fb.rangeV.2, ← h1, ← h2] at e2
      have e3 : (Except.ok a.nc : M _) = .ok b.nc := e1.symm.trans e2
      injection e3
    have sg : SameG a b := ⟨hnc, h1, h2, h3, h4⟩
    have ia := stopHere_iff c a fa.counts.1 fa.counts.2
    have ib := stopHere_iff { c with maxDepth := m, minSplit := ms } b fb.counts.1 fb.counts.2
    have sab : stopBy c a ↔ stopBy c b := by unfold stopBy; rw [h1, h2, h3]
    have mono : stopBy { c with maxDepth := m, minSplit := ms } b → stopBy c b := by
      rintro (h | h | ⟨h, h'⟩)
      · exact Or.inl (le_trans hm h)
      · exact Or.inr (Or.inl (lt_of_lt_of_le h hms))
      · exact Or.inr (Or.inr ⟨h, lt_of_lt_of_le h' hms⟩)
    have same : ∀ {g g1 g' g1'}, findNodeSplit T c a.nc feats g = .ok (a.sp, g1) →
        findNodeSplit T { c with maxDepth := m, minSplit := ms } b.nc feats g' = .ok (b.sp, g1') → a.sp = b.sp := by
      intro g g1 g' g1' e1 e2
      rw [← hnc, findNodeSplit_limits] at e2
      exact findNodeSplit_noDraw hn a.nc feats g g' _ _ e1 e2
    have reset : (Split.reset : Split F).found = false := rfl
    refine ⟨sg, ?_, ?_, ?_⟩
    · intro x y
      rcases pa.split with ⟨_, e⟩ | ⟨e, g, g', e1⟩
      · rw [e, reset] at x; cases x
      · rcases pb.split with ⟨_, e'⟩ | ⟨_, g1, g1', e2⟩
        · rw [e', reset] at y; cases y
        · refine ⟨same e1 e2, fun hs => ?_⟩
          rw [ia.2 (Or.inl (sab.2 hs))] at e
          cases e
    · intro x y
      rcases pb.split with ⟨_, e'⟩ | ⟨eb, g1, g1', e2⟩
      · rw [e', reset] at y; cases y
      rcases pa.split with ⟨hs, e⟩ | ⟨e, g, g', e1⟩
      · rcases ia.1 hs with h | ⟨z, h, h'⟩
        · exact sab.1 h
        · have hb := ib.2 (Or.inr ⟨z, by rw [← h4]; exact h, h'⟩)
          rw [hb] at eb
          cases eb
      · rw [same e1 e2, y] at x; cases x
    · intro x
      rcases pa.split with ⟨_, e⟩ | ⟨e, g, g', e1⟩
      · rw [e, reset] at x; cases x
      rcases pb.split with ⟨hs, e'⟩ | ⟨eb, g1, g1', e2⟩
      · exfalso
        rcases ib.1 hs with h | ⟨z, h, h'⟩
        · rw [ia.2 (Or.inl (sab.2 (mono h)))] at e; cases e
        · rw [ia.2 (Or.inr ⟨z, by rw [h4]; exact h, h'⟩)] at e; cases e
      · rw [← same e1 e2]; exact x
  induction t' with
  | leaf b =>
    intro t k k' o o' p p' e1 e2 e3 e4
    obtain ⟨s, _, _, h4⟩ := key o.facts o'.facts p.root p'.root e1 e2 e3 e4
    cases t with
    | leaf a => exact s
    | node a l r =>
      have := h4 o.2.1
      rw [show (GTree.leaf b).root.sp.found = false from o'.2.1] at this
      cases this
  | node b l' r' ihl ihr =>
    intro t k k' o o' p p' e1 e2 e3 e4
    obtain ⟨s, h2, h3, h4⟩ := key o.facts o'.facts p.root p'.root e1 e2 e3 e4
    cases t with
    | leaf a => exact ⟨s, h3 o.2.1 o'.2.1⟩
    | node a l r =>
      obtain ⟨f, fd, _, or, ol, rl, rr, tl, tr, vl, vr⟩ := o
      obtain ⟨f', fd', _, or', ol', rl', rr', tl', tr', vl', vr'⟩ := o'
      obtain ⟨hsp, hns⟩ := h2 fd fd'
      simp only [GTree.root] at s hsp
      refine ⟨s, hsp, hns, ?_, ?_⟩
      · refine ihl ol ol' p.2.1 p'.2.1 ?_ ?_ ?_ ?_
        · rw [tl, tl']; unfold GNode.leftT; rw [s.train, hsp]
        · rw [vl, vl']; unfold GNode.leftV; rw [s.valid, hsp]
        · rw [rl, rl']; simp only [leftRecord, s.depth]
        · rw [rl, rl']; simp only [leftRecord, hsp]
      · refine ihr or or' p.2.2 p'.2.2 ?_ ?_ ?_ ?_
        · rw [tr, tr']; unfold GNode.rightT; rw [s.train, hsp]
        · rw [vr, vr']; unfold GNode.rightV; rw [s.valid, hsp]
        · rw [rr, rr']; simp only [rightRecord, s.depth]
        · rw [rr, rr']; simp only [rightRecord, hsp]

/-- The arrays of the two trees. -/
theorem cutAt_of {c' : Ctx F} {stop : Node F → Prop} {arr arr' : TreeArr F P} {t' : GTree F Y P}
    (hstop : ∀ k' (a : GNode F Y P) n', HoldsNode arr' arr'.bpEnd k' a n' → NodeFacts T c' D lab okP a →
      (stop n' ↔ stopBy c a)) :
    ∀ {t : GTree F Y P} {k k' : Nat}, GOK T c D lab okP t k → GOK T c' D lab okP t' k' →
    GCut c t t' → Repr arr arr.bpEnd t k → Repr arr' arr'.bpEnd t' k' → k + t.size ≤ arr.nodeCount →
    k' + t'.size ≤ arr'.nodeCount → CutAt stop arr arr' k k' := by
  have same : ∀ {a b : GNode F Y P} {k k' : Nat} {n n' : Node F}, SameG a b → HoldsNode arr arr.bpEnd k a n →
      HoldsNode arr' arr'.bpEnd k' b n' → SameNumbers arr arr' k k' n n' := by
    intro a b k k' n n' s h h'
    obtain ⟨_, _, e, _⟩ := h.node
    obtain ⟨_, _, e', _⟩ := h'.node
    refine ⟨?_, ?_, ?_, ?_, ?_, ?_, ?_, ?_⟩
    · rw [e, e']; exact s.depth
    · rw [e, e']; show a.nc.nTrain = b.nc.nTrain; rw [s.nc]
    · rw [e, e']; show a.nc.nValid = b.nc.nValid; rw [s.nc]
    · rw [e, e']; show a.nc.wTrain = b.nc.wTrain; rw [s.nc]
    · rw [e, e']; show a.nc.wValid = b.nc.wValid; rw [s.nc]
    · rw [e, e']; exact s.impurity
    · rw [e, e']; show a.nc.loss = b.nc.loss; rw [s.nc]
    · rw [h.pred, h'.pred, s.nc]
  have leafOf : ∀ {ar : TreeArr F P} {a : GNode F Y P} {k : Nat} {n : Node F}, HoldsNode ar ar.bpEnd k a n →
      n.isLeaf = !a.sp.found := by
    intro ar a k n h
    obtain ⟨_, _, e, _⟩ := h.node
    rw [e]; rfl
  induction t' with
  | leaf b =>
    intro t k k' o o' g r r' z z'
    cases t with
    | leaf a =>
      obtain ⟨n, h1, _⟩ := r
      obtain ⟨n', h1', _⟩ := r'
      simp only [GTree.size] at z z'
      exact .leaf ⟨by omega, h1.entry⟩ ⟨by omega, h1'.entry⟩ (same g h1 h1') (by rw [leafOf h1, o.2.1]; rfl)
        (Or.inl (by rw [leafOf h1', o'.2.1]; rfl))
    | node a l r => exact g.elim
  | node b l' r' ihl ihr =>
    intro t k k' o o' g re re' z z'
    obtain ⟨⟨n', h1', h2', h3'⟩, hr', hl'⟩ := re'
    simp only [GTree.size] at z'
    cases t with
    | leaf a =>
      obtain ⟨n, h1, _⟩ := re
      simp only [GTree.size] at z
      exact .leaf ⟨by omega, h1.entry⟩ ⟨by omega, h1'.entry⟩ (same g.1 h1 h1') (by rw [leafOf h1, o.2.1]; rfl)
        (Or.inr ((hstop _ _ _ h1' o'.1).2 g.2))
    | node a l r =>
      obtain ⟨⟨n, h1, h2, h3⟩, hr, hl⟩ := re
      simp only [GTree.size] at z
      obtain ⟨s, hsp, hns, gl, gr⟩ := g
      obtain ⟨f, fd, _, or, ol, _⟩ := o
      obtain ⟨f', fd', _, or', ol', _⟩ := o'
      refine .node ⟨by omega, h1.entry⟩ ⟨by omega, h1'.entry⟩ (same s h1 h1') (by rw [leafOf h1, fd]; rfl)
        (by rw [leafOf h1', fd']; rfl) (fun hs => hns ((hstop _ _ _ h1' f').1 hs)) ?_ h2 h3 h2' h3'
        (ihl ol ol' gl hl hl' (by omega) (by omega)) (ihr or or' gr hr hr' (by omega) (by omega))
      have t1 := fun bin => testLeft_iff h1 f fd bin
      have t2 := fun bin => testLeft_iff h1' f' fd' bin
      refine ⟨?_, ?_, fun bin => ?_⟩
      · rw [(t1 0).1, (t2 0).1, hsp]
      · rw [(t1 0).2.1, (t2 0).2.1, hsp]
      · rw [(t1 bin).2.2.2.2, (t2 bin).2.2.2.2, hsp]

end

/-- Two trees fitted on the same rows, the second with weaker limits on the nodes that are split. -/
theorem fitTree_cut {R : Rng G} {T : Task F Y P G} {lab : F → Prop} (hT : ValidTask T lab) {c : Ctx F} {D : Data F}
    {gb gb' : Garbage F} {seed seed' : Nat} {train valid : List Nat} {m ms : Nat} (h : FitInput c D lab train valid)
    (h' : FitInput { c with maxDepth := m, minSplit := ms } D lab train valid)
    (hmf : c.maxFeatures = c.fba.nFeatures) (hn : NoDraw T c) (hm : c.maxDepth ≤ m) (hms : ms ≤ c.minSplit)
    {arr arr' : TreeArr F P} {w w' : Work G} (hf : fitTree R T c gb seed train valid = .ok (arr, w))
    (hf' : fitTree R T { c with maxDepth := m, minSplit := ms } gb' seed' train valid = .ok (arr', w')) :
    CutAt (fun n => c.maxDepth ≤ n.depth ∨ n.nTrain < c.minSplit ∨ (c.aggregation = true ∧ n.nValid < c.minSplit))
      arr arr' 0 0 := by
  obtain ⟨okY, okP, hs⟩ := validTask_safe hT
  obtain ⟨arr1, w1, t, e1, e2⟩ := fitTree_spec R hs gb seed h
  rw [hf] at e1
  injection e1 with e1
  injection e1 with e3 e4
  subst e3 e4
  obtain ⟨arr1, w1, t', e1', e2'⟩ := fitTree_spec R hs gb' seed' h'
  rw [hf'] at e1'
  injection e1' with e1'
  injection e1' with e3 e4
  subst e3 e4
  obtain ⟨_, g1, _⟩ := e2.grown
  obtain ⟨_, g1', _⟩ := e2'.grown
  have p1 := (g1.pure hmf).2
  have p1' := (g1'.pure (c := { c with maxDepth := m, minSplit := ms }) hmf).2
  have hg := gcut_of hn hm hms e2.ok e2'.ok p1 p1' (by rw [e2.okTrain, e2'.okTrain]) (by rw [e2.okValid, e2'.okValid])
    (by rw [e2.rcd, e2'.rcd]) (by rw [e2.rcd, e2'.rcd])
  refine cutAt_of (fun k' a n' ha fa => ?_) e2.ok e2'.ok hg e2.repr e2'.repr (by rw [e2.count]; omega)
    (by rw [e2'.count]; omega)
  obtain ⟨_, _, f1, _, f2, f3, _⟩ := ha.fields
  unfold stopBy
  rw [f1, f2, f3, fa.counts.1, fa.counts.2]

section
variable {stop stop' : Node F → Prop} {t t' : TreeArr F P}

theorem _root_.Verif.Spec.CutAt.congr (h : ∀ k n, NodeAt t' k n → (stop n ↔ stop' n)) {k k' : Nat} (hc : CutAt stop t t' k k') :
    CutAt stop' t t' k k' := by
  induction hc with
  | leaf h1 h2 h3 h4 h5 => exact .leaf h1 h2 h3 h4 (h5.imp id (h _ _ h2).1)
  | node h1 h2 h3 h4 h5 h6 h7 h8 h9 h10 h11 _ _ i1 i2 =>
    exact .node h1 h2 h3 h4 h5 (fun g => h6 ((h _ _ h2).2 g)) h7 h8 h9 h10 h11 i1 i2

/-- The row visits the node of the larger tree that corresponds to the one of the smaller tree. -/
theorem _root_.Verif.Spec.CutAt.visits (hc : CutAt stop t t' 0 0) {x : Nat → Nat} {k : Nat} (hv : Visits t x k) :
    ∃ k', Reaches stop t' x k' ∧ CutAt stop t t' k k' := by
  induction hv with
  | root => exact ⟨0, .root, hc⟩
  | left _ g1 g2 g3 g4 g5 ih =>
    obtain ⟨k', h1, h2⟩ := ih
    cases h2 with
    | leaf e1 _ _ e4 _ =>
      cases nodeAt_inj g1 e1
      rw [g2] at e4; cases e4
    | node e1 e2 e3 e4 e5 e6 e7 e8 e9 e10 e11 e12 e13 =>
      cases nodeAt_inj g1 e1
      rw [g5] at e8; cases e8
      exact ⟨_, .left h1 e2 e6 e5 (e7.feature.symm.trans g3) ((e7.test _).1 g4) e10, e12⟩
  | right _ g1 g2 g3 g4 g5 ih =>
    obtain ⟨k', h1, h2⟩ := ih
    cases h2 with
    | leaf e1 _ _ e4 _ =>
      cases nodeAt_inj g1 e1
      rw [g2] at e4; cases e4
    | node e1 e2 e3 e4 e5 e6 e7 e8 e9 e10 e11 e12 e13 =>
      cases nodeAt_inj g1 e1
      rw [g5] at e9; cases e9
      exact ⟨_, .right h1 e2 e6 e5 (e7.feature.symm.trans g3) (fun g => g4 ((e7.test _).2 g)) e11, e13⟩

end

/-- Two trees of two forests. -/
theorem buildTree_cut {R : Rng G} {T : F → Task F Y P G} {draw : Nat → List Nat} {fuel : Nat} {c : Ctx F} {gb gb' : Garbage F} {d : F} {seed m ms : Nat}
    {lab : F → Prop} {D : Data F} {o o' : TreeObj F P G} (hT : ValidTask (T d) lab) (hd : DrawsOK D.n draw) (h : ForestInput c D lab)
    (h' : ForestInput { c with maxDepth := m, minSplit := ms } D lab) (hlen : c.w.length = D.n)
    (hb : buildTree R T draw fuel c gb d seed = .ok o)
    (hb' : buildTree R T draw fuel { c with maxDepth := m, minSplit := ms } gb' d seed = .ok o')
    (hmf : c.maxFeatures = c.fba.nFeatures) (hn : NoDraw (T d) c) (hm : c.maxDepth ≤ m) (hms : ms ≤ c.minSplit) :
    CutAt (fun n => c.maxDepth ≤ n.depth ∨ n.nTrain < c.minSplit ∨ (c.aggregation = true ∧ n.nValid < c.minSplit)) o.arr o'.arr 0 0 ∧
      ∀ k n, NodeAt o'.arr k n → n.depth < 2 * D.n := by
  obtain ⟨b, w, e1, B⟩ := buildTree_boot hd h hlen hb
  obtain ⟨b', w', e1', B'⟩ := buildTree_boot hd h' hlen hb'
  obtain rfl : b = b' := Except.ok.inj (e1.symm.trans e1')
  obtain rfl : w = w' := Except.ok.inj (B.weights.symm.trans B'.weights)
  refine ⟨fitTree_cut (c := { c with w := w }) hT B.input B'.input hmf hn hm hms B.fit B'.fit, fun k n hn' => ?_⟩
  have hwf := C21_well_formed hT B'.input B'.fit
  obtain ⟨arr', w', hf', _, hcount, _⟩ := C20_grow_terminates R hT gb' seed B'.input
  rw [B'.fit] at hf'
  injection hf' with hf'
  obtain ⟨rfl, rfl⟩ := Prod.mk.inj hf'
  have hdep := depth_le_index hwf k n hn'
  have hkc := hn'.1
  have hle := nodup_length_le B'.input.nodupT (fun i hi => (B'.input.okTrain i hi).1)
  have : (bootData D b).n = D.n := rfl
  omega

section
variable {L V K W N : Type} [LinearOrder L] [DecidableEq V] [DecidableEq N] [LinearOrder K] [Field K] [IsStrictOrderedRing K]
  [FloorSemiring K]

/-- The estimator with other limits on the nodes that are split. -/
def withSplitLimits (m : Option Nat) (ms : Nat) (e : Est L V K F P G) : Est L V K F P G := { e with maxDepth := m, minSplit := ms }

/-- The context of a tree of a forest. -/
abbrev treeCtx (fba : FBA) (y w : List F) (mf depth : Nat) (isCat : List Bool) (e : Est L V K F P G) : Ctx F where
  fba := fba
  y := y
  w := w
  maxFeatures := mf
  minSplit := e.minSplit
  minLeaf := e.minLeaf
  maxDepth := depth
  aggregation := e.aggregation
  step := e.step
  isCategorical := isCat

/-- The explicit input of a tree of a fitted forest. -/
theorem Outcome.explicit {lib : Lib V K F G W} {a : FitArgs N V} {p : FitData F Y P G} {lab : F → Prop} {okW : List F → Prop} {e : Est L V K F P G} {np : W}
    (o : Outcome lib a p e np) (h : FitFacts lib a p lab okW e o.est) {t : Nat} {ob : TreeObj F P G} (ht : o.trees[t]? = some ob) {seed depth : Nat} {y w : List F}
    (hs : (seedsOf lib e np).1[t]? = some seed)
    (hb : buildTree lib.rng p.task (lib.boot a.nRows) lib.frames
        (treeCtx o.fba y w o.mf depth (o.enc.map FitCol.isCat) e) (lib.garbage t) e.dirichlet seed = .ok ob)
    (hy : p.ys[if p.ovr then t / e.nEstimators else 0]? = some y) (hw : p.ws[if p.ovr then t / e.nEstimators else 0]? = some w) :
    o.fba.nSamples = a.nRows ∧ o.fba.nFeatures = nCols a.X ∧ w.length = a.nRows ∧
      ForestInput (treeCtx o.fba y w o.mf depth (o.enc.map FitCol.isCat) e) (encData o.fba y w) lab := by
  obtain ⟨train, htr, hrows, hcols, hall⟩ := h.indexed
  obtain ⟨c, gb, seed', y', w', h1, h2, h3, h4, h5, h6, -, -, h9, h10⟩ := hall t _ ht
  obtain ⟨w1, e1⟩ := buildTree_sets hb
  obtain ⟨w2, e2⟩ := buildTree_sets h10
  obtain rfl : y = y' := Option.some.inj (hy.symm.trans h2)
  obtain rfl : w = w' := Option.some.inj (hw.symm.trans h3)
  rw [e1] at e2
  have e3 := Option.some.inj e2
  have e4 : c = (treeCtx o.fba y w o.mf depth (o.enc.map FitCol.isCat) e) := by
    obtain ⟨c1, c2, c3, c4, c5, c6, c7, c8, c9, c10⟩ := c
    simp only [Ctx.mk.injEq] at e3 h6 ⊢
    tauto
  have e5 : train = o.fba := by
    have : o.est.encode lib a.nRows a.X = .ok o.fba := o.hfba
    exact Except.ok.inj (htr.symm.trans this)
  rw [e4, e5] at h9
  rw [e5] at hrows hcols
  exact ⟨hrows, hcols, h5, h9⟩

theorem Outcome.cut {lib : Lib V K F G W} {a : FitArgs N V} {p : FitData F Y P G} {lab : F → Prop} {okW okW' : List F → Prop} {e : Est L V K F P G} {np : W}
    {m : Option Nat} {ms : Nat} (hlib : LibOK lib a.nRows) (hn : a.nRows < 2 ^ 63) (hT : ValidTask (p.task e.dirichlet) lab)
    (o : Outcome lib a p e np) (o' : Outcome lib a p (withSplitLimits m ms e) np) (h : FitFacts lib a p lab okW e o.est)
    (h' : FitFacts lib a p lab okW' (withSplitLimits m ms e) o'.est) (hr : a.randomizedDepth = false)
    (hm : ∀ x, m = some x → ∃ y, e.maxDepth = some y ∧ y ≤ x) (hms : ms ≤ e.minSplit) (hmax : ∀ x, e.maxDepth = some x → x < 2 ^ 64)
    (hmf : o.est.maxFeatures_ = nCols a.X)
    (hnd : (∀ bins ys g g', RelM (fun x y => x.1 = y.1) ((p.task e.dirichlet).orders bins ys g) ((p.task e.dirichlet).orders bins ys g')) ∨
      ∀ c ∈ o.est.isCategorical_, c = false) :
    o.est.encoder = o'.est.encoder ∧ ForestCut (Breaks e.maxDepth e.minSplit e.aggregation) o.est.trees o'.est.trees := by
  obtain ⟨mf, ic, enc, fba, trees, hmf1, hrs, hic, hacc, henc, hfba, htrees⟩ := o
  obtain ⟨mf2, ic2, enc2, fba2, trees2, hmf2, hrs2, hic2, hacc2, henc2, hfba2, htrees2⟩ := o'
  obtain rfl : mf = mf2 := Except.ok.inj (hmf1.symm.trans hmf2)
  obtain rfl : ic = ic2 := Except.ok.inj (hic.symm.trans hic2)
  obtain rfl : enc = enc2 := Except.ok.inj (henc.symm.trans henc2)
  obtain rfl : fba = fba2 := Except.ok.inj (hfba.symm.trans hfba2)
  refine ⟨rfl, ?_, fun t ob ob' ht ht' => ?_⟩
  · exact h.nTrees.trans h'.nTrees.symm
  obtain ⟨seed, depth, y, w, q1, q2, q3, q4, q5⟩ := growTrees_getElem? htrees ht
  obtain ⟨seed', depth', y', w', q1', q2', q3', q4', q5'⟩ := growTrees_getElem? htrees2 ht'
  obtain rfl : seed = seed' := Option.some.inj (q1.symm.trans q1')
  obtain rfl : y = y' := Option.some.inj (q3.symm.trans q3')
  obtain rfl : w = w' := Option.some.inj (q4.symm.trans q4')
  have x1 := Outcome.explicit _ h ht q1 q5 q3 q4
  have x2 := Outcome.explicit _ h' ht' q1' q5' q3' q4'
  simp only at x1 x2
  rw [hr] at q2 q2'
  have d1 : depth = e.maxDepth.getD (2 ^ 64 - 1) := by simpa using depthsOf_getElem? q2
  have d2 : depth' = m.getD (2 ^ 64 - 1) := by simpa [withSplitLimits] using depthsOf_getElem? q2'
  have hle : depth ≤ depth' := by
    rw [d1, d2]
    cases hm0 : m with
    | none =>
      cases he : e.maxDepth with
      | none => exact le_refl _
      | some x => have := hmax x he; simp only [Option.getD_some, Option.getD_none]; omega
    | some x =>
      obtain ⟨y, hy, hyx⟩ := hm x hm0
      rw [hy]
      exact hyx
  have hdraws : DrawsOK (encData fba y w).n (lib.boot a.nRows) := by
    rw [show (encData fba y w).n = a.nRows from x1.1]; exact hlib.boot
  have hcut := buildTree_cut (c := treeCtx fba y w mf depth (enc.map FitCol.isCat) e) (m := depth') (ms := ms) hT hdraws x1.2.2.2 x2.2.2.2
      (by rw [show (encData fba y w).n = a.nRows from x1.1]; exact x1.2.2.1) q5 q5'
      (show mf = fba.nFeatures by rw [x1.2.1]; exact hmf) (hnd.imp id fun hc j => by
        show (enc.map FitCol.isCat)[j]? ≠ some true
        intro hj
        have := hc true (List.mem_of_getElem? hj)
        cases this) hle hms
  refine hcut.1.congr fun k n hk => ?_
  have hdp := hcut.2 k n hk
  rw [show (encData fba y w).n = a.nRows from x1.1] at hdp
  unfold Breaks
  refine or_congr ?_ Iff.rfl
  show depth ≤ n.depth ↔ _
  rw [d1]
  cases he : e.maxDepth with
  | none => simp only [Option.getD_none]; constructor
            · intro h; omega
            · rintro ⟨_, h, _⟩; cases h
  | some x => simp only [Option.getD_some]; constructor
              · intro h; exact ⟨x, rfl, h⟩
              · rintro ⟨z, h, h'⟩; cases h; exact h'

end

end Verif
