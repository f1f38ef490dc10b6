import Verif.Proofs.Fit
import Verif.Proofs.Task

set_option linter.unusedSectionVars false

/-! Facts about fitted trees, from the tree they represent. -/
namespace Verif

open Spec

variable {F Y P G : Type} [Num F]

theorem validTask_safe {T : Task F Y P G} {lab : F → Prop} (h : ValidTask T lab) :
    ∃ okY okP, TaskSafe T lab okY okP := by
  cases h with
  | classifier R n d cr ha hs => exact ⟨_, _, classifier_safe R ha n d cr hs⟩
  | regressor ha => exact ⟨_, _, regressor_safe ha⟩

/-- All we need of a fitted tree. -/
structure Facts (T : Task F Y P G) (c : Ctx F) (D : Data F) (lab : F → Prop) (okP : P → Prop) (train valid : List Nat)
    (arr : TreeArr F P) (w : Work G) (t : GTree F Y P) : Prop where
  ok : GOK T c D lab okP t 0
  rcd : t.root.rcd = rootRecord train.length valid.length
  okTrain : t.root.train = train
  okValid : t.root.valid = valid
  size : t.size + 1 ≤ 2 * train.length
  final : Final w t
  shT : w.partTrain.Perm train
  shV : w.partValid.Perm valid
  count : arr.nodeCount = t.size
  repr : Repr arr arr.bpEnd t 0

theorem Fitted.facts {R : Rng G} {T : Task F Y P G} {c : Ctx F} {D : Data F} {lab : F → Prop} {okP : P → Prop}
    {gb : Garbage F} {seed : Nat} {train valid : List Nat} {arr : TreeArr F P} {w : Work G} {t : GTree F Y P}
    (h : Fitted R T c D lab okP gb seed train valid arr w t) : Facts T c D lab okP train valid arr w t :=
  ⟨h.ok, h.rcd, h.okTrain, h.okValid, h.size, h.final, h.shT, h.shV, h.count, h.repr⟩

theorem fit_facts {R : Rng G} {T : Task F Y P G} {lab : F → Prop} (hT : ValidTask T lab) {c : Ctx F} {D : Data F}
    {gb : Garbage F} {seed : Nat} {train valid : List Nat} (h : FitInput c D lab train valid) {arr : TreeArr F P}
    {w : Work G} (hf : fitTree R T c gb seed train valid = .ok (arr, w)) :
    ∃ okP t, Facts T c D lab okP train valid arr w t := by
  obtain ⟨okY, okP, hs⟩ := validTask_safe hT
  obtain ⟨arr', w', t, e1, e2⟩ := fitTree_spec R hs gb seed h
  rw [hf] at e1
  injection e1 with e1
  injection e1 with e3 e4
  subst e3 e4
  exact ⟨okP, t, e2.facts⟩

section
variable {T : Task F Y P G} {c : Ctx F} {D : Data F} {lab : F → Prop} {okP : P → Prop} {train valid : List Nat}
  {arr : TreeArr F P} {w : Work G} {t : GTree F Y P}

/-- The part of the tree below a node of the table. -/
structure Below (T : Task F Y P G) (c : Ctx F) (D : Data F) (lab : F → Prop) (okP : P → Prop) (arr : TreeArr F P)
    (w : Work G) (t : GTree F Y P) (k : Nat) (n : Node F) (u : GTree F Y P) : Prop where
  sub : SubAt t 0 u k
  ok : GOK T c D lab okP u k
  final : Final w u
  holds : HoldsNode arr arr.bpEnd k u.root n
  shape : (∃ a, u = .leaf a ∧ n.isLeaf = true ∧ n.left = none ∧ n.right = none) ∨
    ∃ a l r, u = .node a l r ∧ n.isLeaf = false ∧ n.left = some (k + 1 + r.size) ∧ n.right = some (k + 1)

theorem Facts.below (h : Facts T c D lab okP train valid arr w t) {k : Nat} {u : GTree F Y P} (hs : SubAt t 0 u k) :
    ∃ n, NodeAt arr k n ∧ Below T c D lab okP arr w t k n u := by
  have hr := h.repr.sub hs
  have hg := h.ok.sub hs
  have hk : k < arr.nodeCount := by
    have := hs.range
    have := u.size_pos
    rw [h.count]; omega
  cases u with
  | leaf a =>
    obtain ⟨n, h1, h2, h3⟩ := hr
    refine ⟨n, ⟨hk, h1.entry⟩, hs, hg, h.final.sub hs, h1, Or.inl ⟨a, rfl, ?_, h2, h3⟩⟩
    rw [h1.isLeaf.1, hg.2.1]; rfl
  | node a l r =>
    obtain ⟨⟨n, h1, h2, h3⟩, _⟩ := hr
    refine ⟨n, ⟨hk, h1.entry⟩, hs, hg, h.final.sub hs, h1, Or.inr ⟨a, l, r, rfl, ?_, h2, h3⟩⟩
    rw [h1.isLeaf.1, hg.2.1]; rfl

theorem Facts.ofNode (h : Facts T c D lab okP train valid arr w t) {k : Nat} {n : Node F} (hn : NodeAt arr k n) :
    ∃ u, Below T c D lab okP arr w t k n u := by
  obtain ⟨u, hu⟩ := exists_subAt t 0 k (Nat.zero_le _) (by have := hn.1; rw [h.count] at this; omega)
  obtain ⟨n', h1, h2⟩ := h.below hu
  have := h1.2
  rw [hn.2] at this
  injection this with this
  subst this
  exact ⟨u, h2⟩

/-- Fields of a node. -/
theorem HoldsNode.fields {b k : Nat} {a : GNode F Y P} {n : Node F} (h : HoldsNode arr b k a n) :
    n.nodeId = k ∧ n.parent = a.rcd.parent ∧ n.depth = a.rcd.depth ∧ n.impurity = a.rcd.impurity ∧
    n.nTrain = a.nc.nTrain ∧ n.nValid = a.nc.nValid ∧ n.sT = a.rcd.sT ∧ n.eT = a.rcd.eT ∧ n.sV = a.rcd.sV ∧
    n.eV = a.rcd.eV ∧ n.isLeft = false := by
  obtain ⟨bS, bE, e, _⟩ := h.node
  rw [e]; exact ⟨rfl, rfl, rfl, rfl, rfl, rfl, rfl, rfl, rfl, rfl, rfl⟩

theorem NodeFacts.counts {a : GNode F Y P} (h : NodeFacts T c D lab okP a) :
    a.nc.nTrain = a.train.length ∧ a.nc.nValid = a.valid.length := by
  obtain ⟨f, _, h2, _⟩ := h.stats
  exact ⟨h2.nTrain, h2.nValid⟩

/-- Split of a node that is not a leaf. -/
theorem NodeFacts.split {a : GNode F Y P} (h : NodeFacts T c D lab okP a) (hf : a.sp.found = true) :
    stopHere c a.rcd a.nc.nTrain a.nc.nValid = false ∧
    ∃ feats, IsSample D.d c.maxFeatures feats ∧ NodeOK T c D okP feats a.train a.valid a.nc ∧
      SplitOK c D feats a.train a.valid a.sp := by
  obtain ⟨f, h1, h2, h3, _⟩ := h.stats
  rcases h3 with ⟨h3, _⟩ | ⟨_, h3, h4⟩
  · rw [hf] at h3; exact absurd h3 (by simp)
  · exact ⟨h3, f, h1, h2, h4⟩

/-- The test of a stored node is the test of the split. -/
theorem testLeft_iff {b k : Nat} {a : GNode F Y P} {n : Node F} (h : HoldsNode arr b k a n)
    (hf : NodeFacts T c D lab okP a) (hfd : a.sp.found = true) (bin : Nat) :
    n.feature = some a.sp.feature ∧ n.isCat = a.sp.isCat ∧ n.binThr = some a.sp.binThreshold ∧
    (a.sp.isCat = true → slice arr.binParts n.bpS n.bpE = a.sp.partition) ∧
    (TestLeft arr n bin ↔ goesLeft a.sp bin = true) := by
  obtain ⟨_, feats, _, _, hsp⟩ := hf.split hfd
  obtain ⟨bS, bE, e, e2, _⟩ := h.node
  have e3 : n.feature = some a.sp.feature := by rw [e]; simp [newNode, Split.info, hfd]
  have e4 : n.isCat = a.sp.isCat := by rw [e]; rfl
  have e5 : n.binThr = some a.sp.binThreshold := by rw [e]; simp [newNode, Split.info, hfd]
  have e6 : a.sp.isCat = true → slice arr.binParts n.bpS n.bpE = a.sp.partition := by
    intro hc
    have hpos : 0 < bpLen a.sp := by
      have := List.length_pos_iff.2 (hsp.part hc).2.1
      simp [bpLen, hc, this]
    rw [e]
    exact (e2 hpos).2.2
  refine ⟨e3, e4, e5, e6, ?_⟩
  unfold TestLeft goesLeft
  rw [e4, e5]
  cases hc : a.sp.isCat with
  | true => simp [e6 hc]
  | false => simp

theorem subAt_left {a : GNode F Y P} {l r : GTree F Y P} {k : Nat} (h : SubAt t 0 (.node a l r) k) :
    SubAt t 0 l (k + 1 + r.size) := h.trans (.left (.refl _ _))

theorem subAt_right {a : GNode F Y P} {l r : GTree F Y P} {k : Nat} (h : SubAt t 0 (.node a l r) k) :
    SubAt t 0 r (k + 1) := h.trans (.right (.refl _ _))

/-- The parent of a node, and which child it is. -/
structure ChildOf (D : Data F) (t : GTree F Y P) (u : GTree F Y P) (k p : Nat) (isL : Bool) (a : GNode F Y P)
    (l r : GTree F Y P) : Prop where
  sub : SubAt t 0 (.node a l r) p
  idx : k = if isL then p + 1 + r.size else p + 1
  tree : u = if isL then l else r
  rcd : u.root.rcd = if isL then leftRecord a.rcd a.sp p (a.rcd.sT + (a.leftT D).length) (a.rcd.sV + (a.leftV D).length)
    else rightRecord a.rcd a.sp p (a.rcd.sT + (a.leftT D).length) (a.rcd.sV + (a.leftV D).length)
  train : u.root.train = if isL then a.leftT D else a.rightT D
  valid : u.root.valid = if isL then a.leftV D else a.rightV D

theorem Facts.childOf (h : Facts T c D lab okP train valid arr w t) {u : GTree F Y P} {k : Nat} (hs : SubAt t 0 u k)
    (hk : k ≠ 0) : ∃ p isL a l r, p < k ∧ ChildOf D t u k p isL a l r := by
  obtain ⟨a, l, r, p, h1, h2⟩ := hs.parent hk
  have hg := h.ok.sub h1
  obtain ⟨_, _, _, _, _, el, er, tl, tr, vl, vr⟩ := hg
  rcases h2 with ⟨rfl, rfl⟩ | ⟨rfl, rfl⟩
  · exact ⟨p, true, a, u, r, by omega, h1, rfl, rfl, el, tl, vl⟩
  · exact ⟨p, false, a, l, u, by omega, h1, rfl, rfl, er, tr, vr⟩

/-- The parent is unique. -/
theorem ChildOf.unique {u u' : GTree F Y P} {k p p' : Nat} {b b' : Bool} {a a' : GNode F Y P} {l r l' r' : GTree F Y P}
    (h1 : ChildOf D t u k p b a l r) (h2 : ChildOf D t u' k p' b' a' l' r') :
    p = p' ∧ b = b' ∧ a = a' ∧ l = l' ∧ r = r' := by
  have hu : SubAt t 0 u k := by
    rw [h1.idx, h1.tree]; cases b
    · exact subAt_right h1.sub
    · exact subAt_left h1.sub
  have hu' : SubAt t 0 u' k := by
    rw [h2.idx, h2.tree]; cases b'
    · exact subAt_right h2.sub
    · exact subAt_left h2.sub
  have := hu.unique hu'
  subst this
  have e := h1.rcd.symm.trans h2.rcd
  have hp : p = p' := by
    have := congrArg Record.parent e
    cases b <;> cases b' <;> simpa [leftRecord, rightRecord] using this
  have hb : b = b' := by
    have := congrArg Record.isLeft e
    cases b <;> cases b' <;> simp [leftRecord, rightRecord] at this ⊢
  subst hp hb
  have := h1.sub.unique h2.sub
  simp only [GTree.node.injEq] at this
  exact ⟨rfl, rfl, this⟩

theorem Facts.child_left (h : Facts T c D lab okP train valid arr w t) {a : GNode F Y P} {l r : GTree F Y P} {p : Nat}
    (hs : SubAt t 0 (.node a l r) p) : ChildOf D t l (p + 1 + r.size) p true a l r := by
  obtain ⟨_, _, _, _, _, el, er, tl, tr, vl, vr⟩ := h.ok.sub hs
  exact ⟨hs, rfl, rfl, el, tl, vl⟩

theorem Facts.child_right (h : Facts T c D lab okP train valid arr w t) {a : GNode F Y P} {l r : GTree F Y P} {p : Nat}
    (hs : SubAt t 0 (.node a l r) p) : ChildOf D t r (p + 1) p false a l r := by
  obtain ⟨_, _, _, _, _, el, er, tl, tr, vl, vr⟩ := h.ok.sub hs
  exact ⟨hs, rfl, rfl, er, tr, vr⟩

/-- Which rows visit a node. -/
theorem Facts.visits_child (h : Facts T c D lab okP train valid arr w t) {u : GTree F Y P} {k p : Nat} {isL : Bool}
    {a : GNode F Y P} {l r : GTree F Y P} (hc : ChildOf D t u k p isL a l r) (x : Nat → Nat) :
    Visits arr x k ↔ Visits arr x p ∧ goesLeft a.sp (x a.sp.feature) = isL := by
  obtain ⟨np, n1, n2⟩ := h.below hc.sub
  have hg := n2.ok
  have htest := fun bin => testLeft_iff n2.holds hg.1 hg.2.1 bin
  simp only [GTree.root] at htest
  have hsh : np.isLeaf = false ∧ np.left = some (p + 1 + r.size) ∧ np.right = some (p + 1) := by
    rcases n2.shape with ⟨a', h0, _⟩ | ⟨a', l', r', h0, h1, h2, h3⟩
    · exact absurd h0 (by simp)
    · simp only [GTree.node.injEq] at h0
      obtain ⟨_, _, rfl⟩ := h0
      exact ⟨h1, h2, h3⟩
  -- inversion at a child
  have inv : ∀ q m, NodeAt arr q m → ∀ f, m.isLeaf = false → m.feature = some f →
      (m.left = some k → q = p ∧ isL = true ∧ f = a.sp.feature ∧ m = np) ∧
      (m.right = some k → q = p ∧ isL = false ∧ f = a.sp.feature ∧ m = np) := by
    intro q m hm f hleaf hfe
    obtain ⟨v, hv⟩ := h.ofNode hm
    rcases hv.shape with ⟨a', rfl, h0, _⟩ | ⟨a', l', r', rfl, h0, h1, h2⟩
    · rw [hleaf] at h0; exact absurd h0 (by simp)
    · have hfe' := (testLeft_iff hv.holds hv.ok.1 hv.ok.2.1 0).1
      rw [hfe] at hfe'
      simp only [Option.some.injEq, GTree.root] at hfe'
      have done : ∀ b, ChildOf D t (if b then l' else r') k q b a' l' r' →
          q = p ∧ isL = b ∧ f = a.sp.feature ∧ m = np := by
        intro b hb
        obtain ⟨q1, q2, q3, q4⟩ := hc.unique hb
        subst q1 q3
        refine ⟨rfl, q2, hfe', ?_⟩
        have := hm.2
        rw [n1.2] at this
        injection this with this
        exact this.symm
      constructor
      · intro hl
        rw [h1] at hl
        injection hl with hl
        exact done true (hl ▸ h.child_left hv.sub)
      · intro hr
        rw [h2] at hr
        injection hr with hr
        exact done false (hr ▸ h.child_right hv.sub)
  constructor
  · intro hv
    have hk0 : k ≠ 0 := by rw [hc.idx]; cases isL <;> simp
    cases hv with
    | root => exact absurd rfl hk0
    | left v1 v2 v3 v4 v5 v6 =>
      obtain ⟨rfl, rfl, rfl, rfl⟩ := (inv _ _ v2 _ v3 v4).1 v6
      exact ⟨v1, ((htest _).2.2.2.2).1 v5⟩
    | right v1 v2 v3 v4 v5 v6 =>
      obtain ⟨rfl, rfl, rfl, rfl⟩ := (inv _ _ v2 _ v3 v4).2 v6
      refine ⟨v1, ?_⟩
      have := mt ((htest _).2.2.2.2).2 v5
      simpa using this
  · rintro ⟨hv, hg'⟩
    cases isL with
    | true =>
      have hidx := hc.idx
      simp only [if_true] at hidx
      exact .left hv n1 hsh.1 (htest 0).1 (((htest _).2.2.2.2).2 hg') (by rw [hsh.2.1, hidx])
    | false =>
      have hidx := hc.idx
      simp only [Bool.false_eq_true, if_false] at hidx
      exact .right hv n1 hsh.1 (htest 0).1 (fun h0 => by
        have := ((htest _).2.2.2.2).1 h0
        rw [hg'] at this; exact absurd this (by simp)) (by rw [hsh.2.2, hidx])

/-- The samples of a node are the samples that visit it. -/
theorem Facts.routed (h : Facts T c D lab okP train valid arr w t) : ∀ (k : Nat) (u : GTree F Y P), SubAt t 0 u k →
    u.root.train = Spec.routed arr D train k ∧ u.root.valid = Spec.routed arr D valid k := by
  classical
  intro k
  induction k using Nat.strongRecOn with
  | _ k ih =>
    intro u hs
    by_cases hk : k = 0
    · subst hk
      have := hs.unique (.refl _ _)
      subst this
      have e : ∀ l : List Nat, l = Spec.routed arr D l 0 := by
        intro l
        unfold Spec.routed
        symm
        rw [List.filter_eq_self]
        intro i _
        simp only [decide_eq_true_iff]
        exact .root
      rw [h.okTrain, h.okValid]
      exact ⟨e _, e _⟩
    · obtain ⟨p, isL, a, l, r, hpk, hc⟩ := h.childOf hs hk
      obtain ⟨i1, i2⟩ := ih p hpk _ hc.sub
      simp only [GTree.root] at i1 i2
      have e : ∀ l : List Nat, (Spec.routed arr D l p).filter (fun i => goesLeft a.sp (D.X i a.sp.feature) == isL) =
          Spec.routed arr D l k := by
        intro l
        unfold Spec.routed
        rw [List.filter_filter]
        apply List.filter_congr
        intro i _
        rw [Bool.eq_iff_iff]
        simp only [Bool.and_eq_true, decide_eq_true_iff, beq_iff_eq]
        rw [h.visits_child hc]
        exact and_comm
      rw [hc.train, hc.valid]
      simp only [GNode.leftT, GNode.rightT, GNode.leftV, GNode.rightV, i1, i2]
      cases isL with
      | true =>
        simp only [beq_true] at e
        exact ⟨e train, e valid⟩
      | false =>
        simp only [beq_false] at e
        exact ⟨e train, e valid⟩

/-- The leaf reached by a row in a subtree. -/
def leafOf (x : Nat → Nat) : GTree F Y P → Nat → Nat
  | .leaf _, k => k
  | .node a l r, k => if goesLeft a.sp (x a.sp.feature) then leafOf x l (k + 1 + r.size) else leafOf x r (k + 1)

theorem Facts.leafOf_visits (h : Facts T c D lab okP train valid arr w t) (x : Nat → Nat) :
    ∀ (u : GTree F Y P) (k : Nat), SubAt t 0 u k → Visits arr x k →
      Visits arr x (leafOf x u k) ∧ ∃ n, NodeAt arr (leafOf x u k) n ∧ n.isLeaf = true := by
  intro u
  induction u with
  | leaf a =>
    intro k hs hv
    obtain ⟨n, h1, h2⟩ := h.below hs
    refine ⟨hv, n, h1, ?_⟩
    rcases h2.shape with ⟨_, _, h0, _⟩ | ⟨_, _, _, h0, _⟩
    · exact h0
    · exact absurd h0 (by simp)
  | node a l r ihl ihr =>
    intro k hs hv
    simp only [leafOf]
    cases hg : goesLeft a.sp (x a.sp.feature) with
    | true =>
      simp only [if_true]
      exact ihl _ (subAt_left hs) ((h.visits_child (h.child_left hs) x).2 ⟨hv, hg⟩)
    | false =>
      exact ihr _ (subAt_right hs) ((h.visits_child (h.child_right hs) x).2 ⟨hv, hg⟩)

/-- `find_leaf` computes it. -/
theorem Facts.findLeafFrom (h : Facts T c D lab okP train valid arr w t) {fba : FBA} {i : Nat} (x : Nat → Nat)
    (hx : ∀ j, j < D.d → fba.getValue i j = .ok (x j)) :
    ∀ (u : GTree F Y P) (k fuel : Nat), SubAt t 0 u k → u.size ≤ fuel →
      Verif.findLeafFrom arr fba i fuel k = .ok (leafOf x u k) := by
  intro u
  induction u with
  | leaf a =>
    intro k fuel hs hfu
    obtain ⟨n, h1, h2⟩ := h.below hs
    obtain ⟨f, rfl⟩ : ∃ f, fuel = f + 1 := ⟨fuel - 1, by simp only [GTree.size] at hfu; omega⟩
    have hl : n.isLeaf = true := by
      rcases h2.shape with ⟨_, _, h0, _⟩ | ⟨_, _, _, h0, _⟩
      · exact h0
      · exact absurd h0 (by simp)
    simp only [Verif.findLeafFrom, rd_ok.2 h1.2, bind_ok, hl, if_true, pure_eq_ok, leafOf]
  | node a l r ihl ihr =>
    intro k fuel hs hfu
    obtain ⟨n, h1, h2⟩ := h.below hs
    simp only [GTree.size] at hfu
    obtain ⟨f, rfl⟩ : ∃ f, fuel = f + 1 := ⟨fuel - 1, by omega⟩
    have hg := h2.ok
    obtain ⟨_, feats, hsamp, _, hsp⟩ := hg.1.split hg.2.1
    have hfd : a.sp.feature < D.d := hsamp.2.2 _ hsp.feature
    obtain ⟨t1, t2, t3, t4, t5⟩ := testLeft_iff h2.holds hg.1 hg.2.1 (x a.sp.feature)
    simp only [GTree.root] at t1 t2 t3 t4 t5
    have hsh : n.isLeaf = false ∧ n.left = some (k + 1 + r.size) ∧ n.right = some (k + 1) := by
      rcases h2.shape with ⟨a', h0, _⟩ | ⟨a', l', r', h0, h1, h2, h3⟩
      · exact absurd h0 (by simp)
      · simp only [GTree.node.injEq] at h0
        obtain ⟨_, _, rfl⟩ := h0
        exact ⟨h1, h2, h3⟩
    have hchild : Verif.childOf arr fba i n = .ok (if goesLeft a.sp (x a.sp.feature) then k + 1 + r.size else k + 1) := by
      unfold Verif.childOf
      simp only [t1, idx, bind_ok, hx _ hfd, t2, t3, hsh.2.1, hsh.2.2, pure_eq_ok]
      cases hc : a.sp.isCat with
      | true =>
        rw [t4 hc, isBinInPartition_spec _ ((hsp.part hc).1.imp (fun h => Nat.le_of_lt h))]
        simp only [if_true, bind_ok, goesLeft, hc, decide_eq_true_iff]
        split <;> simp_all
      | false =>
        simp only [Bool.false_eq_true, if_false, bind_ok, goesLeft, hc, decide_eq_true_iff]
        split <;> simp_all
    simp only [Verif.findLeafFrom, rd_ok.2 h1.2, bind_ok, hsh.1, Bool.false_eq_true, if_false, hchild, leafOf]
    cases goesLeft a.sp (x a.sp.feature) with
    | true => simpa using ihl _ f (subAt_left hs) (by omega)
    | false => simpa using ihr _ f (subAt_right hs) (by omega)

/-- A visited node inside a subtree: the root of the subtree is visited. -/
theorem Facts.visits_up (h : Facts T c D lab okP train valid arr w t) (x : Nat → Nat) {u : GTree F Y P} {k : Nat}
    (hs : SubAt t 0 u k) : ∀ (j : Nat) (v : GTree F Y P), SubAt u k v j → Visits arr x j → Visits arr x k := by
  intro j
  induction j using Nat.strongRecOn with
  | _ j ih =>
    intro v hv hj
    by_cases hjk : j = k
    · subst hjk; exact hj
    · obtain ⟨a, l, r, p, h1, h2⟩ := hv.parent hjk
      have hp := hs.trans h1
      rcases h2 with ⟨rfl, rfl⟩ | ⟨rfl, rfl⟩
      · exact ih p (by omega) _ h1 ((h.visits_child (h.child_left hp) x).1 hj).1
      · exact ih p (by omega) _ h1 ((h.visits_child (h.child_right hp) x).1 hj).1

/-- The visited leaf is unique. -/
theorem Facts.leaf_unique (h : Facts T c D lab okP train valid arr w t) (x : Nat → Nat) :
    ∀ (u : GTree F Y P) (k : Nat), SubAt t 0 u k → ∀ (j : Nat) (a : GNode F Y P), SubAt u k (.leaf a) j →
      Visits arr x j → j = leafOf x u k := by
  intro u
  induction u with
  | leaf b =>
    intro k hs j a hj hv
    cases hj
    rfl
  | node b l r ihl ihr =>
    intro k hs j a hj hv
    simp only [leafOf]
    cases hj with
    | left hj =>
      have hv' := h.visits_up x (subAt_left hs) j _ hj hv
      have := ((h.visits_child (h.child_left hs) x).1 hv').2
      rw [if_pos this]
      exact ihl _ (subAt_left hs) j a hj hv
    | right hj =>
      have hv' := h.visits_up x (subAt_right hs) j _ hj hv
      have := ((h.visits_child (h.child_right hs) x).1 hv').2
      rw [if_neg (by rw [this]; simp)]
      exact ihr _ (subAt_right hs) j a hj hv

/-- The ranges of the leaves partition the range of the root. -/
theorem leaf_ranges {k : Nat} {u : GTree F Y P} (hg : GOK T c D lab okP u k) :
    (∀ p, u.root.rcd.sT ≤ p → p < u.root.rcd.eT → ∃! j, ∃ a, SubAt u k (.leaf a) j ∧ a.rcd.sT ≤ p ∧ p < a.rcd.eT) ∧
    (∀ p, u.root.rcd.sV ≤ p → p < u.root.rcd.eV → ∃! j, ∃ a, SubAt u k (.leaf a) j ∧ a.rcd.sV ≤ p ∧ p < a.rcd.eV) ∧
    (∀ j v, SubAt u k v j → u.root.rcd.sT ≤ v.root.rcd.sT ∧ v.root.rcd.eT ≤ u.root.rcd.eT ∧
      u.root.rcd.sV ≤ v.root.rcd.sV ∧ v.root.rcd.eV ≤ u.root.rcd.eV) := by
  induction u generalizing k with
  | leaf a =>
    refine ⟨?_, ?_, ?_⟩
    · intro p h1 h2
      refine ⟨k, ⟨a, .refl _ _, h1, h2⟩, ?_⟩
      rintro j ⟨b, hb, _⟩
      cases hb; rfl
    · intro p h1 h2
      refine ⟨k, ⟨a, .refl _ _, h1, h2⟩, ?_⟩
      rintro j ⟨b, hb, _⟩
      cases hb; rfl
    · intro j v hv
      cases hv; simp
  | node a l r ihl ihr =>
    obtain ⟨hf, hfd, hid, gr, gl, el, er, tl, tr, vl, vr⟩ := hg
    obtain ⟨l1, l2, l3⟩ := ihl gl
    obtain ⟨r1, r2, r3⟩ := ihr gr
    rw [el] at l1 l2 l3
    rw [er] at r1 r2 r3
    simp only [leftRecord] at l1 l2 l3
    simp only [rightRecord] at r1 r2 r3
    have q1 := leftT_le D a
    have q2 := leftV_le D a
    have q3 := hf.rangeT
    have q4 := hf.rangeV
    have hroot : (GTree.node a l r).root = a := rfl
    rw [hroot]
    refine ⟨?_, ?_, ?_⟩
    · intro p h1 h2
      by_cases hp : p < a.rcd.sT + (a.leftT D).length
      · obtain ⟨j, ⟨b, hb1, hb2⟩, hu⟩ := l1 p h1 hp
        refine ⟨j, ⟨b, .left hb1, hb2⟩, ?_⟩
        rintro j' ⟨b', hb', hb''⟩
        cases hb' with
        | left h0 => exact hu j' ⟨b', h0, hb''⟩
        | right h0 => have := r3 j' _ h0; simp only [GTree.root] at this; omega
      · obtain ⟨j, ⟨b, hb1, hb2⟩, hu⟩ := r1 p (by omega) h2
        refine ⟨j, ⟨b, .right hb1, hb2⟩, ?_⟩
        rintro j' ⟨b', hb', hb''⟩
        cases hb' with
        | right h0 => exact hu j' ⟨b', h0, hb''⟩
        | left h0 => have := l3 j' _ h0; simp only [GTree.root] at this; omega
    · intro p h1 h2
      by_cases hp : p < a.rcd.sV + (a.leftV D).length
      · obtain ⟨j, ⟨b, hb1, hb2⟩, hu⟩ := l2 p h1 hp
        refine ⟨j, ⟨b, .left hb1, hb2⟩, ?_⟩
        rintro j' ⟨b', hb', hb''⟩
        cases hb' with
        | left h0 => exact hu j' ⟨b', h0, hb''⟩
        | right h0 => have := r3 j' _ h0; simp only [GTree.root] at this; omega
      · obtain ⟨j, ⟨b, hb1, hb2⟩, hu⟩ := r2 p (by omega) h2
        refine ⟨j, ⟨b, .right hb1, hb2⟩, ?_⟩
        rintro j' ⟨b', hb', hb''⟩
        cases hb' with
        | right h0 => exact hu j' ⟨b', h0, hb''⟩
        | left h0 => have := l3 j' _ h0; simp only [GTree.root] at this; omega
    · intro j v hv
      cases hv with
      | refl => simp [GTree.root]
      | left h0 => have := l3 j _ h0; omega
      | right h0 => have := r3 j _ h0; omega

/-- Number of leaves in the table. -/
theorem Facts.leafCount_aux (h : Facts T c D lab okP train valid arr w t) : ∀ (u : GTree F Y P) (k : Nat), SubAt t 0 u k →
    ((List.range' k u.size).filter
      fun k => match arr.nodes[k]? with | some n => n.isLeaf | none => false).length = u.leaves := by
  intro u
  induction u with
  | leaf a =>
    intro k hs
    obtain ⟨n, h1, h2⟩ := h.below hs
    have hl : n.isLeaf = true := by
      rcases h2.shape with ⟨_, _, h0, _⟩ | ⟨_, _, _, h0, _⟩
      · exact h0
      · exact absurd h0 (by simp)
    simp [GTree.size, GTree.leaves, h1.2, hl]
  | node a l r ihl ihr =>
    intro k hs
    obtain ⟨n, h1, h2⟩ := h.below hs
    have hl : n.isLeaf = false := by
      rcases h2.shape with ⟨_, h0, _⟩ | ⟨_, _, _, _, h0, _⟩
      · exact absurd h0 (by simp)
      · exact h0
    simp only [GTree.size, GTree.leaves]
    rw [show l.size + r.size + 1 = (r.size + l.size) + 1 by omega, List.range'_succ,
      ← List.range'_append_1 (s := k + 1), List.filter_cons_of_neg (by simp [h1.2, hl]), List.filter_append,
      List.length_append, ihr _ (subAt_right hs), ihl _ (subAt_left hs)]
    omega

end

end Verif
