import Verif.Model.Grow
import Verif.Proofs.FindSplit
import Verif.Proofs.SplitIndices
import Verif.Proofs.Sampling
import Verif.Spec.Tree

set_option linter.unusedSectionVars false

/-! Growing as a recursive relation, without arrays: the trees it produces and their properties. -/
namespace Verif

open Spec

variable {F Y P G : Type} [Num F]

/-- What is known of a node when it is added: its index, the record that was popped, its statistics, its split and its
samples in the order of the partition at that time. -/
structure GNode (F Y P : Type) where
  id : Nat
  rcd : Record F
  nc : NodeCtx F Y P
  sp : Split F
  train : List Nat
  valid : List Nat

/-- The tree of nodes. -/
inductive GTree (F Y P : Type) where
  | leaf (a : GNode F Y P)
  | node (a : GNode F Y P) (l r : GTree F Y P)

/-- The root node. -/
def GTree.root : GTree F Y P → GNode F Y P
  | .leaf a => a
  | .node a _ _ => a

/-- Number of nodes. -/
def GTree.size : GTree F Y P → Nat
  | .leaf _ => 1
  | .node _ l r => l.size + r.size + 1

/-- Number of leaves. -/
def GTree.leaves : GTree F Y P → Nat
  | .leaf _ => 1
  | .node _ l r => l.leaves + r.leaves

theorem GTree.size_pos (t : GTree F Y P) : 0 < t.size := by cases t <;> simp [GTree.size]

theorem GTree.size_leaves (t : GTree F Y P) : t.size + 1 = 2 * t.leaves := by
  induction t with
  | leaf a => rfl
  | node a l r hl hr => simp only [GTree.size, GTree.leaves]; omega

/-- `SubAt t k t' k'`: `t'` is a subtree of `t`; when the root of `t` has index `k` then the root of `t'` has index `k'`. -/
inductive SubAt : GTree F Y P → Nat → GTree F Y P → Nat → Prop
  | refl (t k) : SubAt t k t k
  | left {a l r k t' k'} : SubAt l (k + 1 + r.size) t' k' → SubAt (.node a l r) k t' k'
  | right {a l r k t' k'} : SubAt r (k + 1) t' k' → SubAt (.node a l r) k t' k'

theorem SubAt.trans {t u v : GTree F Y P} {i j k : Nat} (h1 : SubAt t i u j) (h2 : SubAt u j v k) : SubAt t i v k := by
  induction h1 with
  | refl => exact h2
  | left _ ih => exact .left (ih h2)
  | right _ ih => exact .right (ih h2)

theorem SubAt.range {t u : GTree F Y P} {i j : Nat} (h : SubAt t i u j) : i ≤ j ∧ j + u.size ≤ i + t.size := by
  induction h with
  | refl => simp
  | left _ ih => simp only [GTree.size]; omega
  | right _ ih => simp only [GTree.size]; omega

theorem exists_subAt (t : GTree F Y P) : ∀ (k j : Nat), k ≤ j → j < k + t.size → ∃ u, SubAt t k u j := by
  induction t with
  | leaf a =>
    intro k j h1 h2
    simp only [GTree.size] at h2
    obtain rfl : j = k := by omega
    exact ⟨_, .refl _ _⟩
  | node a l r ihl ihr =>
    intro k j h1 h2
    simp only [GTree.size] at h2
    by_cases hk : j = k
    · subst hk; exact ⟨_, .refl _ _⟩
    · by_cases hr : j < k + 1 + r.size
      · obtain ⟨u, hu⟩ := ihr (k + 1) j (by omega) (by omega)
        exact ⟨u, .right hu⟩
      · obtain ⟨u, hu⟩ := ihl (k + 1 + r.size) j (by omega) (by omega)
        exact ⟨u, .left hu⟩

theorem SubAt.unique {t u v : GTree F Y P} {k j : Nat} (h1 : SubAt t k u j) (h2 : SubAt t k v j) : u = v := by
  induction t generalizing k with
  | leaf a => cases h1; cases h2; rfl
  | node a l r ihl ihr =>
    cases h1 with
    | refl =>
      cases h2 with
      | refl => rfl
      | left h => have := h.range; omega
      | right h => have := h.range; omega
    | left h1 =>
      cases h2 with
      | refl => have := h1.range; omega
      | left h2 => exact ihl h1 h2
      | right h2 =>
        have := h1.range; have := h2.range; have := u.size_pos; have := v.size_pos; omega
    | right h1 =>
      cases h2 with
      | refl => have := h1.range; omega
      | right h2 => exact ihr h1 h2
      | left h2 =>
        have := h1.range; have := h2.range; have := u.size_pos; have := v.size_pos; omega

/-- A subtree other than the whole tree is a child of a node. -/
theorem SubAt.parent {t u : GTree F Y P} {k j : Nat} (h : SubAt t k u j) (hne : j ≠ k) :
    ∃ a l r p, SubAt t k (.node a l r) p ∧ ((u = l ∧ j = p + 1 + r.size) ∨ (u = r ∧ j = p + 1)) := by
  induction h with
  | refl => exact absurd rfl hne
  | @left a l r k t' k' h ih =>
    by_cases hc : k' = k + 1 + r.size
    · subst hc
      have := h.unique (.refl _ _)
      exact ⟨a, l, r, k, .refl _ _, Or.inl ⟨this, rfl⟩⟩
    · obtain ⟨a', l', r', p, h1, h2⟩ := ih hc
      exact ⟨a', l', r', p, .left h1, h2⟩
  | @right a l r k t' k' h ih =>
    by_cases hc : k' = k + 1
    · subst hc
      have := h.unique (.refl _ _)
      exact ⟨a, l, r, k, .refl _ _, Or.inr ⟨this, rfl⟩⟩
    · obtain ⟨a', l', r', p, h1, h2⟩ := ih hc
      exact ⟨a', l', r', p, .right h1, h2⟩

/-- State of the growing process apart from the tree: work arrays, next node index, end of the used part of
`bin_partitions`. -/
structure RS (G : Type) where
  work : Work G
  id : Nat
  bp : Nat

/-- Number of categories stored for a node. -/
def bpLen (sp : Split F) : Nat := if sp.isCat = true ∧ 0 < sp.partition.length then sp.partition.length else 0

/-- Growing the subtree of a record: the right child is done first, as its record is on top of the stack. -/
inductive Grown (R : Rng G) (T : Task F Y P G) (c : Ctx F) :
    RS G → Record F → GTree F Y P → RS G → Prop
  | leaf {s : RS G} {r nc w1 sp g} :
      computeNodeContext R T c s.work r.sT r.eT r.sV r.eV = .ok (nc, w1) →
      chooseSplit T c r nc w1 = .ok (sp, g) → sp.found = false →
      Grown R T c s r
        (.leaf ⟨s.id, r, nc, sp, slice s.work.partTrain r.sT r.eT, slice s.work.partValid r.sV r.eV⟩)
        ⟨{ w1 with rng := g }, s.id + 1, s.bp + bpLen sp⟩
  | node {s : RS G} {r nc w1 sp g w2 posT posV tl tr s2 s3} :
      computeNodeContext R T c s.work r.sT r.eT r.sV r.eV = .ok (nc, w1) →
      chooseSplit T c r nc w1 = .ok (sp, g) → sp.found = true →
      splitIndices c sp { w1 with rng := g } r.sT r.eT r.sV r.eV = .ok (w2, posT, posV) →
      Grown R T c ⟨w2, s.id + 1, s.bp + bpLen sp⟩ (rightRecord r sp s.id posT posV) tr s2 →
      Grown R T c s2 (leftRecord r sp s.id posT posV) tl s3 →
      Grown R T c s r
        (.node ⟨s.id, r, nc, sp, slice s.work.partTrain r.sT r.eT, slice s.work.partValid r.sV r.eV⟩ tl tr) s3

/-- Invariant of the work arrays. -/
structure WInv (c : Ctx F) (D : Data F) (lab : F → Prop) (nT nV : Nat) (w : Work G) : Prop where
  lenT : w.partTrain.length = nT
  lenV : w.partValid.length = nV
  okT : ∀ i ∈ w.partTrain, i < D.n ∧ lab (D.y i)
  okV : ∀ i ∈ w.partValid, i < D.n ∧ lab (D.y i)
  bufL : nT ≤ w.leftBuf.length ∧ nV ≤ w.leftBuf.length
  bufR : nT ≤ w.rightBuf.length ∧ nV ≤ w.rightBuf.length
  pool : w.pool.length = D.d
  sample : IsSample D.d c.maxFeatures w.sampled

theorem mem_of_mem_slice {α : Type} {a : List α} {s e : Nat} {x : α} (h : x ∈ slice a s e) : x ∈ a :=
  List.mem_of_mem_drop (List.mem_of_mem_take h)

theorem slice_congr {α : Type} {a b : List α} {s e : Nat} (h : ∀ p : Nat, s ≤ p → p < e → a[p]? = b[p]?) :
    slice a s e = slice b s e := by
  apply List.ext_getElem?
  intro i
  rw [slice_getElem?, slice_getElem?]
  split
  · exact h _ (by omega) (by omega)
  · rfl

theorem sampleFeatures_spec (R : Rng G) {c : Ctx F} {D : Data F} {lab : F → Prop} {nT nV : Nat} {w : Work G}
    (hP : ParamsOK c D) (hw : WInv c D lab nT nV w) :
    ∃ w1, sampleFeatures R c w = .ok w1 ∧ WInv c D lab nT nV w1 ∧ w1.partTrain = w.partTrain ∧
      w1.partValid = w.partValid := by
  unfold sampleFeatures
  split
  · have hlen : w.sampled.length ≤ w.pool.length := by rw [hw.pool, hw.sample.1]; exact hP.feats.2
    obtain ⟨pool', out', g', e1, e2⟩ := swr_spec R w.rng hlen
    refine ⟨{ w with pool := pool', sampled := out', rng := g' }, by simp only [e1, bind_ok, pure_eq_ok], ?_, rfl, rfl⟩
    have := swrInv_sample e2
    rw [hw.pool, hw.sample.1] at this
    exact ⟨hw.lenT, hw.lenV, hw.okT, hw.okV, hw.bufL, hw.bufR, by rw [e2.1, hw.pool], this⟩
  · exact ⟨w, rfl, hw, rfl, rfl⟩

theorem computeNodeContext_spec (R : Rng G) {T : Task F Y P G} {lab : F → Prop} {okY : Y → Prop} {okP : P → Prop}
    (hT : TaskSafe T lab okY okP) {c : Ctx F} {D : Data F} (hD : Holds c D) (hP : ParamsOK c D) {nT nV : Nat}
    {w : Work G} (hw : WInv c D lab nT nV w) {sT eT sV eV : Nat} (h1 : sT ≤ eT) (h2 : eT ≤ nT) (h3 : sV ≤ eV)
    (h4 : eV ≤ nV) :
    ∃ nc w1, computeNodeContext R T c w sT eT sV eV = .ok (nc, w1) ∧ WInv c D lab nT nV w1 ∧
      w1.partTrain = w.partTrain ∧ w1.partValid = w.partValid ∧
      NodeOK T c D okP w1.sampled (slice w.partTrain sT eT) (slice w.partValid sV eV) nc := by
  obtain ⟨w1, e1, e2, e3, e4⟩ := sampleFeatures_spec R hP hw
  have hne : w1.sampled ≠ [] := by
    intro h0
    have := e2.sample.1
    rw [h0] at this
    have := hP.feats.1
    simp at *; omega
  obtain ⟨nc, f1, f2⟩ := nodeStats_spec hT hD w1.sampled (slice w.partTrain sT eT) (slice w.partValid sV eV)
    e2.sample.2.2 hne (fun i hi => hw.okT i (mem_of_mem_slice hi)) (fun i hi => hw.okV i (mem_of_mem_slice hi))
  have l1 : (slice w.partTrain sT eT).length = eT - sT := slice_length (by rw [hw.lenT]; exact h2)
  have l2 : (slice w.partValid sV eV).length = eV - sV := slice_length (by rw [hw.lenV]; exact h4)
  rw [l1, l2] at f1
  refine ⟨nc, w1, ?_, e2, e3, e4, f2⟩
  simp only [computeNodeContext, e1, bind_ok, usub_of_le h1, usub_of_le h3, e3, e4, f1, pure_eq_ok]

/-- Facts about the split of a node. -/
def SplitFacts (T : Task F Y P G) (c : Ctx F) (D : Data F) (r : Record F) (nc : NodeCtx F Y P)
    (feats train valid : List Nat) (sp : Split F) : Prop :=
  ((sp.found = false ∧ sp = Split.reset) ∨
    (sp.found = true ∧ stopHere c r nc.nTrain nc.nValid = false ∧ SplitOK c D feats train valid sp)) ∧
  (stopHere c r nc.nTrain nc.nValid = false → ∃ g g', findNodeSplit T c nc feats g = .ok (sp, g'))

theorem stopHere_false {c : Ctx F} {r : Record F} {nT nV : Nat} (h : stopHere c r nT nV = false) :
    c.minSplit ≤ nT ∧ (c.aggregation = true → c.minSplit ≤ nV) ∧
    (∀ x, r.impurity = some x → Num.le x Num.zero = false) ∧ r.depth < c.maxDepth := by
  unfold stopHere at h
  simp only [Bool.or_eq_false_iff, Bool.and_eq_false_iff, decide_eq_false_iff_not] at h
  obtain ⟨⟨⟨h1, h2⟩, h3⟩, h4⟩ := h
  refine ⟨by omega, ?_, ?_, by omega⟩
  · intro ha; rw [ha] at h2; simp at h2; omega
  · intro x hx; rw [hx] at h3; exact h3

theorem chooseSplit_spec {T : Task F Y P G} {lab : F → Prop} {okY : Y → Prop} {okP : P → Prop}
    (hT : TaskSafe T lab okY okP) {c : Ctx F} {D : Data F} (hD : Holds c D) (hP : ParamsOK c D) {nT nV : Nat}
    {w : Work G} (hw : WInv c D lab nT nV w) {train valid : List Nat}
    (htr : ∀ i ∈ train, i < D.n ∧ lab (D.y i)) (hva : ∀ i ∈ valid, i < D.n ∧ lab (D.y i))
    {nc : NodeCtx F Y P} (hn : NodeOK T c D okP w.sampled train valid nc) (r : Record F) :
    ∃ sp g, chooseSplit T c r nc w = .ok (sp, g) ∧ SplitFacts T c D r nc w.sampled train valid sp := by
  unfold chooseSplit
  cases hst : stopHere c r nc.nTrain nc.nValid with
  | true => exact ⟨Split.reset, w.rng, by simp, Or.inl ⟨rfl, rfl⟩, fun h0 => by rw [hst] at h0; exact absurd h0 (by simp)⟩
  | false =>
    have hs := stopHere_false hst
    obtain ⟨sp, g', e1, e2, _⟩ := findNodeSplit_spec hT hD hn hw.sample.2.2 htr hva (by
      intro ha h0
      have := hs.2.1 ha
      rw [hn.nValid, h0] at this
      have := hP.minSplit
      simp at *; omega) w.rng
    refine ⟨sp, g', by simp [e1], ?_, fun _ => ⟨_, _, e1⟩⟩
    rcases e2 with rfl | ⟨h1, h2⟩
    · exact Or.inl ⟨rfl, rfl⟩
    · exact Or.inr ⟨h1, hst, h2⟩

/-- Facts about a single node of the tree. -/
structure NodeFacts (T : Task F Y P G) (c : Ctx F) (D : Data F) (lab : F → Prop) (okP : P → Prop) (a : GNode F Y P) :
    Prop where
  stats : ∃ feats, IsSample D.d c.maxFeatures feats ∧ NodeOK T c D okP feats a.train a.valid a.nc ∧
    SplitFacts T c D a.rcd a.nc feats a.train a.valid a.sp
  okTrain : ∀ i ∈ a.train, i < D.n ∧ lab (D.y i)
  okValid : ∀ i ∈ a.valid, i < D.n ∧ lab (D.y i)
  nonempty : a.train ≠ []
  rangeT : a.rcd.sT ≤ a.rcd.eT ∧ a.train.length = a.rcd.eT - a.rcd.sT
  rangeV : a.rcd.sV ≤ a.rcd.eV ∧ a.valid.length = a.rcd.eV - a.rcd.sV

/-- Training and validation samples that go left. -/
def GNode.leftT (D : Data F) (a : GNode F Y P) : List Nat :=
  a.train.filter fun i => goesLeft a.sp (D.X i a.sp.feature)

/-- See `GNode.leftT`. -/
def GNode.leftV (D : Data F) (a : GNode F Y P) : List Nat :=
  a.valid.filter fun i => goesLeft a.sp (D.X i a.sp.feature)

/-- See `GNode.leftT`. -/
def GNode.rightT (D : Data F) (a : GNode F Y P) : List Nat :=
  a.train.filter fun i => !goesLeft a.sp (D.X i a.sp.feature)

/-- See `GNode.leftT`. -/
def GNode.rightV (D : Data F) (a : GNode F Y P) : List Nat :=
  a.valid.filter fun i => !goesLeft a.sp (D.X i a.sp.feature)

/-- Well-formedness of a grown tree whose root has index `k`. -/
def GOK (T : Task F Y P G) (c : Ctx F) (D : Data F) (lab : F → Prop) (okP : P → Prop) : GTree F Y P → Nat → Prop
  | .leaf a, k => NodeFacts T c D lab okP a ∧ a.sp.found = false ∧ a.id = k
  | .node a l r, k => NodeFacts T c D lab okP a ∧ a.sp.found = true ∧ a.id = k ∧
      GOK T c D lab okP r (k + 1) ∧ GOK T c D lab okP l (k + 1 + r.size) ∧
      l.root.rcd = leftRecord a.rcd a.sp k (a.rcd.sT + (a.leftT D).length) (a.rcd.sV + (a.leftV D).length) ∧
      r.root.rcd = rightRecord a.rcd a.sp k (a.rcd.sT + (a.leftT D).length) (a.rcd.sV + (a.leftV D).length) ∧
      l.root.train = a.leftT D ∧ r.root.train = a.rightT D ∧
      l.root.valid = a.leftV D ∧ r.root.valid = a.rightV D

theorem GOK.facts {T : Task F Y P G} {c : Ctx F} {D : Data F} {lab : F → Prop} {okP : P → Prop} {t : GTree F Y P}
    {k : Nat} (h : GOK T c D lab okP t k) : NodeFacts T c D lab okP t.root := by
  cases t with
  | leaf a => exact h.1
  | node a l r => exact h.1

theorem GOK.id {T : Task F Y P G} {c : Ctx F} {D : Data F} {lab : F → Prop} {okP : P → Prop} {t : GTree F Y P}
    {k : Nat} (h : GOK T c D lab okP t k) : t.root.id = k := by
  cases t with
  | leaf a => exact h.2.2
  | node a l r => exact h.2.2.1

/-- The ranges of all nodes of the tree still hold their samples in the final partitions. -/
def Final (w : Work G) : GTree F Y P → Prop
  | .leaf a => (slice w.partTrain a.rcd.sT a.rcd.eT).Perm a.train ∧ (slice w.partValid a.rcd.sV a.rcd.eV).Perm a.valid
  | .node a l r => (slice w.partTrain a.rcd.sT a.rcd.eT).Perm a.train ∧
      (slice w.partValid a.rcd.sV a.rcd.eV).Perm a.valid ∧ Final w l ∧ Final w r

theorem leftT_le (D : Data F) (a : GNode F Y P) : (a.leftT D).length ≤ a.train.length := List.length_filter_le _ _

theorem leftV_le (D : Data F) (a : GNode F Y P) : (a.leftV D).length ≤ a.valid.length := List.length_filter_le _ _

theorem Final.congr {T : Task F Y P G} {c : Ctx F} {D : Data F} {lab : F → Prop} {okP : P → Prop} {w w' : Work G} :
    ∀ {t : GTree F Y P} {k : Nat}, GOK T c D lab okP t k → Final w t →
      (∀ p : Nat, t.root.rcd.sT ≤ p → p < t.root.rcd.eT → w'.partTrain[p]? = w.partTrain[p]?) →
      (∀ p : Nat, t.root.rcd.sV ≤ p → p < t.root.rcd.eV → w'.partValid[p]? = w.partValid[p]?) → Final w' t
  | .leaf a, k, _, h2, h3, h4 => by
    simp only [GTree.root] at h3 h4
    refine ⟨?_, ?_⟩
    · rw [slice_congr h3]; exact h2.1
    · rw [slice_congr h4]; exact h2.2
  | .node a l r, k, h1, h2, h3, h4 => by
    obtain ⟨hf, _, _, hr, hl, er, el, _⟩ := h1
    have l1 := leftT_le D a
    have l2 := leftV_le D a
    have := hf.rangeT
    have := hf.rangeV
    simp only [GTree.root] at h3 h4
    refine ⟨?_, ?_, ?_, ?_⟩
    · rw [slice_congr h3]; exact h2.1
    · rw [slice_congr h4]; exact h2.2.1
    · apply Final.congr hl h2.2.2.1
      · intro p p1 p2
        rw [er] at p1 p2
        simp only [leftRecord] at p1 p2
        exact h3 p (by omega) (by omega)
      · intro p p1 p2
        rw [er] at p1 p2
        simp only [leftRecord] at p1 p2
        exact h4 p (by omega) (by omega)
    · apply Final.congr hr h2.2.2.2
      · intro p p1 p2
        rw [el] at p1 p2
        simp only [rightRecord] at p1 p2
        exact h3 p (by omega) (by omega)
      · intro p p1 p2
        rw [el] at p1 p2
        simp only [rightRecord] at p1 p2
        exact h4 p (by omega) (by omega)

/-- A range of an array that is outside the range `[s, e)` is unchanged, the range itself is permuted. -/
structure Shuffled (a b : List Nat) (s e : Nat) : Prop where
  len : b.length = a.length
  outside : ∀ p : Nat, p < s ∨ e ≤ p → b[p]? = a[p]?
  perm : (slice b s e).Perm (slice a s e)

theorem Shuffled.refl (a : List Nat) (s e : Nat) : Shuffled a a s e := ⟨rfl, fun _ _ => rfl, .refl _⟩

theorem Shuffled.trans {a b c : List Nat} {s e : Nat} (h1 : Shuffled a b s e) (h2 : Shuffled b c s e) :
    Shuffled a c s e :=
  ⟨h2.len.trans h1.len, fun p hp => (h2.outside p hp).trans (h1.outside p hp), h2.perm.trans h1.perm⟩

theorem slice_append_slice {α : Type} (a : List α) {s m e : Nat} (h1 : s ≤ m) (h2 : m ≤ e) :
    slice a s e = slice a s m ++ slice a m e := by
  unfold slice
  rw [show e - s = (m - s) + (e - m) by omega, List.take_add, List.drop_drop]
  congr 3; omega

/-- Shuffling a part of the range. -/
theorem Shuffled.widen {a b : List Nat} {s e s' e' : Nat} (h : Shuffled a b s e) (h1 : s' ≤ s) (h2 : s ≤ e)
    (h3 : e ≤ e') : Shuffled a b s' e' := by
  refine ⟨h.len, fun p hp => h.outside p (by omega), ?_⟩
  rw [slice_append_slice b h1 (h2.trans h3), slice_append_slice b h2 h3, slice_append_slice a h1 (h2.trans h3),
    slice_append_slice a h2 h3]
  have q1 : slice b s' s = slice a s' s := slice_congr (fun p _ hp => h.outside p (Or.inl hp))
  have q2 : slice b e e' = slice a e e' := slice_congr (fun p hp _ => h.outside p (Or.inr hp))
  rw [q1, q2]
  exact List.Perm.append_left _ (h.perm.append_right _)

theorem Shuffled.all_perm {a b : List Nat} {s e : Nat} (h : Shuffled a b s e) (h1 : s ≤ e) (h2 : e ≤ a.length) :
    b.Perm a := by
  have := (h.widen (Nat.zero_le s) h1 h2).perm
  rw [slice_zero_length] at this
  rw [← h.len, slice_zero_length] at this
  exact this

theorem filter_perm_append (p : Nat → Bool) (l : List Nat) :
    (l.filter p ++ l.filter fun i => !p i).Perm l := List.filter_append_perm p l

/-- `split_indices` on one of the partitions. -/
theorem shuffled_of_split {part part' : List Nat} {st en : Nat} (left : Nat → Bool) (h1 : st ≤ en)
    (h2 : en ≤ part.length)
    (h3 : part' = part.take st ++ (slice part st en).filter left ++ (slice part st en).filter (fun i => !left i) ++
        part.drop en) :
    Shuffled part part' st en ∧ st + ((slice part st en).filter left).length ≤ en ∧
      slice part' st (st + ((slice part st en).filter left).length) = (slice part st en).filter left ∧
      slice part' (st + ((slice part st en).filter left).length) en = (slice part st en).filter (fun i => !left i) := by
  have hlen := List.length_eq_length_filter_add (l := slice part st en) left
  have hsl := slice_length (s := st) h2
  have htk : (part.take st).length = st := by simp; omega
  have hperm := filter_perm_append left (slice part st en)
  generalize hA : (slice part st en).filter left = A at *
  generalize hB : (slice part st en).filter (fun i => !left i) = B at *
  have e1 : slice part' st (st + A.length) = A := by
    rw [h3]; unfold slice
    rw [List.append_assoc, List.append_assoc, List.drop_append_of_le_length (by omega),
      List.drop_of_length_le (by omega)]
    simp
  have e2 : slice part' (st + A.length) en = B := by
    rw [h3]; unfold slice
    rw [List.append_assoc, List.append_assoc, ← List.append_assoc (part.take st) A,
      List.drop_append_of_le_length (by simp; omega), List.drop_of_length_le (by simp)]
    simp only [List.nil_append]
    rw [List.take_append_of_le_length (by omega), List.take_of_length_le (by omega)]
  refine ⟨⟨?_, ?_, ?_⟩, by omega, e1, e2⟩
  · rw [h3]; simp only [List.length_append, htk, List.length_drop]; omega
  · intro p hp
    rw [h3]
    rcases hp with hp | hp
    · rw [List.append_assoc, List.append_assoc, List.getElem?_append_left (by omega),
        List.getElem?_take_of_lt hp]
    · rw [List.getElem?_append_right (by simp only [List.length_append, htk]; omega)]
      simp only [List.length_append, htk, List.getElem?_drop]
      congr 1; omega
  · rw [slice_append_slice part' (show st ≤ st + A.length by omega) (by omega), e1, e2]
    exact hperm

/-- What growing the subtree of a record does. -/
structure GrownOut (R : Rng G) (T : Task F Y P G) (c : Ctx F) (D : Data F) (lab : F → Prop) (okP : P → Prop)
    (nT nV : Nat) (s : RS G) (r : Record F) (t : GTree F Y P) (s' : RS G) : Prop where
  grown : Grown R T c s r t s'
  ok : GOK T c D lab okP t s.id
  rcd : t.root.rcd = r
  train : t.root.train = slice s.work.partTrain r.sT r.eT
  valid : t.root.valid = slice s.work.partValid r.sV r.eV
  id : s'.id = s.id + t.size
  size : t.size + 1 ≤ 2 * (r.eT - r.sT)
  winv : WInv c D lab nT nV s'.work
  shT : Shuffled s.work.partTrain s'.work.partTrain r.sT r.eT
  shV : Shuffled s.work.partValid s'.work.partValid r.sV r.eV
  final : Final s'.work t

/-- Growing always succeeds. -/
theorem grown_exists (R : Rng G) {T : Task F Y P G} {lab : F → Prop} {okY : Y → Prop} {okP : P → Prop}
    (hT : TaskSafe T lab okY okP) {c : Ctx F} {D : Data F} (hD : Holds c D) (hP : ParamsOK c D) {nT nV : Nat} :
    ∀ (m : Nat) (s : RS G) (r : Record F), r.eT - r.sT ≤ m → WInv c D lab nT nV s.work → r.sT < r.eT → r.eT ≤ nT →
      r.sV ≤ r.eV → r.eV ≤ nV → ∃ t s', GrownOut R T c D lab okP nT nV s r t s' := by
  intro m
  induction m with
  | zero => intro s r hm _ h; omega
  | succ m ih =>
    intro s r hm hw h1 h2 h3 h4
    obtain ⟨nc, w1, e1, e2, e3, e4, e5⟩ := computeNodeContext_spec R hT hD hP hw (Nat.le_of_lt h1) h2 h3 h4
    have htr : ∀ i ∈ slice s.work.partTrain r.sT r.eT, i < D.n ∧ lab (D.y i) :=
      fun i hi => hw.okT i (mem_of_mem_slice hi)
    have hva : ∀ i ∈ slice s.work.partValid r.sV r.eV, i < D.n ∧ lab (D.y i) :=
      fun i hi => hw.okV i (mem_of_mem_slice hi)
    obtain ⟨sp, g, f1, f2⟩ := chooseSplit_spec hT hD hP e2 htr hva e5 r
    have hlenT : (slice s.work.partTrain r.sT r.eT).length = r.eT - r.sT := slice_length (by rw [hw.lenT]; exact h2)
    have hlenV : (slice s.work.partValid r.sV r.eV).length = r.eV - r.sV := slice_length (by rw [hw.lenV]; exact h4)
    have hfacts : NodeFacts T c D lab okP (⟨s.id, r, nc, sp, slice s.work.partTrain r.sT r.eT,
        slice s.work.partValid r.sV r.eV⟩ : GNode F Y P) := by
      refine ⟨⟨w1.sampled, e2.sample, e5, f2⟩, htr, hva, ?_, ⟨Nat.le_of_lt h1, hlenT⟩, ⟨h3, hlenV⟩⟩
      intro h0
      simp only at h0
      rw [h0] at hlenT
      simp at hlenT; omega
    rcases f2 with ⟨k1, k2⟩ | ⟨k1, k2, k3⟩
    · refine ⟨_, _, .leaf e1 f1 k1, ⟨hfacts, k1, rfl⟩, rfl, rfl, rfl, rfl, ?_, ?_, ?_, ?_, ?_⟩
      · simp only [GTree.size]; omega
      · exact ⟨e2.lenT, e2.lenV, e2.okT, e2.okV, e2.bufL, e2.bufR, e2.pool, e2.sample⟩
      · simp only [e3]; exact .refl _ _ _
      · simp only [e4]; exact .refl _ _ _
      · simp only [Final, e3, e4]
        exact ⟨.refl _, .refl _⟩
    · have hfd : sp.feature < D.d := e2.sample.2.2 _ k3.feature
      obtain ⟨w2, g1, g2, g3, g4, g5, g6, g7, g8⟩ := splitIndices_spec c sp
        (fun hc => (k3.part hc).1.imp (fun h => Nat.le_of_lt h)) (fun i => D.X i sp.feature) { w1 with rng := g }
        r.sT r.eT r.sV r.eV (Nat.le_of_lt h1) (by simp only [e2.lenT]; exact h2) h3 (by simp only [e2.lenV]; exact h4)
        (by have := e2.bufL; simp only; omega) (by have := e2.bufR; simp only; omega)
        (by have := e2.bufL; simp only; omega) (by have := e2.bufR; simp only; omega)
        (by
          intro i hi
          simp only [e3, e4] at hi
          have : i < D.n := by
            rcases List.mem_append.1 hi with hi | hi
            · exact (htr i hi).1
            · exact (hva i hi).1
          exact hD.value i _ this hfd)
      simp only [e3, e4] at g1 g2 g3
      obtain ⟨s1, s2, s3, s4⟩ := shuffled_of_split (fun i => goesLeft sp (D.X i sp.feature)) (Nat.le_of_lt h1)
        (by rw [hw.lenT]; exact h2) g2
      obtain ⟨v1, v2, v3, v4⟩ := shuffled_of_split (fun i => goesLeft sp (D.X i sp.feature)) h3
        (by rw [hw.lenV]; exact h4) g3
      have c1 := k3.nTrainL
      have c2 := k3.nTrainR
      have c3 := k3.pos
      have c4 := length_filter_not (fun i => goesLeft sp (D.X i sp.feature)) (slice s.work.partTrain r.sT r.eT)
      have hw2 : WInv c D lab nT nV w2 := by
        have p1 := s1.all_perm (Nat.le_of_lt h1) (by rw [hw.lenT]; exact h2)
        have p2 := v1.all_perm h3 (by rw [hw.lenV]; exact h4)
        refine ⟨by rw [s1.len, hw.lenT], by rw [v1.len, hw.lenV], fun i hi => hw.okT i (p1.mem_iff.1 hi),
          fun i hi => hw.okV i (p2.mem_iff.1 hi), ?_, ?_, ?_, ?_⟩
        · rw [g4]; exact e2.bufL
        · rw [g5]; exact e2.bufR
        · rw [g6]; exact e2.pool
        · rw [g7]; exact e2.sample
      generalize hLT : (slice s.work.partTrain r.sT r.eT).filter (fun i => goesLeft sp (D.X i sp.feature)) = LT at *
      generalize hLV : (slice s.work.partValid r.sV r.eV).filter (fun i => goesLeft sp (D.X i sp.feature)) = LV at *
      generalize hRT : (slice s.work.partTrain r.sT r.eT).filter (fun i => !goesLeft sp (D.X i sp.feature)) = RT at *
      generalize hRV : (slice s.work.partValid r.sV r.eV).filter (fun i => !goesLeft sp (D.X i sp.feature)) = RV at *
      -- the right child
      obtain ⟨tr, sR, oR⟩ := ih ⟨w2, s.id + 1, s.bp + bpLen sp⟩
        (rightRecord r sp s.id (r.sT + LT.length) (r.sV + LV.length)) (by simp only [rightRecord]; omega) hw2
        (by simp only [rightRecord]; omega) (by simp only [rightRecord]; omega) (by simp only [rightRecord]; omega)
        (by simp only [rightRecord]; omega)
      -- the left child
      obtain ⟨tl, sL, oL⟩ := ih sR (leftRecord r sp s.id (r.sT + LT.length) (r.sV + LV.length))
        (by simp only [leftRecord]; omega) oR.winv
        (by simp only [leftRecord]; omega) (by simp only [leftRecord]; omega) (by simp only [leftRecord]; omega)
        (by simp only [leftRecord]; omega)
      have hRshT := oR.shT
      have hRshV := oR.shV
      have hLshT := oL.shT
      have hLshV := oL.shV
      simp only [rightRecord] at hRshT hRshV
      simp only [leftRecord] at hLshT hLshV
      have hsT : slice sR.work.partTrain r.sT (r.sT + LT.length) = LT :=
        (slice_congr (fun p _ hp => hRshT.outside p (Or.inl hp))).trans s3
      have hsV : slice sR.work.partValid r.sV (r.sV + LV.length) = LV :=
        (slice_congr (fun p _ hp => hRshV.outside p (Or.inl hp))).trans v3
      have hshT : Shuffled s.work.partTrain sL.work.partTrain r.sT r.eT :=
        s1.trans ((hRshT.widen (by omega) (by omega) (le_refl _)).trans
          (hLshT.widen (le_refl _) (by omega) (by omega)))
      have hshV : Shuffled s.work.partValid sL.work.partValid r.sV r.eV :=
        v1.trans ((hRshV.widen (by omega) (by omega) (le_refl _)).trans
          (hLshV.widen (le_refl _) (by omega) (by omega)))
      refine ⟨_, sL, .node e1 f1 k1 (by rw [e3, e4]; exact g1) oR.grown oL.grown, ?_, rfl, rfl, rfl, ?_, ?_, oL.winv, hshT, hshV, ?_⟩
      · refine ⟨hfacts, k1, rfl, oR.ok, ?_, ?_, ?_, ?_, ?_, ?_, ?_⟩
        · have := oL.ok
          rw [oR.id] at this
          exact this
        · simp only [GNode.leftT, GNode.leftV, hLT, hLV]; exact oL.rcd
        · simp only [GNode.leftT, GNode.leftV, hLT, hLV]; exact oR.rcd
        · simp only [GNode.leftT, hLT]; rw [oL.train]; exact hsT
        · simp only [GNode.rightT, hRT]; rw [oR.train]; exact s4
        · simp only [GNode.leftV, hLV]; rw [oL.valid]; exact hsV
        · simp only [GNode.rightV, hRV]; rw [oR.valid]; exact v4
      · rw [oL.id, oR.id]; simp only [GTree.size]; omega
      · have q1 := oL.size
        have q2 := oR.size
        simp only [leftRecord] at q1
        simp only [rightRecord] at q2
        simp only [GTree.size]; omega
      · refine ⟨hshT.perm, hshV.perm, oL.final, ?_⟩
        refine Final.congr oR.ok oR.final ?_ ?_
        · intro p p1 p2
          rw [oR.rcd] at p1
          exact hLshT.outside p (Or.inr p1)
        · intro p p1 p2
          rw [oR.rcd] at p1
          exact hLshV.outside p (Or.inr p1)

end Verif
