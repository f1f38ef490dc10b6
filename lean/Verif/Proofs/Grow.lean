import Verif.Proofs.AddNode

set_option linter.unusedSectionVars false

/-! The loop of `grow` follows the relation `Grown`, and the arrays represent the tree. -/
namespace Verif

open Spec

variable {F Y P G : Type} [Num F]

theorem Grown.id {R : Rng G} {T : Task F Y P G} {c : Ctx F} {s : RS G} {r : Record F} {t : GTree F Y P} {s' : RS G}
    (h : Grown R T c s r t s') : t.root.id = s.id ∧ t.root.rcd = r ∧ s'.id = s.id + t.size ∧ s.bp ≤ s'.bp := by
  induction h with
  | leaf => exact ⟨rfl, rfl, rfl, by simp⟩
  | node _ _ _ _ _ _ ih1 ih2 =>
    refine ⟨rfl, rfl, ?_, ?_⟩
    · rw [ih2.2.2.1, ih1.2.2.1]; simp only [GTree.size]; omega
    · have := ih1.2.2.2
      have := ih2.2.2.2
      simp only at *; omega

/-- The arrays hold a node: everything but the children. -/
structure HoldsNode (t : TreeArr F P) (b k : Nat) (a : GNode F Y P) (n : Node F) : Prop where
  node : ∃ bS bE, n = { newNode k a.rcd a.nc a.sp.info bS bE with left := n.left, right := n.right, logW := n.logW } ∧
    (0 < bpLen a.sp → bE ≤ b ∧ bE = bS + bpLen a.sp ∧ slice t.binParts bS bE = a.sp.partition) ∧
    (bpLen a.sp = 0 → bS = 0 ∧ bE = 0)
  entry : t.nodes[k]? = some n
  pred : t.yPred[k]? = some a.nc.yPred

/-- The arrays represent the tree, with root index `k`; the categories are stored before index `b`. -/
def Repr (arr : TreeArr F P) (b : Nat) : GTree F Y P → Nat → Prop
  | .leaf a, k => ∃ n, HoldsNode arr b k a n ∧ n.left = none ∧ n.right = none
  | .node a l r, k => (∃ n, HoldsNode arr b k a n ∧ n.left = some (k + 1 + r.size) ∧ n.right = some (k + 1)) ∧
      Repr arr b r (k + 1) ∧ Repr arr b l (k + 1 + r.size)

theorem slice_of_take_eq {a a' : List Nat} {b s e : Nat} (h : a'.take b = a.take b) (he : e ≤ b) :
    slice a' s e = slice a s e := by
  apply slice_congr
  intro p _ hp
  have := congrArg (fun l => l[p]?) h
  simp only [List.getElem?_take_of_lt (show p < b by omega)] at this
  exact this

theorem HoldsNode.frame {t t' : TreeArr F P} {b b' k : Nat} {a : GNode F Y P} {n : Node F} (h : HoldsNode t b k a n)
    (h1 : t'.nodes[k]? = t.nodes[k]?) (h2 : t'.yPred[k]? = t.yPred[k]?) (h3 : t'.binParts.take b = t.binParts.take b)
    (h4 : b ≤ b') : HoldsNode t' b' k a n := by
  obtain ⟨bS, bE, e1, e2, e3⟩ := h.node
  refine ⟨⟨bS, bE, e1, ?_, e3⟩, h1.trans h.entry, h2.trans h.pred⟩
  intro h0
  obtain ⟨q1, q2, q3⟩ := e2 h0
  exact ⟨by omega, q2, (slice_of_take_eq h3 q1).trans q3⟩

theorem Repr.frame {t t' : TreeArr F P} {b b' : Nat} (h3 : t'.binParts.take b = t.binParts.take b) (h4 : b ≤ b') :
    ∀ {g : GTree F Y P} {k : Nat}, Repr t b g k →
      (∀ j : Nat, k ≤ j → j < k + g.size → t'.nodes[j]? = t.nodes[j]?) →
      (∀ j : Nat, k ≤ j → j < k + g.size → t'.yPred[j]? = t.yPred[j]?) → Repr t' b' g k
  | .leaf a, k, h, h1, h2 => by
    obtain ⟨n, e1, e2⟩ := h
    exact ⟨n, e1.frame (h1 k (le_refl _) (by simp [GTree.size])) (h2 k (le_refl _) (by simp [GTree.size])) h3 h4, e2⟩
  | .node a l r, k, h, h1, h2 => by
    obtain ⟨⟨n, e1, e2⟩, hr, hl⟩ := h
    simp only [GTree.size] at h1 h2
    exact ⟨⟨n, e1.frame (h1 k (le_refl _) (by omega)) (h2 k (le_refl _) (by omega)) h3 h4, e2⟩,
      Repr.frame h3 h4 hr (fun j _ _ => h1 j (by omega) (by omega)) (fun j _ _ => h2 j (by omega) (by omega)),
      Repr.frame h3 h4 hl (fun j _ _ => h1 j (by omega) (by omega)) (fun j _ _ => h2 j (by omega) (by omega))⟩

/-- State of the loop that corresponds to a state of the relation. -/
structure Match (g : GState F P G) (s : RS G) (recs : List (Record F)) : Prop where
  inv : g.recs.Inv
  abs : g.recs.abs = recs
  tinv : TInv g.tree
  count : g.tree.nodeCount = s.id
  bp : g.tree.bpEnd = s.bp
  work : g.work = s.work

theorem infoLen_info (sp : Split F) : infoLen sp.info = bpLen sp := rfl

theorem withChild_newNode_ne {r : Record F} {k j : Nat} (h : r.parent ≠ some j) (n : Node F) : withChild r k j n = n := by
  simp [withChild, h]

theorem map_withChild_ne {r : Record F} {k j : Nat} (h : r.parent ≠ some j) (o : Option (Node F)) :
    o.map (withChild r k j) = o := by
  cases o <;> simp [withChild, h]

/-- The loop of `grow` processes the subtree of the record on top of the stack. -/
theorem growLoop_of_grown (R : Rng G) {T : Task F Y P G} {c : Ctx F} (gb : Garbage F) {s : RS G} {r : Record F}
    {t : GTree F Y P} {s' : RS G} (h : Grown R T c s r t s') :
    ∀ (g : GState F P G) (rest : List (Record F)), Match g s (r :: rest) → (∀ p, r.parent = some p → p < s.id) →
      ∃ g', Match g' s' rest ∧ (∀ fuel, growLoop R T c gb (t.size + fuel) g = growLoop R T c gb fuel g') ∧
        Repr g'.tree s'.bp t s.id ∧
        (∀ j : Nat, j < s.id → g'.tree.nodes[j]? = (g.tree.nodes[j]?).map (withChild r s.id j)) ∧
        (∀ j : Nat, j < s.id → g'.tree.yPred[j]? = g.tree.yPred[j]?) ∧
        g'.tree.binParts.take s.bp = g.tree.binParts.take s.bp := by
  induction h with
  | @leaf s r nc w1 sp gr e1 e2 e3 =>
    intro g rest hm hp
    obtain ⟨rs, p1, p2, p3⟩ := Records.pop_spec hm.inv hm.abs
    obtain ⟨t1, yp, bS, bE, a1, a2, a3, a4, a5, a6, a7, a8, a9, a10, a11, a12⟩ :=
      addNode_spec T.zeroP gb.bin hm.tinv r nc sp.info (by rw [hm.count]; exact hp) nc.yPred
    rw [hm.count] at a1 a2 a4 a6 a7 a8 a9
    rw [hm.bp] at a5 a10 a11
    rw [infoLen_info] at a5 a11 a12
    have hst : growStep R T c gb g = .ok
        { tree := { t1 with yPred := yp }, recs := rs, work := { w1 with rng := gr } } := by
      unfold growStep
      simp only [p1, bind_ok, hm.work, e1, e2, a1, a2, e3, pure_eq_ok]
      rfl
    refine ⟨{ tree := { t1 with yPred := yp }, recs := rs, work := { w1 with rng := gr } }, ⟨p2, p3, a3, a4, a5, rfl⟩, ?_, ?_, a8, a9, a10⟩
    · intro fuel
      have hne : g.recs.nonEmpty = true := (Records.nonEmpty_iff hm.inv).2 (by rw [hm.abs]; simp)
      simp only [GTree.size]
      rw [Nat.add_comm 1 fuel]
      simp only [growLoop, hne, if_true, hst, bind_ok]
    · refine ⟨_, ⟨⟨bS, bE, rfl, ?_, a12⟩, a6, a7⟩, ?_, ?_⟩
      · intro h0
        obtain ⟨q1, q2, q3⟩ := a11 h0
        exact ⟨by simp only; omega, by simp only; omega, q3⟩
      · simp [newNode, Split.info, e3]
      · simp [newNode, Split.info, e3]
  | @node s r nc w1 sp gr w2 posT posV tl tr s2 s3 e1 e2 e3 e4 h5 h6 ih1 ih2 =>
    intro g rest hm hp
    obtain ⟨rs, p1, p2, p3⟩ := Records.pop_spec hm.inv hm.abs
    obtain ⟨t1, yp, bS, bE, a1, a2, a3, a4, a5, a6, a7, a8, a9, a10, a11, a12⟩ :=
      addNode_spec T.zeroP gb.bin hm.tinv r nc sp.info (by rw [hm.count]; exact hp) nc.yPred
    rw [hm.count] at a1 a2 a4 a6 a7 a8 a9
    rw [hm.bp] at a5 a10 a11
    rw [infoLen_info] at a5 a11 a12
    obtain ⟨rs1, r1, r2, r3⟩ := Records.push_spec gb p2 (leftRecord r sp s.id posT posV)
    obtain ⟨rs2, r4, r5, r6⟩ := Records.push_spec gb r2 (rightRecord r sp s.id posT posV)
    rw [r3, p3] at r6
    have hst : growStep R T c gb g = .ok { tree := { t1 with yPred := yp }, recs := rs2, work := w2 } := by
      unfold growStep
      simp only [p1, bind_ok, hm.work, e1, e2, a1, a2, e3, e4, r1, r4, pure_eq_ok, if_true]
    -- the right child
    obtain ⟨g1, m1, l1, rep1, fr1, fp1, fb1⟩ := ih1 { tree := { t1 with yPred := yp }, recs := rs2, work := w2 } _
      ⟨r5, r6, a3, a4, a5, rfl⟩ (by intro p hp'; simp only [rightRecord, Option.some.injEq] at hp' ⊢; omega)
    simp only at fr1 fp1 fb1 rep1
    have id1 := h5.id
    simp only at id1
    -- the left child
    obtain ⟨g2, m2, l2, rep2, fr2, fp2, fb2⟩ := ih2 g1 rest m1
      (by intro p hp'; simp only [leftRecord, Option.some.injEq] at hp'; omega)
    have id2 := h6.id
    refine ⟨g2, m2, ?_, ⟨?_, ?_, ?_⟩, ?_, ?_, ?_⟩
    · intro fuel
      have hne : g.recs.nonEmpty = true := (Records.nonEmpty_iff hm.inv).2 (by rw [hm.abs]; simp)
      rw [show (GTree.node (F := F) (Y := Y) (P := P) ⟨s.id, r, nc, sp, slice s.work.partTrain r.sT r.eT,
        slice s.work.partValid r.sV r.eV⟩ tl tr).size + fuel = (tr.size + (tl.size + fuel)) + 1 by
        simp only [GTree.size]; omega]
      rw [growLoop]
      simp only [hne, if_true, hst, bind_ok]
      rw [l1, l2]
    · -- the node itself
      have hn : g2.tree.nodes[s.id]? = some
          { newNode s.id r nc sp.info bS bE with left := some (s.id + 1 + tr.size), right := some (s.id + 1) } := by
        rw [fr2 s.id (by omega), fr1 s.id (by omega), a6, id1.2.2.1]
        simp [withChild, rightRecord, leftRecord]
      refine ⟨_, ⟨⟨bS, bE, rfl, ?_, a12⟩, hn, ?_⟩, rfl, rfl⟩
      · intro h0
        obtain ⟨q1, q2, q3⟩ := a11 h0
        simp only at h0
        have hb : bE ≤ s.bp + bpLen sp := by omega
        refine ⟨by omega, by simp only; omega, ?_⟩
        rw [slice_of_take_eq fb2 (by omega), slice_of_take_eq fb1 hb]
        exact q3
      · rw [fp2 s.id (by omega), fp1 s.id (by omega)]
        exact a7
    · refine Repr.frame fb2 id2.2.2.2 rep1 ?_ ?_
      · intro j hj1 hj2
        rw [fr2 j (by omega), map_withChild_ne]
        simp only [leftRecord, ne_eq, Option.some.injEq]; omega
      · intro j hj1 hj2
        rw [fp2 j (by omega)]
    · rw [id1.2.2.1] at rep2
      exact rep2
    · intro j hj
      rw [fr2 j (by omega), fr1 j (by omega), a8 j hj]
      rw [map_withChild_ne, map_withChild_ne]
      · simp only [rightRecord, ne_eq, Option.some.injEq]; omega
      · simp only [leftRecord, ne_eq, Option.some.injEq]; omega
    · intro j hj
      rw [fp2 j (by omega), fp1 j (by omega), a9 j hj]
    · have q1 := congrArg (List.take s.bp) fb2
      have q2 := congrArg (List.take s.bp) fb1
      rw [List.take_take, List.take_take, min_eq_left (by omega)] at q1
      rw [List.take_take, List.take_take, min_eq_left (by omega)] at q2
      rw [q1, q2, a10]

end Verif
