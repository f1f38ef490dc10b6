import Verif.Proofs.Recode
import Verif.Proofs.PermuteSplit

set_option linter.unusedSectionVars false

/-! Growing a tree with permuted bins. -/
namespace Verif.Bins

open Spec

variable {F Y P G : Type} [Num F] {π : Nat → Equiv.Perm Nat} {c c' : Ctx F} {T : Task F Y P G}

/-! ### Related node tables -/

/-- Tables of the same length with related entries. -/
structure NodesR (R : Nat → Node F → Node F → Prop) (ns ns' : List (Node F)) : Prop where
  len : ns'.length = ns.length
  at' : ∀ (j : Nat) n n', ns[j]? = some n → ns'[j]? = some n' → R j n n'

theorem NodesR.rd {R : Nat → Node F → Node F → Prop} {ns ns' : List (Node F)} (h : NodesR R ns ns') (j : Nat) :
    SameResult (R j) (rd ns j) (rd ns' j) := rd_sim h.len fun x y hx hy => h.at' j x y hx hy

theorem NodesR.wr {R R' : Nat → Node F → Node F → Prop} {ns ns' : List (Node F)} (h : NodesR R ns ns') (j : Nat) {x y : Node F}
    (hx : R' j x y) (hm : ∀ i n n', i ≠ j → R i n n' → R' i n n') :
    SameResult (fun a b => NodesR R' a b ∧ a.length = ns.length ∧ j < ns.length) (wr ns j x) (wr ns' j y) := by
  refine SameResult.mono (wr_sim h.len) ?_
  rintro _ _ ⟨rfl, rfl, hj⟩
  refine ⟨⟨by simp [h.len], fun i n n' h1 h2 => ?_⟩, by simp, hj⟩
  by_cases hi : j = i
  · subst hi
    rw [List.getElem?_set_self hj] at h1
    rw [List.getElem?_set_self (by rw [h.len]; exact hj)] at h2
    injection h1 with h1
    injection h2 with h2
    rw [← h1, ← h2]
    exact hx
  · rw [List.getElem?_set_ne hi] at h1 h2
    exact hm i n n' (Ne.symm hi) (h.at' i n n' h1 h2)

/-- The children are nodes that exist already (or the root). -/
def KidsLt (m : Nat) (n : Node F) : Prop := (∀ q, n.left = some q → q < max m 1) ∧ ∀ q, n.right = some q → q < max m 1

/-- The two nodes send a row to the same side. `bp`, `bp'` are the stored sets of categories, used up to `e`. -/
def NodeP (π : Nat → Equiv.Perm Nat) (e : Nat) (bp bp' : List Nat) (n n' : Node F) : Prop :=
  n.isLeaf = false → ∃ f, n.feature = some f ∧ (n.isCat = false → n'.binThr = n.binThr ∧ π f = 1) ∧
    (n.isCat = true → n.bpE ≤ e ∧ PartP (π f) (slice bp n.bpS n.bpE) (slice bp' n.bpS n.bpE))

/-- Nodes that differ only in the threshold. -/
def NodeEq (n n' : Node F) : Prop := n' = { n with binThr := n'.binThr }

/-- Related nodes at place `j`, when there are `m` nodes. -/
def NodeQ (π : Nat → Equiv.Perm Nat) (m K e : Nat) (bp bp' : List Nat) (j : Nat) (n n' : Node F) : Prop :=
  NodeEq n n' ∧ (j < m → NodeP π e bp bp' n n') ∧ KidsLt K n

/-- Related arrays. -/
structure ArrP (π : Nat → Equiv.Perm Nat) (t t' : TreeArr F P) : Prop where
  nodes : NodesR (NodeQ π t.nodeCount t.nodeCount t.bpEnd t.binParts t'.binParts) t.nodes t'.nodes
  cnt : t.nodeCount ≤ t.nodes.length
  yPred : t'.yPred = t.yPred
  nodeCount : t'.nodeCount = t.nodeCount
  capacity : t'.capacity = t.capacity
  bpCapacity : t'.bpCapacity = t.bpCapacity
  bpEnd : t'.bpEnd = t.bpEnd
  lenB : t'.binParts.length = t.binParts.length
  fits : t.bpEnd ≤ t.binParts.length

theorem resizeTree'_perm (z : P) {t t' : TreeArr F P} (h : ArrP π t t') (n : Nat) :
    SameResult (fun x y => ArrP π x y ∧ x.nodeCount = t.nodeCount) (resizeTree' z t n) (resizeTree' z t' n) := by
  unfold resizeTree'
  rw [h.yPred]
  refine SameResult.bind (S := fun a b => NodesR (NodeQ π t.nodeCount t.nodeCount t.bpEnd t.binParts t'.binParts) a b ∧ t.nodeCount ≤ a.length) ?_ ?_
  · unfold resizeArr
    rw [h.nodes.len]
    split
    · refine SameResult.ok ⟨⟨by simp [h.nodes.len], fun j x x' h1 h2 => ?_⟩, by have := h.cnt; simp; omega⟩
      by_cases hj : j < t.nodes.length
      · rw [List.getElem?_append_left hj] at h1
        rw [List.getElem?_append_left (by rw [h.nodes.len]; exact hj)] at h2
        exact h.nodes.at' j x x' h1 h2
      · rw [List.getElem?_append_right (by omega)] at h1
        rw [List.getElem?_append_right (by rw [h.nodes.len]; omega)] at h2
        rw [List.getElem?_map, Option.map_eq_some_iff] at h1 h2
        obtain ⟨_, _, rfl⟩ := h1
        obtain ⟨_, _, rfl⟩ := h2
        refine ⟨rfl, fun hm => absurd h.cnt (by omega), ?_, ?_⟩
        · intro q hq
          obtain rfl : 0 = q := Option.some.inj hq
          omega
        · intro q hq
          obtain rfl : 0 = q := Option.some.inj hq
          omega
    · rfl
  · rintro a b ⟨hab, hcnt⟩
    refine SameResult.same.bind ?_
    rintro yp _ rfl
    exact SameResult.pure ⟨⟨hab, hcnt, rfl, h.nodeCount, rfl, h.bpCapacity, h.bpEnd, h.lenB, h.fits⟩, rfl⟩

theorem resizeTree_perm (z : P) {t t' : TreeArr F P} (h : ArrP π t t') (o : Option Nat) :
    SameResult (fun x y => ArrP π x y ∧ x.nodeCount = t.nodeCount) (resizeTree z t o) (resizeTree z t' o) := by
  cases o with
  | none =>
    simp only [resizeTree, h.capacity]
    split
    · exact resizeTree'_perm z h 3
    · exact resizeTree'_perm z h _
  | some n =>
    simp only [resizeTree, h.capacity, h.nodes.len]
    split
    · exact SameResult.ok ⟨h, rfl⟩
    · exact resizeTree'_perm z h n

/-! ### Writing a node -/

/-- Related descriptions of a new node. -/
structure InfoP (π : Nat → Equiv.Perm Nat) (i i' : SplitInfo) : Prop where
  eq : i' = { i with bin := i'.bin, partition := i'.partition }
  num : i.isLeaf = false → i.isCat = false → i'.bin = i.bin ∧ π i.feature = 1
  cat : i.isCat = true → i'.partition.length = i.partition.length ∧ PartP (π i.feature) i.partition i'.partition

theorem SplitQ.info {s s' : Split F} (h : SplitQ π s s') : InfoP π s.info s'.info := by
  refine ⟨?_, ?_, ?_⟩
  · unfold Split.info
    simp only [show s'.found = s.found by rw [h.eq], show s'.feature = s.feature by rw [h.eq], show s'.isCat = s.isCat by rw [h.eq]]
  · intro h1 h2
    exact h.num (by simpa [Split.info] using h1) h2
  · intro h1
    refine h.cat ?_ h1
    by_contra hf
    have := (h.none (by simpa using hf)).2
    rw [show s.isCat = true from h1] at this
    cases this

theorem setChild_perm {S : Nat → Node F → Node F → Prop} {ns ns' : List (Node F)} (h : NodesR S ns ns') (r : Record F) (k : Nat)
    (hl : ∀ j n n', S j n n' → S j { n with left := some k } { n' with left := some k })
    (hr : ∀ j n n', S j n n' → S j { n with right := some k } { n' with right := some k }) :
    SameResult (fun a b => NodesR S a b ∧ a.length = ns.length) (setChild ns r k) (setChild ns' r k) := by
  unfold setChild
  cases r.parent with
  | none => exact SameResult.ok ⟨h, rfl⟩
  | some p =>
    refine (h.rd p).bind fun n n' hn => ?_
    refine SameResult.mono (h.wr p (R' := S) ?_ fun i n n' _ h => h) fun a b hab => ⟨hab.1, hab.2.1⟩
    split
    · exact hl _ _ _ hn
    · exact hr _ _ _ hn

/-- Node `k` has just been written. -/
def NodeW (π : Nat → Equiv.Perm Nat) (k e : Nat) (bp bp' : List Nat) (i i' : SplitInfo) (j : Nat) (n n' : Node F) : Prop :=
  NodeQ π k (k + 1) e bp bp' j n n' ∧ (j = k → n.isLeaf = i.isLeaf ∧ (i.isLeaf = false → n.feature = some i.feature ∧ n.isCat = i.isCat ∧
    n.binThr = some i.bin ∧ n'.binThr = some i'.bin))

/-- The arrays after the first part of `add_node_tree`. -/
structure ArrW (π : Nat → Equiv.Perm Nat) (i i' : SplitInfo) (t t' : TreeArr F P) : Prop where
  nodes : NodesR (NodeW π t.nodeCount t.bpEnd t.binParts t'.binParts i i') t.nodes t'.nodes
  cnt : t.nodeCount < t.nodes.length
  yPred : t'.yPred = t.yPred
  nodeCount : t'.nodeCount = t.nodeCount
  capacity : t'.capacity = t.capacity
  bpCapacity : t'.bpCapacity = t.bpCapacity
  bpEnd : t'.bpEnd = t.bpEnd
  lenB : t'.binParts.length = t.binParts.length
  fits : t.bpEnd ≤ t.binParts.length

theorem KidsLt.mono {m k : Nat} {n : Node F} (h : KidsLt m n) (hk : m ≤ k) : KidsLt k n :=
  ⟨fun q hq => (h.1 q hq).trans_le (by omega), fun q hq => (h.2 q hq).trans_le (by omega)⟩

theorem writeNode_perm {t t' : TreeArr F P} (h : ArrP π t t') (r : Record F) {fs : List Nat} {nc nc' : NodeCtx F Y P} (hn : NcP π fs nc nc')
    {i i' : SplitInfo} (hi : InfoP π i i') :
    SameResult (fun u u' => ArrW π i i' u u' ∧ u.nodeCount = t.nodeCount) (writeNode t r nc i) (writeNode t' r nc' i') := by
  unfold writeNode
  rw [h.nodeCount, show i'.isLeaf = i.isLeaf by rw [hi.eq], show i'.feature = i.feature by rw [hi.eq], show i'.isCat = i.isCat by rw [hi.eq],
    show nc'.nTrain = nc.nTrain by rw [hn.eq], show nc'.nValid = nc.nValid by rw [hn.eq], show nc'.wTrain = nc.wTrain by rw [hn.eq],
    show nc'.wValid = nc.wValid by rw [hn.eq], show nc'.loss = nc.loss by rw [hn.eq]]
  refine (h.nodes.rd t.nodeCount).bind fun old old' ho => ?_
  have hoe := ho.1
  simp only
  refine SameResult.bind (S := fun a b => NodesR (NodeW π t.nodeCount t.bpEnd t.binParts t'.binParts i i') a b ∧ t.nodeCount < a.length) ?_ ?_
  · refine SameResult.mono (h.nodes.wr t.nodeCount (R' := NodeW π t.nodeCount t.bpEnd t.binParts t'.binParts i i') ?_ ?_) fun a b hab =>
      ⟨hab.1, by have := hab.2; omega⟩
    · have e : ∀ {α : Type} (g : Node F → α), (∀ n x, g { n with binThr := x } = g n) → g old' = g old := by
        intro α g hg
        rw [hoe, hg]
      have e1 := e Node.left fun _ _ => rfl
      have e2 := e Node.right fun _ _ => rfl
      have e3 := e Node.isLeft fun _ _ => rfl
      have e4 := e Node.bpS fun _ _ => rfl
      have e5 := e Node.bpE fun _ _ => rfl
      have hk := ho.2.2.mono (Nat.le_succ t.nodeCount)
      cases hL : i.isLeaf with
      | true =>
        refine ⟨⟨?_, fun hj => absurd hj (by omega), ?_, ?_⟩, fun _ => ⟨hL.symm, fun h => absurd (hL.symm.trans h) (by simp)⟩⟩
        · unfold NodeEq
          simp only [if_true, e1, e2, e3, e4, e5]
        · intro q hq; cases hq
        · intro q hq; cases hq
      | false =>
        refine ⟨⟨?_, fun hj => absurd hj (by omega), ?_, ?_⟩, fun _ => ⟨hL.symm, fun _ => ⟨rfl, rfl, rfl, rfl⟩⟩⟩
        · unfold NodeEq
          simp only [Bool.false_eq_true, if_false, e1, e2, e3, e4, e5]
        · exact hk.1
        · exact hk.2
    · intro j n n' hj hq
      exact ⟨⟨hq.1, hq.2.1, hq.2.2.mono (Nat.le_succ _)⟩, fun e => absurd e hj⟩
  · rintro a b ⟨hab, hlt⟩
    refine SameResult.bind (setChild_perm hab r t.nodeCount ?_ ?_) ?_
    · rintro j n n' ⟨⟨h1, h2, h3⟩, h4⟩
      refine ⟨⟨?_, h2, ?_, h3.2⟩, h4⟩
      · unfold NodeEq at h1 ⊢
        rw [h1]
      · intro q hq
        obtain rfl : t.nodeCount = q := Option.some.inj hq
        omega
    · rintro j n n' ⟨⟨h1, h2, h3⟩, h4⟩
      refine ⟨⟨?_, h2, h3.1, ?_⟩, h4⟩
      · unfold NodeEq at h1 ⊢
        rw [h1]
      · intro q hq
        obtain rfl : t.nodeCount = q := Option.some.inj hq
        omega
    · rintro x y ⟨hxy, hl⟩
      exact SameResult.pure ⟨⟨hxy, by simp only; omega, h.yPred, rfl, h.capacity, h.bpCapacity, h.bpEnd, h.lenB, h.fits⟩, rfl⟩

/-! ### Writing the set of categories -/

theorem NodeP.mono {e e2 : Nat} {bp bp' bq bq' : List Nat} {n n' : Node F} (h : NodeP π e bp bp' n n')
    (h1 : ∀ s t, t ≤ e → slice bq s t = slice bp s t) (h2 : ∀ s t, t ≤ e → slice bq' s t = slice bp' s t) (he : e ≤ e2) :
    NodeP π e2 bq bq' n n' := by
  intro hl
  obtain ⟨f, hf, ha, hb⟩ := h hl
  refine ⟨f, hf, ha, fun hc => ?_⟩
  obtain ⟨h3, h4⟩ := hb hc
  rw [h1 _ _ h3, h2 _ _ h3]
  exact ⟨h3.trans he, h4⟩

theorem resizeBinParts_perm (gb : Nat → Nat) {i i' : SplitInfo} {t t' : TreeArr F P} (h : ArrW π i i' t t') (n : Nat) :
    SameResult (fun u u' => ArrW π i i' u u' ∧ u.nodeCount = t.nodeCount ∧ u.bpEnd = t.bpEnd) (resizeBinParts gb t n) (resizeBinParts gb t' n) := by
  unfold resizeBinParts
  rw [h.bpCapacity, h.lenB]
  split
  · exact SameResult.ok ⟨h, rfl, rfl⟩
  · unfold resizeArr
    rw [h.lenB]
    split
    · rw [bind_ok, bind_ok]
      have key : ∀ (l x : List Nat) s e, t.bpEnd ≤ l.length → e ≤ t.bpEnd → slice (l ++ x) s e = slice l s e := by
        intro l x s e h1 h2
        exact slice_congr fun p _ hp => List.getElem?_append_left (by omega)
      refine SameResult.pure ⟨⟨⟨h.nodes.len, fun j n n' h1 h2 => ?_⟩, h.cnt, h.yPred, h.nodeCount, h.capacity, rfl, h.bpEnd, by simp [h.lenB], ?_⟩, rfl, rfl⟩
      · obtain ⟨⟨q1, q2, q3⟩, q4⟩ := h.nodes.at' j n n' h1 h2
        exact ⟨⟨q1, fun hj => (q2 hj).mono (fun s e he => key _ _ s e h.fits he) (fun s e he => key _ _ s e (by rw [h.lenB]; exact h.fits) he) le_rfl, q3⟩, q4⟩
      · have := h.fits
        simp; omega
    · rfl

theorem writePartition_perm (gb : Nat → Nat) {t t' : TreeArr F P} {i i' : SplitInfo} (hi : InfoP π i i') (h : ArrW π i i' t t') :
    SameResult (fun u u' => ArrP π { u with nodeCount := t.nodeCount + 1 } { u' with nodeCount := t.nodeCount + 1 })
      (writePartition gb t i) (writePartition gb t' i') := by
  unfold writePartition
  rw [h.nodeCount, h.bpEnd, h.bpCapacity, show i'.isCat = i.isCat by rw [hi.eq]]
  simp only
  have hcond : (i.isCat = true ∧ 0 < i'.partition.length) ↔ (i.isCat = true ∧ 0 < i.partition.length) := by
    constructor
    · rintro ⟨h1, h2⟩
      exact ⟨h1, by rw [← (hi.cat h1).1]; exact h2⟩
    · rintro ⟨h1, h2⟩
      exact ⟨h1, by rw [(hi.cat h1).1]; exact h2⟩
  by_cases hc : i.isCat = true ∧ 0 < i.partition.length
  · rw [if_pos hc, if_pos (hcond.2 hc)]
    obtain ⟨hlen, hpart⟩ := hi.cat hc.1
    rw [hlen]
    refine SameResult.bind (S := fun u u' => ArrW π i i' u u' ∧ u.nodeCount = t.nodeCount ∧ u.bpEnd = t.bpEnd) ?_ ?_
    · split
      · exact resizeBinParts_perm gb h _
      · exact SameResult.ok ⟨h, rfl, rfl⟩
    rintro u u' ⟨hu, e1, e2⟩
    refine SameResult.bind (S := fun (a b : List Nat) => b.length = a.length ∧ t.bpEnd + i.partition.length ≤ a.length ∧
      slice a t.bpEnd (t.bpEnd + i.partition.length) = i.partition ∧ slice b t.bpEnd (t.bpEnd + i.partition.length) = i'.partition ∧
      (∀ s e, e ≤ t.bpEnd → slice a s e = slice u.binParts s e) ∧ (∀ s e, e ≤ t.bpEnd → slice b s e = slice u'.binParts s e)) ?_ ?_
    · unfold wrSlice
      rw [hu.lenB]
      by_cases hw : t.bpEnd ≤ t.bpEnd + i.partition.length ∧ t.bpEnd + i.partition.length ≤ u.binParts.length ∧
          i.partition.length = t.bpEnd + i.partition.length - t.bpEnd
      · rw [if_pos hw, if_pos (by rw [hlen]; exact hw)]
        have hl := hu.lenB
        refine SameResult.ok ⟨?_, ?_, ?_, ?_, ?_, ?_⟩
        · simp [hlen, hl]
        · simp; omega
        · exact slice_splice_same _ _ _ _ hw.1 hw.2.1 hw.2.2
        · exact slice_splice_same _ _ _ _ hw.1 (by rw [hl]; exact hw.2.1) (by rw [hlen]; exact hw.2.2)
        · intro s e he
          exact slice_splice_other _ _ _ _ _ _ hw.1 hw.2.1 hw.2.2 (.inl he)
        · intro s e he
          exact slice_splice_other _ _ _ _ _ _ hw.1 (by rw [hl]; exact hw.2.1) (by rw [hlen]; exact hw.2.2) (.inl he)
      · rw [if_neg hw, if_neg (by rw [hlen]; exact hw)]
        rfl
    rintro a b ⟨b1, b2, b3, b4, b5, b6⟩
    refine (hu.nodes.rd t.nodeCount).bind fun n n' hn => ?_
    obtain ⟨⟨n1, n2, n3⟩, n4⟩ := hn
    refine SameResult.bind (hu.nodes.wr t.nodeCount
      (R' := NodeQ π (t.nodeCount + 1) (t.nodeCount + 1) (t.bpEnd + i.partition.length) a b) ?_ ?_) ?_
    · refine ⟨?_, fun _ hl => ?_, e1 ▸ n3⟩
      · unfold NodeEq at n1 ⊢
        rw [n1]
      · obtain ⟨q1, q2⟩ := n4 e1.symm
        have hl : i.isLeaf = false := q1 ▸ hl
        obtain ⟨q3, q4, q5, q6⟩ := q2 hl
        refine ⟨i.feature, q3, fun hf => ?_, fun _ => ⟨le_rfl, ?_⟩⟩
        · exact absurd hc.1 (by rw [← q4, show n.isCat = false from hf]; simp)
        · simp only [b3, b4]
          exact hpart
    · rintro j x x' hj ⟨⟨q1, q2, q3⟩, -⟩
      rw [e1] at q3
      refine ⟨q1, fun hlt => (q2 (by omega)).mono ?_ ?_ ?_, q3⟩
      · intro s e he
        exact b5 s e (by omega)
      · intro s e he
        exact b6 s e (by omega)
      · omega
    · rintro x y ⟨hxy, hl, hlt⟩
      exact SameResult.pure ⟨hxy, by simp only; omega, hu.yPred, rfl, hu.capacity, hu.bpCapacity, rfl, b1, b2⟩
  · rw [if_neg hc, if_neg (fun h => hc (hcond.1 h))]
    refine (h.nodes.rd t.nodeCount).bind fun n n' hn => ?_
    obtain ⟨⟨n1, n2, n3⟩, n4⟩ := hn
    refine SameResult.bind (h.nodes.wr t.nodeCount (R' := NodeQ π (t.nodeCount + 1) (t.nodeCount + 1) t.bpEnd t.binParts t'.binParts) ?_ ?_) ?_
    · refine ⟨?_, fun _ hl => ?_, n3⟩
      · unfold NodeEq at n1 ⊢
        rw [n1]
      · obtain ⟨q1, q2⟩ := n4 rfl
        have hl : i.isLeaf = false := q1 ▸ hl
        obtain ⟨q3, q4, q5, q6⟩ := q2 hl
        refine ⟨i.feature, q3, fun hf => ?_, fun _ => ⟨Nat.zero_le _, ?_⟩⟩
        · obtain ⟨p1, p2⟩ := hi.num hl (by rw [← q4]; exact hf)
          exact ⟨by simp only [q5, q6, p1], p2⟩
        · simp only [slice, Nat.sub_zero, List.take_zero]
          exact PartP.nil _
    · rintro j x x' hj ⟨⟨q1, q2, q3⟩, -⟩
      exact ⟨q1, fun hlt => q2 (by omega), q3⟩
    · rintro x y ⟨hxy, hl, hlt⟩
      exact SameResult.pure ⟨hxy, by simp only; omega, h.yPred, rfl, h.capacity, rfl, rfl, h.lenB, h.fits⟩

theorem addNode_perm (z : P) (gb : Nat → Nat) {t t' : TreeArr F P} (h : ArrP π t t') (r : Record F) {fs : List Nat} {nc nc' : NodeCtx F Y P}
    (hn : NcP π fs nc nc') {i i' : SplitInfo} (hi : InfoP π i i') :
    SameResult (fun x y => ArrP π x.1 y.1 ∧ y.2 = x.2 ∧ 0 < x.1.nodeCount) (addNode z gb t r nc i) (addNode z gb t' r nc' i') := by
  unfold addNode
  rw [h.nodeCount, h.capacity]
  refine SameResult.bind (S := fun x y => ArrP π x y ∧ x.nodeCount = t.nodeCount) ?_ ?_
  · split
    · exact resizeTree_perm z h none
    · exact SameResult.ok ⟨h, rfl⟩
  rintro u u' ⟨hu, e⟩
  refine (writeNode_perm hu r hn hi).bind ?_
  rintro v v' ⟨hv, e2⟩
  refine (writePartition_perm gb hi hv).bind fun x x' hx => ?_
  rw [e2, e] at hx
  exact SameResult.pure ⟨hx, rfl, Nat.succ_pos _⟩

/-! ### The loop -/

theorem sampleFeatures_perm (R : Rng G) (hc : CtxP π c c') (k : Work G) : sampleFeatures R c' k = sampleFeatures R c k := by
  unfold sampleFeatures FBA.nFeatures
  rw [hc.fba.maxs, show c'.maxFeatures = c.maxFeatures by rw [hc.eq]]

theorem sampleFeatures_rows {R : Rng G} {c : Ctx F} {k k' : Work G} (h : sampleFeatures R c k = .ok k') :
    k'.partTrain = k.partTrain ∧ k'.partValid = k.partValid := by
  unfold sampleFeatures at h
  split at h
  · rw [bind_eq_ok] at h
    obtain ⟨⟨a, b, g⟩, -, h⟩ := h
    injection h with h
    subst h
    exact ⟨rfl, rfl⟩
  · injection h with h
    subst h
    exact ⟨rfl, rfl⟩

theorem computeNodeContext_perm (R : Rng G) (hc : CtxP π c c') (k : Work G) (ht : ∀ i ∈ k.partTrain, i < c.fba.nSamples)
    (hv : ∀ i ∈ k.partValid, i < c.fba.nSamples) (sT eT sV eV : Nat) :
    SameResult (fun x y => NcP π x.2.sampled x.1 y.1 ∧ y.2 = x.2 ∧ x.2.partTrain = k.partTrain ∧ x.2.partValid = k.partValid)
      (computeNodeContext R T c k sT eT sV eV) (computeNodeContext R T c' k sT eT sV eV) := by
  unfold computeNodeContext
  rw [sampleFeatures_perm R hc]
  cases hs : sampleFeatures R c k with
  | error e => rfl
  | ok k1 =>
    rw [bind_ok, bind_ok]
    obtain ⟨h1, h2⟩ := sampleFeatures_rows hs
    refine SameResult.same.bind ?_
    rintro nT _ rfl
    refine SameResult.same.bind ?_
    rintro nV _ rfl
    refine (nodeStats_perm hc k1.sampled (fun i hi => ht i (by rw [← h1]; exact slice_mem hi)) (fun i hi => hv i (by rw [← h2]; exact slice_mem hi)) nT nV).bind ?_
    intro nc nc' hn
    exact SameResult.pure ⟨hn, rfl, h1, h2⟩

theorem SplitQ.reset : SplitQ (F := F) π Split.reset Split.reset :=
  ⟨rfl, fun _ => ⟨rfl, rfl⟩, fun h => absurd h (by simp [Split.reset]), fun h => absurd h (by simp [Split.reset])⟩

theorem chooseSplit_perm (hT : TaskP T) (hc : CtxP π c c') (r : Record F) {nc nc' : NodeCtx F Y P} {k : Work G} (hn : NcP π k.sampled nc nc') :
    SameResult (fun x y => SplitQ π x.1 y.1 ∧ y.2 = x.2) (chooseSplit T c r nc k) (chooseSplit T c' r nc' k) := by
  unfold chooseSplit
  have : stopHere c' r nc'.nTrain nc'.nValid = stopHere c r nc.nTrain nc.nValid := by
    rw [hc.eq, hn.eq]
    rfl
  rw [this]
  split
  · exact SameResult.ok ⟨SplitQ.reset, rfl⟩
  · exact findNodeSplit_perm hT hc hn k.rng

/-- Related states of the loop. -/
structure GP (π : Nat → Equiv.Perm Nat) (n : Nat) (s s' : GState F P G) : Prop where
  tree : ArrP π s.tree s'.tree
  recs : s'.recs = s.recs
  work : s'.work = s.work
  train : ∀ i ∈ s.work.partTrain, i < n
  valid : ∀ i ∈ s.work.partValid, i < n
  pos : 0 < s.recs.top ∨ 0 < s.tree.nodeCount

theorem growStep_perm (R : Rng G) (hT : TaskP T) (hc : CtxP π c c') (gb : Garbage F) {s s' : GState F P G} (h : GP π c.fba.nSamples s s') :
    SameResult (GP π c.fba.nSamples) (growStep R T c gb s) (growStep R T c' gb s') := by
  unfold growStep
  rw [h.recs, h.work]
  refine SameResult.same.bind ?_
  rintro ⟨r, recs⟩ _ rfl
  simp only
  refine (computeNodeContext_perm R hc s.work h.train h.valid _ _ _ _).bind ?_
  rintro ⟨nc, k⟩ ⟨nc', k'⟩ ⟨hn, hk, hk1, hk2⟩
  simp only at hn hk hk1 hk2 ⊢
  subst hk
  refine (chooseSplit_perm hT hc r hn).bind ?_
  rintro ⟨sp, g⟩ ⟨sp', g'⟩ ⟨hs, hg⟩
  simp only at hs hg ⊢
  subst hg
  refine (addNode_perm T.zeroP gb.bin h.tree r hn hs.info).bind ?_
  rintro ⟨t, j⟩ ⟨t', j'⟩ ⟨ht, hj, hp⟩
  simp only at ht hj hp ⊢
  subst hj
  rw [ht.yPred, show nc'.yPred = nc.yPred by rw [hn.eq], show sp'.found = sp.found by rw [hs.eq]]
  refine SameResult.same.bind ?_
  rintro yp _ rfl
  have hT' : ArrP π { t with yPred := yp } { t' with yPred := yp } :=
    ⟨ht.nodes, ht.cnt, rfl, ht.nodeCount, ht.capacity, ht.bpCapacity, ht.bpEnd, ht.lenB, ht.fits⟩
  have hrT : ∀ i ∈ ({ k' with rng := g' } : Work G).partTrain, i < c.fba.nSamples := fun i hi => h.train i (by rw [← hk1]; exact hi)
  have hrV : ∀ i ∈ ({ k' with rng := g' } : Work G).partValid, i < c.fba.nSamples := fun i hi => h.valid i (by rw [← hk2]; exact hi)
  split
  · rename_i hf
    rw [splitIndices_perm hc hs hf _ hrT hrV]
    cases hsi : splitIndices c sp { k' with rng := g' } r.sT r.eT r.sV r.eV with
    | error e => rfl
    | ok x =>
      obtain ⟨w, pT, pV⟩ := x
      obtain ⟨r1, r2⟩ := splitIndices_rows hsi
      simp only [bind_ok]
      have hl : leftRecord r sp' j' pT pV = leftRecord r sp j' pT pV := by unfold leftRecord; rw [hs.eq]
      have hr : rightRecord r sp' j' pT pV = rightRecord r sp j' pT pV := by unfold rightRecord; rw [hs.eq]
      rw [hl, hr]
      refine SameResult.same.bind ?_
      rintro a _ rfl
      refine SameResult.same.bind ?_
      rintro b _ rfl
      exact SameResult.pure ⟨hT', rfl, rfl, fun i hi => hrT i (r1 i hi), fun i hi => hrV i (r2 i hi), .inr hp⟩
  · exact SameResult.pure ⟨hT', rfl, rfl, hrT, hrV, .inr hp⟩

theorem growLoop_perm (R : Rng G) (hT : TaskP T) (hc : CtxP π c c') (gb : Garbage F) (fuel : Nat) {s s' : GState F P G} (h : GP π c.fba.nSamples s s') :
    SameResult (fun s s' => GP π c.fba.nSamples s s' ∧ 0 < s.tree.nodeCount) (growLoop R T c gb fuel s) (growLoop R T c' gb fuel s') := by
  have hend : ∀ {s s' : GState F P G}, GP π c.fba.nSamples s s' → ¬s.recs.nonEmpty = true → 0 < s.tree.nodeCount := by
    intro s s' h he
    rcases h.pos with hp | hp
    · exact absurd (by simpa [Records.nonEmpty] using hp) he
    · exact hp
  induction fuel generalizing s s' with
  | zero =>
    unfold growLoop
    rw [h.recs]
    split
    · rfl
    · rename_i he
      exact SameResult.ok ⟨h, hend h he⟩
  | succ fuel ih =>
    unfold growLoop
    rw [h.recs]
    split
    · exact (growStep_perm R hT hc gb h).bind fun x y hxy => ih hxy
    · rename_i he
      exact SameResult.ok ⟨h, hend h he⟩

theorem weightStep_perm {S : Nat → Node F → Node F → Prop} (hS : ∀ j n n', S j n n' → NodeEq n n')
    (hw : ∀ j n n' x, S j n n' → S j { n with logW := x } { n' with logW := x }) (step : F) {ns ns' : List (Node F)} (h : NodesR S ns ns') (k : Nat) :
    SameResult (fun a b => NodesR S a b ∧ a.length = ns.length) (weightStep step ns k) (weightStep step ns' k) := by
  unfold weightStep
  refine (h.rd k).bind fun n n' hn => ?_
  obtain ⟨x, rfl⟩ : ∃ x, n' = { n with binThr := x } := ⟨_, hS _ _ _ hn⟩
  simp only
  split
  · exact SameResult.mono (h.wr k (R' := S) (hw _ _ _ _ hn) fun i n n' _ h => h) fun a b hab => ⟨hab.1, hab.2.1⟩
  · refine SameResult.same.bind ?_
    rintro l _ rfl
    refine SameResult.same.bind ?_
    rintro r _ rfl
    refine (h.rd l).bind fun a a' ha => ?_
    refine (h.rd r).bind fun b b' hb => ?_
    have ha' := hS _ _ _ ha
    have hb' := hS _ _ _ hb
    unfold NodeEq at ha' hb'
    rw [show a'.logW = a.logW by rw [ha'], show b'.logW = b.logW by rw [hb']]
    split
    · exact SameResult.mono (h.wr k (R' := S) (hw _ _ _ _ hn) fun i n n' _ h => h) fun a b hab => ⟨hab.1, hab.2.1⟩
    · rfl

theorem NodeQ.logW {m K e : Nat} {bp bp' : List Nat} (j : Nat) (n n' : Node F) (x : Option F) (h : NodeQ π m K e bp bp' j n n') :
    NodeQ π m K e bp bp' j { n with logW := x } { n' with logW := x } := by
  obtain ⟨h1, h2, h3⟩ := h
  refine ⟨?_, h2, h3⟩
  unfold NodeEq at h1 ⊢
  rw [h1]

theorem growEnd_perm (hc : CtxP π c c') {s s' : GState F P G} (h : GP π c.fba.nSamples s s') (hp : 0 < s.tree.nodeCount) :
    SameResult (fun x y => ArrP π x.1 y.1 ∧ y.2 = x.2 ∧ 0 < x.1.nodeCount) (growEnd c s) (growEnd c' s') := by
  unfold growEnd
  rw [show c'.aggregation = c.aggregation by rw [hc.eq], show c'.step = c.step by rw [hc.eq], h.tree.nodeCount, h.work]
  split
  · unfold computeTreeWeights
    refine SameResult.bind (S := fun a b => NodesR (NodeQ π s.tree.nodeCount s.tree.nodeCount s.tree.bpEnd s.tree.binParts s'.tree.binParts) a b ∧
      a.length = s.tree.nodes.length) ?_ ?_
    · refine SameResult.foldlM ?_ ⟨h.tree.nodes, rfl⟩
      rintro a b k ⟨hab, hl⟩
      exact SameResult.mono (weightStep_perm (fun j n n' h => h.1) (fun j n n' x h => NodeQ.logW j n n' x h) c.step hab k) fun x y hxy => ⟨hxy.1, hxy.2.trans hl⟩
    · rintro a b ⟨hab, hl⟩
      have ht := h.tree
      exact SameResult.pure ⟨⟨hab, by simp only; rw [hl]; exact ht.cnt, ht.yPred, ht.nodeCount, ht.capacity, ht.bpCapacity, ht.bpEnd, ht.lenB, ht.fits⟩, rfl, hp⟩
  · exact SameResult.pure ⟨h.tree, rfl, hp⟩

theorem fitTree_perm (R : Rng G) (hT : TaskP T) (hc : CtxP π c c') (gb : Garbage F) (seed : Nat) {train valid : List Nat}
    (ht : ∀ i ∈ train, i < c.fba.nSamples) (hv : ∀ i ∈ valid, i < c.fba.nSamples) :
    SameResult (fun x y => ArrP π x.1 y.1 ∧ y.2 = x.2 ∧ 0 < x.1.nodeCount) (fitTree R T c gb seed train valid) (fitTree R T c' gb seed train valid) := by
  rw [fitTree_eq, fitTree_eq]
  refine SameResult.bind (S := fun s s' => GP π c.fba.nSamples s s' ∧ 0 < s.tree.nodeCount) ?_ fun s s' hs => growEnd_perm hc hs.1 hs.2
  unfold growRaw
  refine SameResult.bind (resizeTree_perm (π := π) T.zeroP (t := TreeArr.empty) (t' := TreeArr.empty)
    ⟨⟨rfl, fun j n n' h => absurd h (by simp [TreeArr.empty])⟩, le_rfl, rfl, rfl, rfl, rfl, rfl, rfl, le_rfl⟩ (some 2047)) ?_
  rintro t t' ⟨hT1, -⟩
  have hw : initWork R c' gb seed train valid = initWork R c gb seed train valid := by
    unfold initWork FBA.nFeatures
    rw [hc.fba.rows, hc.fba.maxs, show c'.maxFeatures = c.maxFeatures by rw [hc.eq]]
  rw [hw]
  cases hp : (Records.init gb 10).push gb ({ parent := none, depth := 0, isLeft := false, impurity := none, sT := 0, eT := (initWork R c gb seed train valid).partTrain.length, sV := 0, eV := (initWork R c gb seed train valid).partValid.length } : Record F) with
  | error e => rfl
  | ok recs =>
    have htop : 0 < recs.top := by
      unfold Records.push at hp
      rw [bind_eq_ok] at hp
      obtain ⟨s1, -, hp⟩ := hp
      rw [bind_eq_ok] at hp
      obtain ⟨st, -, hp⟩ := hp
      injection hp with hp
      subst hp
      exact Nat.succ_pos _
    exact growLoop_perm R hT hc gb _ ⟨hT1, rfl, rfl, ht, hv, .inl htop⟩

/-! ### Predictions -/

theorem findLeafFrom_perm {t t' : TreeArr F P} (h : ArrP π t t') (hp : 0 < t.nodeCount) {b b' : FBA} (hb : FbaP π b b') {i : Nat} (hi : i < b.nSamples)
    (fuel k : Nat) (hk : k < t.nodeCount) : findLeafFrom t' b' i fuel k = findLeafFrom t b i fuel k := by
  induction fuel generalizing k with
  | zero => rfl
  | succ fuel ih =>
    unfold findLeafFrom
    refine (SameResult.eq (SameResult.bind (h.nodes.rd k) fun n n' hn => ?_)).symm
    obtain ⟨he, hs, hkid⟩ := hn
    unfold NodeEq at he
    rw [show n'.isLeaf = n.isLeaf by rw [he]]
    cases hl : n.isLeaf with
    | true => exact SameResult.same
    | false =>
      simp only [Bool.false_eq_true, if_false]
      obtain ⟨f, hf, hnum, hcat⟩ := hs hk hl
      refine SameResult.bind (S := fun x y => x = y ∧ x < t.nodeCount) ?_ ?_
      · unfold childOf
        rw [show n'.feature = n.feature by rw [he], show n'.isCat = n.isCat by rw [he], show n'.left = n.left by rw [he],
          show n'.right = n.right by rw [he], show n'.bpS = n.bpS by rw [he], show n'.bpE = n.bpE by rw [he], hf]
        simp only [idx, bind_ok]
        refine (hb.vals i f hi).bind ?_
        rintro bin _ rfl
        have hgo : (if n.isCat = true then isBinInPartition (π f bin) (slice t'.binParts n.bpS n.bpE)
            else (do let b ← idx n'.binThr; return decide (π f bin ≤ b)) : M Bool) =
            (if n.isCat = true then isBinInPartition bin (slice t.binParts n.bpS n.bpE)
            else (do let b ← idx n.binThr; return decide (bin ≤ b)) : M Bool) := by
          cases hc : n.isCat with
          | true => simpa using (hcat hc).2 bin
          | false =>
            obtain ⟨h1, h2⟩ := hnum hc
            simp [h1, h2]
        simp only [idx] at hgo
        rw [hgo]
        refine SameResult.same.bind ?_
        rintro go _ rfl
        have key : ∀ o : Option Nat, (∀ q, o = some q → q < max t.nodeCount 1) → SameResult (fun x y => x = y ∧ x < t.nodeCount)
            (match o with | some i => .ok i | none => .error .oob : M Nat) (match o with | some i => .ok i | none => .error .oob : M Nat) := by
          intro o ho
          cases o with
          | none => rfl
          | some q => exact SameResult.ok ⟨rfl, by have := ho q rfl; omega⟩
        cases go with
        | true => exact key _ hkid.1
        | false => exact key _ hkid.2
      · rintro k' _ ⟨rfl, hlt⟩
        rw [ih k' hlt]
        exact SameResult.same

theorem findLeaf_perm {t t' : TreeArr F P} (h : ArrP π t t') (hp : 0 < t.nodeCount) {b b' : FBA} (hb : FbaP π b b') {i : Nat} (hi : i < b.nSamples) :
    findLeaf t' b' i = findLeaf t b i := by
  unfold findLeaf
  rw [h.nodeCount]
  exact findLeafFrom_perm h hp hb hi _ 0 hp

theorem climb_perm {V : Type} {t t' : TreeArr F P} (h : ArrP π t t') (step : F) (val : Nat → M V) (mix : F → V → V → V) (fuel k : Nat) (v : V) :
    climb t'.nodes step val mix fuel k v = climb t.nodes step val mix fuel k v := by
  induction fuel generalizing k v with
  | zero => rfl
  | succ fuel ih =>
    unfold climb
    split
    · refine (SameResult.eq (SameResult.bind (h.nodes.rd k) fun n n' hn => ?_)).symm
      have he := hn.1
      unfold NodeEq at he
      rw [show n'.parent = n.parent by rw [he]]
      refine SameResult.same.bind ?_
      rintro p _ rfl
      refine SameResult.bind (h.nodes.rd p) fun q q' hq => ?_
      have he := hq.1
      unfold NodeEq at he
      have ha : nodeAlpha step q' = nodeAlpha step q := by rw [he]; rfl
      rw [ha]
      simp only [ih]
      exact SameResult.same
    · rfl

theorem predictRow_perm (mix : F → P → P → P) {t t' : TreeArr F P} (h : ArrP π t t') (hp : 0 < t.nodeCount) {b b' : FBA} (hb : FbaP π b b')
    (aggregation : Bool) (step : F) {i : Nat} (hi : i < b.nSamples) :
    predictRow mix t' b' aggregation step i = predictRow mix t b aggregation step i := by
  unfold predictRow
  rw [findLeaf_perm h hp hb hi, h.yPred, h.nodeCount]
  simp only [climb_perm h]

theorem treePredict_perm (mix : F → P → P → P) {t t' : TreeArr F P} (h : ArrP π t t') (hp : 0 < t.nodeCount) {b b' : FBA} (hb : FbaP π b b')
    (aggregation : Bool) (step : F) : treePredict mix t' b' aggregation step = treePredict mix t b aggregation step := by
  unfold treePredict
  rw [hb.rows]
  exact mapM_congr_mem fun i hi => predictRow_perm mix h hp hb aggregation step (by simpa using hi)

theorem treeApply_perm {t t' : TreeArr F P} (h : ArrP π t t') (hp : 0 < t.nodeCount) {b b' : FBA} (hb : FbaP π b b') : treeApply t' b' = treeApply t b := by
  unfold treeApply
  rw [hb.rows]
  exact mapM_congr_mem fun i hi => findLeaf_perm h hp hb (by simpa using hi)

end Verif.Bins
