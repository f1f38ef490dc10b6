import Verif.Model.Grow
import Verif.Proofs.GTree

set_option linter.unusedSectionVars false

/-! The stack of records and the insertion of a node in the tree arrays. -/
namespace Verif

variable {F Y P G : Type} [Num F]

/-! ### Stack -/

/-- Contents of the stack, the top first. -/
def Records.abs (s : Records F) : List (Record F) := (s.stack.take s.top).reverse

/-- Invariant of the stack. -/
structure Records.Inv (s : Records F) : Prop where
  len : s.stack.length = s.capacity
  top : s.top ≤ s.capacity
  pos : 0 < s.capacity

theorem resizeArr_of {α : Type} (fill : Nat → α) (a : List α) {n : Nat} (h : a.length ≤ n) :
    resizeArr fill a n = .ok (a ++ (List.range (n - a.length)).map fill) := by simp [resizeArr, h]

theorem Records.init_inv (gb : Garbage F) {n : Nat} (h : 0 < n) :
    (Records.init gb n).Inv ∧ (Records.init gb n).abs = [] := by
  refine ⟨⟨?_, ?_, h⟩, ?_⟩ <;> simp [Records.init, Records.abs]

theorem take_set_snoc {α : Type} {a : List α} {n : Nat} (x : α) (h : n < a.length) :
    (a.set n x).take (n + 1) = a.take n ++ [x] := by
  rw [List.take_succ_eq_append_getElem (by simpa using h), List.take_set_of_le (le_refl _)]
  simp

theorem Records.push_spec (gb : Garbage F) {s : Records F} (hs : s.Inv) (r : Record F) :
    ∃ s', s.push gb r = .ok s' ∧ s'.Inv ∧ s'.abs = r :: s.abs := by
  unfold Records.push
  by_cases hc : s.capacity ≤ s.top
  · have ht : s.top = s.capacity := le_antisymm hs.top hc
    have hpos := hs.pos
    have hlen := hs.len
    rw [if_pos hc, resizeArr_of _ _ (by omega)]
    simp only [bind_ok, pure_eq_ok]
    rw [wr_of_lt _ (by simp; omega)]
    simp only [bind_ok]
    refine ⟨_, rfl, ⟨?_, ?_, ?_⟩, ?_⟩
    · simp; omega
    · simp only; omega
    · simp only; omega
    · simp only [Records.abs]
      rw [take_set_snoc _ (by simp; omega), List.take_append_of_le_length (by omega)]
      simp
  · have hlen := hs.len
    rw [if_neg hc]
    simp only [bind_ok]
    rw [wr_of_lt _ (by omega)]
    simp only [bind_ok, pure_eq_ok]
    refine ⟨_, rfl, ⟨?_, ?_, hs.pos⟩, ?_⟩
    · simpa using hlen
    · simp only; omega
    · simp only [Records.abs]
      rw [take_set_snoc _ (by omega)]
      simp

theorem Records.nonEmpty_iff {s : Records F} (hs : s.Inv) : s.nonEmpty = true ↔ s.abs ≠ [] := by
  have h1 := hs.len
  have h2 := hs.top
  unfold Records.nonEmpty Records.abs
  rw [decide_eq_true_iff, ne_eq, List.reverse_eq_nil_iff, List.take_eq_nil_iff]
  constructor
  · rintro h (h0 | h0)
    · omega
    · rw [h0] at h1; simp at h1; omega
  · intro h
    by_contra h0
    exact h (Or.inl (by omega))

theorem Records.pop_spec {s : Records F} (hs : s.Inv) {r : Record F} {rest : List (Record F)}
    (h : s.abs = r :: rest) : ∃ s', s.pop = .ok (r, s') ∧ s'.Inv ∧ s'.abs = rest := by
  have h1 := hs.len
  have h2 := hs.top
  have htop : 0 < s.top := by
    by_contra h0
    have : s.top = 0 := by omega
    simp [Records.abs, this] at h
  obtain ⟨n, hn⟩ : ∃ n, s.top = n + 1 := ⟨s.top - 1, by omega⟩
  have hlt : n < s.stack.length := by omega
  have hr : s.stack[n] = r ∧ (s.stack.take n).reverse = rest := by
    simp only [Records.abs] at h
    rw [hn, List.take_succ_eq_append_getElem hlt, List.reverse_append] at h
    simpa using h
  refine ⟨{ s with top := n }, ?_, ⟨h1, by simp only; omega, hs.pos⟩, hr.2⟩
  unfold Records.pop
  rw [usub_of_le (by omega), hn]
  simp only [bind_ok, Nat.add_sub_cancel, rd_of_lt hlt, hr.1, pure_eq_ok]

/-! ### Nodes -/

/-- Invariant of the tree arrays. -/
structure TInv (t : TreeArr F P) : Prop where
  lenN : t.nodes.length = t.capacity
  lenP : t.yPred.length = t.capacity
  pos : 0 < t.capacity
  count : t.nodeCount ≤ t.capacity
  lenB : t.binParts.length = t.bpCapacity
  endB : t.bpEnd ≤ t.bpCapacity
  fresh : ∀ i : Nat, t.nodeCount ≤ i → i < t.capacity → t.nodes[i]? = some Node.zero

/-- The node written by `add_node_tree`, before its children are added. -/
def newNode (k : Nat) (r : Record F) (nc : NodeCtx F Y P) (i : SplitInfo) (bS bE : Nat) : Node F where
  nodeId := k
  parent := r.parent
  left := if i.isLeaf then none else some 0
  right := if i.isLeaf then none else some 0
  isLeaf := i.isLeaf
  isLeft := false
  depth := r.depth
  feature := if i.isLeaf then none else some i.feature
  binThr := if i.isLeaf then none else some i.bin
  impurity := r.impurity
  loss := nc.loss
  logW := none
  nTrain := nc.nTrain
  nValid := nc.nValid
  wTrain := nc.wTrain
  wValid := nc.wValid
  sT := r.sT
  eT := r.eT
  sV := r.sV
  eV := r.eV
  isCat := i.isCat
  bpS := bS
  bpE := bE

/-- Effect of adding node `k` with record `r` on another node `j`. -/
def withChild (r : Record F) (k j : Nat) (n : Node F) : Node F :=
  if r.parent = some j then (if r.isLeft then { n with left := some k } else { n with right := some k }) else n

theorem resizeTree_spec (zeroP : P) {t : TreeArr F P} (ht : TInv t) :
    ∃ t', (if t.capacity ≤ t.nodeCount then resizeTree zeroP t none else .ok t : M _) = .ok t' ∧ TInv t' ∧
      t'.nodeCount = t.nodeCount ∧ t'.binParts = t.binParts ∧ t'.bpEnd = t.bpEnd ∧ t'.bpCapacity = t.bpCapacity ∧
      t'.nodeCount < t'.capacity ∧
      (∀ j : Nat, j < t.nodeCount → t'.nodes[j]? = t.nodes[j]?) ∧
      (∀ j : Nat, j < t.nodeCount → t'.yPred[j]? = t.yPred[j]?) := by
  have h1 := ht.lenN
  have h2 := ht.lenP
  have h3 := ht.pos
  have h4 := ht.count
  by_cases hc : t.capacity ≤ t.nodeCount
  · rw [if_pos hc]
    unfold resizeTree
    rw [if_neg (by omega)]
    unfold resizeTree'
    rw [resizeArr_of _ _ (by omega), resizeArr_of _ _ (by omega)]
    simp only [bind_ok, pure_eq_ok]
    refine ⟨_, rfl, ⟨?_, ?_, ?_, ?_, ht.lenB, ht.endB, ?_⟩, rfl, rfl, rfl, rfl, ?_, ?_, ?_⟩
    · simp; omega
    · simp; omega
    · simp only; omega
    · simp only; omega
    · intro i hi hi2
      simp only at hi hi2 ⊢
      rw [List.getElem?_append_right (by omega)]
      simp only [List.getElem?_map]
      rw [List.getElem?_range (by omega)]
      rfl
    · simp only; omega
    · intro j hj
      simp only
      rw [List.getElem?_append_left (by omega)]
    · intro j hj
      simp only
      rw [List.getElem?_append_left (by omega)]
  · rw [if_neg hc]
    exact ⟨t, rfl, ht, rfl, rfl, rfl, rfl, by omega, fun _ _ => rfl, fun _ _ => rfl⟩

theorem writeNode_spec {t : TreeArr F P} (ht : TInv t) (hlt : t.nodeCount < t.capacity) (r : Record F)
    (nc : NodeCtx F Y P) (i : SplitInfo) (hp : ∀ p, r.parent = some p → p < t.nodeCount) :
    ∃ t', writeNode t r nc i = .ok t' ∧ t' = { t with nodes := t'.nodes } ∧ t'.nodes.length = t.nodes.length ∧
      t'.nodes[t.nodeCount]? = some (newNode t.nodeCount r nc i 0 0) ∧
      (∀ j : Nat, j < t.nodeCount → t'.nodes[j]? = (t.nodes[j]?).map (withChild r t.nodeCount j)) ∧
      (∀ j : Nat, t.nodeCount < j → t'.nodes[j]? = t.nodes[j]?) := by
  have h1 := ht.lenN
  have hf := ht.fresh t.nodeCount (le_refl _) hlt
  unfold writeNode
  have hrd : rd t.nodes t.nodeCount = .ok Node.zero := rd_ok.2 hf
  simp only [hrd, bind_ok]
  rw [wr_of_lt _ (by omega)]
  simp only [bind_ok]
  generalize hnode : ({ (if i.isLeaf = true then _ else _ : Node F) with isCat := i.isCat } : Node F) = node
  have hnode' : node = newNode t.nodeCount r nc i 0 0 := by
    rw [← hnode]
    cases hl : i.isLeaf <;> simp [newNode, Node.zero, hl]
  clear hnode
  subst hnode'
  unfold setChild
  cases hpar : r.parent with
  | none =>
    simp only [bind_ok, pure_eq_ok]
    refine ⟨_, rfl, rfl, by simp, ?_, ?_, ?_⟩
    · simp only; rw [List.getElem?_set_self (by omega)]
    · intro j hj
      simp only
      rw [List.getElem?_set_ne (by omega)]
      have : withChild r t.nodeCount j = id := by
        funext n; simp [withChild, hpar]
      rw [this]; simp
    · intro j hj
      simp only
      rw [List.getElem?_set_ne (by omega)]
  | some p =>
    have hpk := hp p hpar
    have hpl : p < t.nodes.length := by omega
    simp only
    rw [rd_of_lt (by simpa using hpl)]
    simp only [bind_ok]
    rw [wr_of_lt _ (by simpa using hpl)]
    simp only [bind_ok, pure_eq_ok]
    refine ⟨_, rfl, rfl, by simp, ?_, ?_, ?_⟩
    · simp only; rw [List.getElem?_set_ne (by omega), List.getElem?_set_self (by omega)]
    · intro j hj
      simp only
      by_cases hjp : p = j
      · subst hjp
        rw [List.getElem?_set_self (by simpa using hpl), List.getElem?_eq_getElem hpl]
        rw [List.getElem_set_ne (by omega)]
        simp [withChild, hpar]
      · rw [List.getElem?_set_ne hjp, List.getElem?_set_ne (by omega)]
        have : withChild r t.nodeCount j = id := by
          funext n; simp [withChild, hpar, hjp]
        rw [this]; simp
    · intro j hj
      simp only
      rw [List.getElem?_set_ne (by omega), List.getElem?_set_ne (by omega)]

/-- Number of categories stored by `add_node_tree`. -/
def infoLen (i : SplitInfo) : Nat := if i.isCat = true ∧ 0 < i.partition.length then i.partition.length else 0

theorem writePartition_spec (garbage : Nat → Nat) {t : TreeArr F P} (h1 : t.nodeCount < t.nodes.length)
    (h2 : t.binParts.length = t.bpCapacity) (h3 : t.bpEnd ≤ t.bpCapacity) (i : SplitInfo) {n : Node F}
    (hn : t.nodes[t.nodeCount]? = some n) :
    ∃ t' bS bE, writePartition garbage t i = .ok t' ∧
      t' = { t with nodes := t.nodes.set t.nodeCount { n with bpS := bS, bpE := bE }, binParts := t'.binParts,
                    bpCapacity := t'.bpCapacity, bpEnd := t.bpEnd + infoLen i } ∧
      t'.binParts.length = t'.bpCapacity ∧ t'.bpEnd ≤ t'.bpCapacity ∧ t'.binParts.take t.bpEnd = t.binParts.take t.bpEnd ∧
      (0 < infoLen i → bS = t.bpEnd ∧ bE = t.bpEnd + infoLen i ∧ slice t'.binParts bS bE = i.partition) ∧
      (infoLen i = 0 → bS = 0 ∧ bE = 0) := by
  unfold writePartition
  by_cases hc : i.isCat = true ∧ 0 < i.partition.length
  · have hil : infoLen i = i.partition.length := by simp [infoLen, hc]
    rw [if_pos hc, hil]
    -- the resized array
    obtain ⟨t1, e1, e2, e3, e4, e5⟩ : ∃ t1 : TreeArr F P,
        (if t.bpCapacity < t.bpEnd + i.partition.length then resizeBinParts garbage t (t.bpEnd + i.partition.length + 1)
          else .ok t : M _) = .ok t1 ∧ t1 = { t with binParts := t1.binParts, bpCapacity := t1.bpCapacity } ∧
        t1.binParts.length = t1.bpCapacity ∧ t.bpEnd + i.partition.length ≤ t1.bpCapacity ∧
        t1.binParts.take t.bpEnd = t.binParts.take t.bpEnd := by
      by_cases hlt : t.bpCapacity < t.bpEnd + i.partition.length
      · rw [if_pos hlt]
        unfold resizeBinParts
        rw [if_neg (by omega), resizeArr_of _ _ (by omega)]
        simp only [bind_ok, pure_eq_ok]
        refine ⟨_, rfl, rfl, ?_, ?_, ?_⟩
        · simp; omega
        · simp only; omega
        · simp only
          rw [List.take_append_of_le_length (by omega)]
      · rw [if_neg hlt]
        exact ⟨t, rfl, rfl, h2, by omega, rfl⟩
    have en : t1.nodes = t.nodes := by rw [e2]
    simp only [e1, bind_ok]
    rw [wrSlice_of (by omega) (by omega) (by omega)]
    simp only [bind_ok, en, rd_ok.2 hn]
    rw [wr_of_lt _ h1]
    simp only [bind_ok, pure_eq_ok]
    refine ⟨_, t.bpEnd, t.bpEnd + i.partition.length, rfl, ?_, ?_, ?_, ?_, ?_, ?_⟩
    · rw [e2]
    · simp only [List.length_append, List.length_take, List.length_drop]; omega
    · exact e4
    · simp only
      rw [List.append_assoc, List.take_append_of_le_length (by simp; omega), List.take_take, min_self, e5]
    · intro _
      refine ⟨rfl, rfl, ?_⟩
      simp only [slice]
      rw [List.append_assoc, List.drop_append_of_le_length (by simp; omega), List.drop_of_length_le (by simp)]
      simp
    · intro h0; omega
  · have hil : infoLen i = 0 := if_neg hc
    rw [if_neg hc, hil]
    simp only [rd_ok.2 hn, bind_ok]
    rw [wr_of_lt _ h1]
    simp only [bind_ok, pure_eq_ok]
    refine ⟨_, 0, 0, rfl, rfl, h2, h3, rfl, ?_, fun _ => ⟨rfl, rfl⟩⟩
    intro h0; omega

/-- Effect of `add_node_tree` followed by the write of the prediction. -/
theorem addNode_spec (zeroP : P) (garbage : Nat → Nat) {t : TreeArr F P} (ht : TInv t) (r : Record F)
    (nc : NodeCtx F Y P) (i : SplitInfo) (hp : ∀ p, r.parent = some p → p < t.nodeCount) (y : P) :
    ∃ t1 yp bS bE, addNode zeroP garbage t r nc i = .ok (t1, t.nodeCount) ∧ wr t1.yPred t.nodeCount y = .ok yp ∧
      TInv { t1 with yPred := yp } ∧ t1.nodeCount = t.nodeCount + 1 ∧ t1.bpEnd = t.bpEnd + infoLen i ∧
      t1.nodes[t.nodeCount]? = some (newNode t.nodeCount r nc i bS bE) ∧ yp[t.nodeCount]? = some y ∧
      (∀ j : Nat, j < t.nodeCount → t1.nodes[j]? = (t.nodes[j]?).map (withChild r t.nodeCount j)) ∧
      (∀ j : Nat, j < t.nodeCount → yp[j]? = t.yPred[j]?) ∧
      t1.binParts.take t.bpEnd = t.binParts.take t.bpEnd ∧
      (0 < infoLen i → bS = t.bpEnd ∧ bE = t.bpEnd + infoLen i ∧ slice t1.binParts bS bE = i.partition) ∧
      (infoLen i = 0 → bS = 0 ∧ bE = 0) := by
  obtain ⟨t1, e1, e2, e3, e4, e5, e6, e7, e8, e9⟩ := resizeTree_spec zeroP ht
  obtain ⟨t2, f1, f2, f3, f4, f5, f6⟩ := writeNode_spec e2 e7 r nc i (by rw [e3]; exact hp)
  have n2 : t2.nodeCount = t1.nodeCount := by rw [f2]
  have b2 : t2.binParts = t1.binParts := by rw [f2]
  have c2 : t2.bpCapacity = t1.bpCapacity := by rw [f2]
  have d2 : t2.bpEnd = t1.bpEnd := by rw [f2]
  have k2 : t2.capacity = t1.capacity := by rw [f2]
  have y2 : t2.yPred = t1.yPred := by rw [f2]
  have l1 := e2.lenN
  obtain ⟨t3, bS, bE, g1, g2, g3, g4, g5, g6, g7⟩ := writePartition_spec garbage (t := t2)
    (by rw [f3, n2]; omega) (by rw [b2, c2]; exact e2.lenB) (by rw [d2, c2]; exact e2.endB) i (by rw [n2]; exact f4)
  have n3 : t3.nodes = t2.nodes.set t2.nodeCount (newNode t1.nodeCount r nc i bS bE) := by
    rw [g2]; rfl
  have y3 : t3.yPred = t1.yPred := by rw [g2, ← y2]
  have k3 : t3.capacity = t1.capacity := by rw [g2, ← k2]
  have d3 : t3.bpEnd = t.bpEnd + infoLen i := by rw [g2, ← e5, ← d2]
  have hlenP := e2.lenP
  refine ⟨{ t3 with nodeCount := t.nodeCount + 1 }, t1.yPred.set t.nodeCount y, bS, bE, ?_, ?_, ?_, rfl, ?_, ?_, ?_, ?_, ?_,
    ?_, ?_, ?_⟩
  · unfold addNode
    simp only [e1, bind_ok, f1, g1, pure_eq_ok]
  · simp only [y3]
    rw [wr_of_lt _ (by omega)]
  · refine ⟨?_, ?_, ?_, ?_, g3, g4, ?_⟩
    · simp only [n3, List.length_set, f3, k3]; exact l1
    · simp only [List.length_set, k3]; exact hlenP
    · simp only [k3]; exact e2.pos
    · simp only [k3]; omega
    · intro j hj hj2
      simp only [k3] at hj hj2 ⊢
      rw [n3, List.getElem?_set_ne (by omega), f6 j (by omega)]
      exact e2.fresh j (by omega) hj2
  · exact d3
  · simp only [n3]
    rw [n2, e3, List.getElem?_set_self (by rw [f3]; omega)]
  · rw [List.getElem?_set_self (by omega)]
  · intro j hj
    simp only [n3]
    rw [List.getElem?_set_ne (by omega), f5 j (by omega), e8 j hj, e3]
  · intro j hj
    rw [List.getElem?_set_ne (by omega), e9 j hj]
  · rw [d2, b2, e4, e5] at g5
    exact g5
  · rw [d2, e5] at g6
    exact g6
  · exact g7

end Verif
