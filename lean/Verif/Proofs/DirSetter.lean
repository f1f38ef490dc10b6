import Verif.Proofs.Lockstep

set_option linter.unusedSectionVars false

/-! Changing `dirichlet` after `fit`. -/
namespace Verif

open Spec

variable {F Y P G : Type} [Num F]

/-- The loop over the training samples in `recompute_node_predictions`. -/
theorem recompute_train {T : Task F Y P G} {c : Ctx F} {D : Data F} (hD : Holds c D) {l : List Nat} (hl : ∀ i ∈ l, i < D.n)
    (w : F) (p : P) :
    l.foldlM (fun (s : F × P) i => do
      let label ← rd c.y i
      let sw ← rd c.w i
      let p ← T.addP s.2 sw label
      return (Num.add s.1 sw, p)) (w, p) =
      (do let q ← l.foldlM (fun p i => T.addP p (D.w i) (D.y i)) p
          return (l.foldl (fun s i => Num.add s (D.w i)) w, q) : M (F × P)) := by
  induction l generalizing w p with
  | nil => rfl
  | cons i l ih =>
    have hi := hl i (by simp)
    simp only [List.foldlM_cons, List.foldl_cons, rd_ok.2 (hD.y i hi), rd_ok.2 (hD.w i hi), bind_ok, bind_assoc]
    cases h : T.addP p (D.w i) (D.y i) with
    | error e => rfl
    | ok q => exact ih (fun j hj => hl j (by simp [hj])) _ q

/-- The loop over the validation samples in `recompute_node_predictions`. -/
theorem recompute_valid {T : Task F Y P G} {c : Ctx F} {D : Data F} (hD : Holds c D) {l : List Nat} (hl : ∀ i ∈ l, i < D.n)
    (p : P) (x : F) :
    l.foldlM (fun (s : F) i => do
      let sw ← rd c.w i
      let label ← rd c.y i
      T.addLoss p s sw label) x = l.foldlM (fun loss i => T.addLoss p loss (D.w i) (D.y i)) x := by
  induction l generalizing x with
  | nil => rfl
  | cons i l ih =>
    have hi := hl i (by simp)
    simp only [List.foldlM_cons, rd_ok.2 (hD.y i hi), rd_ok.2 (hD.w i hi), bind_ok]
    cases h : T.addLoss p x (D.w i) (D.y i) with
    | error e => rfl
    | ok q => exact ih (fun j hj => hl j (by simp [hj])) q

/-- The arrays hold for each node the prediction and the loss of the samples that the final partitions list for the node. -/
structure Stable (T : Task F Y P G) (agg : Bool) (D : Data F) (k : Work G) (t : TreeArr F P) : Prop where
  len : t.nodeCount ≤ t.nodes.length
  okT : ∀ (j : Nat) n, j < t.nodeCount → t.nodes[j]? = some n → ∀ i ∈ slice k.partTrain n.sT n.eT, i < D.n
  okV : ∀ (j : Nat) n, j < t.nodeCount → t.nodes[j]? = some n → ∀ i ∈ slice k.partValid n.sV n.eV, i < D.n
  pred : ∀ (j : Nat) n, j < t.nodeCount → t.nodes[j]? = some n → ∃ p, t.yPred[j]? = some p ∧
    nodePred T D (slice k.partTrain n.sT n.eT) = .ok p ∧
    ∃ x, nodeLoss T D p (slice k.partValid n.sV n.eV) = .ok x ∧ (agg = true → x = n.loss)

/-- `s` agrees with `t` up to weights, losses and predictions, the predictions and losses of the nodes in `pre` being equal
(without aggregation: up to losses and predictions, the predictions of the nodes in `pre` being equal). -/
structure Near (agg : Bool) (pre : List Nat) (s t : TreeArr F P) : Prop where
  lenN : s.nodes.length = t.nodes.length
  lenP : s.yPred.length = t.yPred.length
  nodes : ∀ (j : Nat) n, t.nodes[j]? = some n → ∃ x y, s.nodes[j]? = some { n with loss := x, logW := y } ∧
    (agg = false → y = n.logW) ∧ (t.nodeCount ≤ j → x = n.loss ∧ y = n.logW) ∧ (j ∈ pre → agg = true → x = n.loss)
  pred : ∀ j : Nat, t.nodeCount ≤ j ∨ j ∈ pre → s.yPred[j]? = t.yPred[j]?
  count : s.nodeCount = t.nodeCount
  capacity : s.capacity = t.capacity
  binParts : s.binParts = t.binParts
  bpCapacity : s.bpCapacity = t.bpCapacity
  bpEnd : s.bpEnd = t.bpEnd

theorem recomputeNode_near {T : Task F Y P G} {c : Ctx F} {D : Data F} {k : Work G} {s t : TreeArr F P} {pre : List Nat} {agg : Bool}
    (hD : Holds c D) (hS : Stable T agg D k t) (h : Near agg pre s t) {i : Nat} (hi : i < t.nodeCount) :
    ∃ s', recomputeNode T c k s i = .ok s' ∧ Near agg (pre ++ [i]) s' t := by
  have hlt : i < t.nodes.length := Nat.lt_of_lt_of_le hi hS.len
  have hn := List.getElem?_eq_getElem hlt
  generalize t.nodes[i] = n at hn
  obtain ⟨x, y, e, q1, q2, q3⟩ := h.nodes i n hn
  obtain ⟨p, hp, h1, L, h2, h3⟩ := hS.pred i n hi hn
  have hip : i < t.yPred.length := (List.getElem?_eq_some_iff.1 hp).1
  have hT : (do
      let z ← (slice k.partTrain n.sT n.eT).foldlM (fun (s : F × P) i => do
        let label ← rd c.y i
        let sw ← rd c.w i
        let p ← T.addP s.2 sw label
        return (Num.add s.1 sw, p)) (Num.zero, T.zeroP)
      T.endP z.2 z.1 : M P) = .ok p := by
    rw [recompute_train hD (hS.okT i n hi hn), ← h1]
    unfold nodePred sumW
    simp only [bind_assoc]
    rfl
  rw [bind_eq_ok] at hT
  obtain ⟨⟨w, p0⟩, hT1, hT2⟩ := hT
  refine ⟨{ s with yPred := s.yPred.set i p, nodes := s.nodes.set i { n with loss := L, logW := y } }, ?_, ?_⟩
  · unfold recomputeNode
    rw [rd_ok.2 e, bind_ok]
    simp only
    rw [hT1, bind_ok]
    simp only at hT2 ⊢
    rw [hT2, bind_ok, wr_of_lt _ (by rw [h.lenP]; exact hip), bind_ok]
    rw [recompute_valid hD (hS.okV i n hi hn)]
    unfold nodeLoss at h2
    rw [h2, bind_ok, wr_of_lt _ (by rw [h.lenN]; exact hlt), bind_ok]
    rfl
  · refine ⟨by simp [h.lenN], by simp [h.lenP], fun j m hm => ?_, fun j hj => ?_, h.count, h.capacity, h.binParts, h.bpCapacity, h.bpEnd⟩
    · by_cases hij : i = j
      · subst hij
        rw [hn] at hm
        injection hm with hm
        subst hm
        exact ⟨L, y, List.getElem?_set_self (by rw [h.lenN]; exact hlt), q1, fun h0 => by omega, fun _ => h3⟩
      · obtain ⟨x', y', e', a1, a2, a3⟩ := h.nodes j m hm
        refine ⟨x', y', by rw [List.getElem?_set_ne hij]; exact e', a1, a2, fun h0 => a3 ?_⟩
        simpa [Ne.symm hij] using h0
    · by_cases hij : i = j
      · subst hij
        rw [List.getElem?_set_self (by rw [h.lenP]; exact hip), hp]
      · rw [List.getElem?_set_ne hij]
        refine h.pred j ?_
        simpa [Ne.symm hij] using hj

theorem recompute_near {T : Task F Y P G} {c : Ctx F} {D : Data F} {k : Work G} {s t : TreeArr F P} {agg : Bool}
    (hD : Holds c D) (hS : Stable T agg D k t) (h : Near agg [] s t) :
    ∃ s', (List.range s.nodeCount).foldlM (recomputeNode T c k) s = .ok s' ∧ Near agg (List.range t.nodeCount) s' t := by
  rw [h.count]
  refine foldlM_inv (l := List.range t.nodeCount) (f := recomputeNode T c k) (s := s) (fun pre s => Near agg pre s t) h ?_
  intro pre i post s hs hI
  exact recomputeNode_near hD hS hI (List.mem_range.1 (by rw [hs]; simp))

/-- After recomputing, the arrays agree up to weights, or up to losses without aggregation. -/
theorem Near.done {s t : TreeArr F P} {agg : Bool} (h : Near agg (List.range t.nodeCount) s t) :
    s.yPred = t.yPred ∧ (agg = true → SameBut t.nodes s.nodes ∧ ∀ j : Nat, t.nodeCount ≤ j → s.nodes[j]? = t.nodes[j]?) := by
  refine ⟨?_, fun ha => ⟨⟨h.lenN, fun j n hn => ?_⟩, fun j hj => ?_⟩⟩
  · apply List.ext_getElem?
    intro j
    refine h.pred j ?_
    rw [List.mem_range]; omega
  · obtain ⟨x, y, e, _, q2, q3⟩ := h.nodes j n hn
    have hx : x = n.loss := by
      by_cases hj : j < t.nodeCount
      · exact q3 (List.mem_range.2 hj) ha
      · exact (q2 (by omega)).1
    subst hx
    exact ⟨y, e⟩
  · by_cases hl : j < t.nodes.length
    · obtain ⟨x, y, e, _, q2, _⟩ := h.nodes j _ (List.getElem?_eq_getElem hl)
      obtain ⟨rfl, rfl⟩ := q2 hj
      rw [e, List.getElem?_eq_getElem hl]
    · have := h.lenN
      rw [List.getElem?_eq_none (l := s.nodes) (by omega), List.getElem?_eq_none (l := t.nodes) (by omega)]

theorem NodesRel.get {m : Nat} {ns ns' : List (Node F)} (h : NodesRel m ns ns') {j : Nat} {n' : Node F} (hn : ns'[j]? = some n') :
    ∃ x, ns[j]? = some { n' with loss := x } ∧ (m ≤ j → x = n'.loss) := by
  have hlt : j < ns.length := by rw [← h.1]; exact (List.getElem?_eq_some_iff.1 hn).1
  obtain ⟨⟨x, hx⟩, h2⟩ := h.2 j _ _ (List.getElem?_eq_getElem hlt) hn
  refine ⟨ns[j].loss, by rw [hx]; exact List.getElem?_eq_getElem hlt, fun hm => ?_⟩
  rw [h2 hm]

theorem noLoss_get {ns ns' : List (Node F)} (h : ns.map (fun n => { n with loss := Num.zero }) = ns'.map (fun n => { n with loss := Num.zero }))
    {j : Nat} {n' : Node F} (hn : ns'[j]? = some n') : ∃ x, ns[j]? = some { n' with loss := x } := by
  have h1 := congrArg (fun l => l[j]?) h
  simp only [List.getElem?_map, hn, Option.map_some, Option.map_eq_some_iff] at h1
  obtain ⟨a, h2, h3⟩ := h1
  refine ⟨a.loss, ?_⟩
  rw [h2]
  have : a = { ({ a with loss := Num.zero } : Node F) with loss := a.loss } := rfl
  rw [this, h3]

section
variable {R : Rng G} {T : Task F Y P G} {e : P → F → M P} {c : Ctx F} {gb : Garbage F} {seed : Nat} {train valid : List Nat}

/-- Two fits that differ in the final division of predictions only. -/
theorem fits_near {arr arr' : TreeArr F P} {w w' : Work G} (h1 : fitTree R T c gb seed train valid = .ok (arr, w))
    (h2 : fitTree R { T with endP := e } c gb seed train valid = .ok (arr', w')) : w' = w ∧ Near c.aggregation [] arr arr' := by
  obtain ⟨s, r1, r2, hc⟩ := fitTree_raw h1
  obtain ⟨s', r1', r2', hc'⟩ := fitTree_raw h2
  have hrel := growRaw_rel R T e c gb _ s s' r1 r1'
  refine ⟨by rw [← r2', ← r2, hrel.work], ?_⟩
  have ht := hrel.tree
  rcases hc with ⟨ha, ns, e1, rfl, e3⟩ | ⟨ha, rfl⟩
  · rcases hc' with ⟨_, ns', e1', rfl, e3'⟩ | ⟨hb, _⟩
    · refine ⟨by simp only; rw [e3.1, e3'.1, ht.nodes.1], ht.yPred.1.symm, fun j n' hn' => ?_, fun j hj => ?_, ht.count.symm, ht.capacity.symm, ht.binParts.symm,
        ht.bpCapacity.symm, ht.bpEnd.symm⟩
      · simp only at hn' ⊢
        obtain ⟨y', hm'⟩ := e3'.symm.2 j n' hn'
        obtain ⟨x, hm, hx⟩ := ht.nodes.get hm'
        obtain ⟨y, hn⟩ := e3.2 j _ hm
        refine ⟨x, y, hn, fun h0 => absurd h0 (by simp [ha]), fun hj => ?_, fun h0 => absurd h0 (by simp)⟩
        have hj' : s.tree.nodeCount ≤ j := by rw [← ht.count]; exact hj
        have q1 := weights_out e1 j hj'
        have q2 := weights_out e1' j hj
        rw [hn, hm] at q1
        rw [hn', hm'] at q2
        injection q1 with q1
        injection q2 with q2
        have hx' := hx hj'
        refine ⟨hx', ?_⟩
        have a1 : y = y' := congrArg Node.logW q1
        have a2 : n'.logW = y' := congrArg Node.logW q2
        rw [a1, a2]
      · simp only [List.not_mem_nil, or_false] at hj
        exact (ht.yPred.2 j (by rw [← ht.count]; exact hj)).symm
    · rw [ha] at hb; exact absurd hb (by simp)
  · rcases hc' with ⟨hb, _⟩ | ⟨_, rfl⟩
    · rw [ha] at hb; exact absurd hb (by simp)
    · refine ⟨ht.nodes.1.symm, ht.yPred.1.symm, fun j n' hn' => ?_, fun j hj => ?_, ht.count.symm, ht.capacity.symm, ht.binParts.symm,
        ht.bpCapacity.symm, ht.bpEnd.symm⟩
      · obtain ⟨x, hm, hx⟩ := ht.nodes.get hn'
        exact ⟨x, n'.logW, hm, fun _ => rfl, fun hj => ⟨hx (by rw [← ht.count]; exact hj), rfl⟩, fun h0 => absurd h0 (by simp)⟩
      · simp only [List.not_mem_nil, or_false] at hj
        exact (ht.yPred.2 j (by rw [← ht.count]; exact hj)).symm

end

/-- Losses may be changed below the node count when there is no aggregation. -/
theorem Near.ofLoss {o s t : TreeArr F P} (h : Near false [] s t) (hn : o.nodes.map (fun n => { n with loss := Num.zero }) =
      s.nodes.map (fun n => { n with loss := Num.zero })) (hout : ∀ j : Nat, s.nodeCount ≤ j → o.nodes[j]? = s.nodes[j]?)
    (ho : { o with nodes := s.nodes } = s) : Near false [] o t := by
  have hc : o.nodeCount = s.nodeCount := by rw [← ho]
  have hp : o.yPred = s.yPred := by rw [← ho]
  refine ⟨?_, by rw [hp]; exact h.lenP, fun j n hj => ?_, by rw [hp]; exact h.pred, hc.trans h.count, ?_, ?_, ?_, ?_⟩
  · have := congrArg List.length hn
    simp only [List.length_map] at this
    exact this.trans h.lenN
  · obtain ⟨x, y, e, q1, q2, _⟩ := h.nodes j n hj
    obtain ⟨x', hx'⟩ := noLoss_get hn e
    refine ⟨x', y, hx', q1, fun h0 => ⟨?_, (q2 h0).2⟩, fun h0 => absurd h0 (by simp)⟩
    have := hout j (by rw [h.count]; exact h0)
    rw [hx', e] at this
    injection this with this
    have a : x' = x := congrArg Node.loss this
    rw [a]; exact (q2 h0).1
  · have : o.capacity = s.capacity := by rw [← ho]
    exact this.trans h.capacity
  · have : o.binParts = s.binParts := by rw [← ho]
    exact this.trans h.binParts
  · have : o.bpCapacity = s.bpCapacity := by rw [← ho]
    exact this.trans h.bpCapacity
  · have : o.bpEnd = s.bpEnd := by rw [← ho]
    exact this.trans h.bpEnd

end Verif
