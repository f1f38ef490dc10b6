import Verif.Proofs.Lockstep
import Verif.Spec.OutOfBag

set_option linter.unusedSectionVars false

/-! Two fits with the same bins whose labels and weights agree on the training rows of a tree grow the same tree, up to the losses and the weights of the
validation rows. -/
namespace Verif

open Spec

variable {F Y P G : Type} [Num F]

theorem foldlM_congr {α σ : Type} {f g : σ → α → M σ} {l : List α} (h : ∀ s, ∀ x ∈ l, f s x = g s x) (s : σ) : l.foldlM f s = l.foldlM g s := by
  induction l generalizing s with
  | nil => rfl
  | cons x l ih =>
    rw [List.foldlM_cons, List.foldlM_cons, h s x (by simp)]
    exact bind_congr fun u => ih (fun s y hy => h s y (by simp [hy])) u

theorem _root_.Verif.Spec.AgreeOn.rd {α : Type} {B : List Nat} {a a' : List α} (h : AgreeOn B a a') {i : Nat} (hi : i ∈ B) : rd a i = rd a' i := by
  unfold Verif.rd
  rw [h i hi]

/-- Statistics of a feature without the weights of the validation rows. -/
def Hist.noW (h : Hist F Y) : Hist F Y := { h with wValid := [] }

theorem Hist.noW_eq {h h' : Hist F Y} (e : h.noW = h'.noW) : h' = { h with wValid := h'.wValid } := by
  cases h; cases h'
  simp only [Hist.noW, Hist.mk.injEq] at e ⊢
  obtain ⟨h1, h2, h3, -, h5, h6, h7⟩ := e
  exact ⟨h1.symm, h2.symm, h3.symm, trivial, h5.symm, h6.symm, h7.symm⟩

/-- Statistics of a node up to losses and weights of the validation rows; without aggregation these are equal, too. -/
structure NcSame (b : Bool) (nc nc' : NodeCtx F Y P) : Prop where
  hists : nc.hists.map Hist.noW = nc'.hists.map Hist.noW
  yPred : nc'.yPred = nc.yPred
  nTrain : nc'.nTrain = nc.nTrain
  nValid : nc'.nValid = nc.nValid
  wTrain : nc'.wTrain = nc.wTrain
  rest : b = false → nc'.loss = nc.loss ∧ nc'.wValid = nc.wValid

section
variable (T : Task F Y P G) {c : Ctx F} {y' w' : List F} {B : List Nat}

theorem trainStep_oob (hy : AgreeOn B c.y y') (hw : AgreeOn B c.w w') (j : Nat) (first : Bool) (s : Hist F Y × F × P) {i : Nat} (hi : i ∈ B) :
    trainStep T c j first s i = trainStep T { c with y := y', w := w' } j first s i := by
  unfold trainStep
  simp only [hy.rd hi, hw.rd hi]
  rfl

theorem validStep_oob (j : Nat) (first : Bool) (p : P) (i : Nat) (s s' : Hist F Y × F × F) (h : s.1.noW = s'.1.noW) :
    RelM (fun x y => x.1.noW = y.1.noW) (validStep T c j first p s i) (validStep T { c with y := y', w := w' } j first p s' i) := by
  obtain ⟨h0, w0, l0⟩ := s
  obtain ⟨h1, w1, l1⟩ := s'
  simp only at h
  obtain ⟨x, rfl⟩ : ∃ x, h1 = { h0 with wValid := x } := ⟨_, Hist.noW_eq h⟩
  unfold validStep
  refine RelM.same.bind fun bin _ hb => ?_
  subst hb
  refine RelM.any.bind fun _ _ _ => ?_
  refine RelM.any.bind fun _ _ _ => ?_
  refine RelM.same.bind fun n _ hb => ?_
  subst hb
  refine RelM.same.bind fun ne _ hb => ?_
  subst hb
  refine RelM.same.bind fun nV _ hb => ?_
  subst hb
  refine RelM.any.bind fun _ _ _ => ?_
  refine RelM.any.bind fun _ _ _ => ?_
  exact RelM.pure' rfl

/-- The accumulators of the loop over features, in the same sense. -/
structure AccSame (b : Bool) (a a' : NodeAcc F Y P) : Prop where
  hists : a.hists.map Hist.noW = a'.hists.map Hist.noW
  yPred : a'.yPred = a.yPred
  wTrain : a'.wTrain = a.wTrain
  rest : b = false → a'.loss = a.loss ∧ a'.wValid = a.wValid

theorem featureStep_oob (hy : AgreeOn B c.y y') (hw : AgreeOn B c.w w') {train : List Nat} (hB : ∀ i ∈ train, i ∈ B) (valid : List Nat) (j : Nat)
    (a a' : NodeAcc F Y P) (h : AccSame c.aggregation a a') :
    RelM (AccSame c.aggregation) (featureStep T c train valid a j) (featureStep T { c with y := y', w := w' } train valid a' j) := by
  have he : a'.hists.isEmpty = a.hists.isEmpty := by
    have := congrArg List.isEmpty h.hists
    simpa only [List.isEmpty_map] using this.symm
  unfold featureStep
  rw [he, h.wTrain, h.yPred]
  refine RelM.bind (S := fun x y => x = y) ?_ fun x _ hb => ?_
  · intro u v hu hv
    have e := foldlM_congr (fun s x hx => trainStep_oob T hy hw j a.hists.isEmpty s (hB x hx)) (Hist.zero T c.maxNBins, a.wTrain, a.yPred)
    exact Except.ok.inj (hu.symm.trans (e.trans hv))
  subst hb
  obtain ⟨hx, wx, px⟩ := x
  refine RelM.same.bind fun p _ hb => ?_
  subst hb
  cases hc : c.aggregation with
  | false =>
    simp only [Bool.false_eq_true, if_false]
    obtain ⟨e1, e2⟩ := h.rest hc
    refine RelM.pure' ⟨?_, rfl, rfl, fun _ => ⟨e1, e2⟩⟩
    simp only [List.map_append, h.hists]
  | true =>
    simp only [if_true]
    refine (RelM.foldlM (fun s s' x hs => validStep_oob T j a.hists.isEmpty p x s s' hs) (s := (hx, a.wValid, a.loss)) (s' := (hx, a'.wValid, a'.loss))
      rfl).bind fun x y hxy => ?_
    obtain ⟨hx', wx', px'⟩ := x
    obtain ⟨hy', wy', py'⟩ := y
    refine RelM.pure' ⟨?_, rfl, rfl, fun h0 => absurd h0 (by simp)⟩
    simp only [List.map_append, h.hists, List.map_cons, List.map_nil]
    simp only at hxy
    rw [hxy]

theorem nodeStats_oob (hy : AgreeOn B c.y y') (hw : AgreeOn B c.w w') {train : List Nat} (hB : ∀ i ∈ train, i ∈ B) (features valid : List Nat)
    (nT nV : Nat) :
    RelM (NcSame c.aggregation) (nodeStats T c features train valid nT nV) (nodeStats T { c with y := y', w := w' } features train valid nT nV) := by
  unfold nodeStats
  refine (RelM.foldlM (fun s s' x hs => featureStep_oob T hy hw hB valid x s s' hs) ⟨rfl, rfl, rfl, fun _ => ⟨rfl, rfl⟩⟩).bind fun x y hxy => ?_
  exact RelM.pure' ⟨hxy.hists, hxy.yPred, rfl, rfl, hxy.wTrain, hxy.rest⟩

theorem sampleFeatures_part {R : Rng G} {k k' : Work G} (h : sampleFeatures R c k = .ok k') : k'.partTrain = k.partTrain := by
  unfold sampleFeatures at h
  split at h
  · rw [bind_eq_ok] at h
    obtain ⟨x, _, h⟩ := h
    injection h with h
    rw [← h]
  · injection h with h
    rw [← h]

theorem slice_mem {α : Type} {l : List α} {s e : Nat} {x : α} (h : x ∈ slice l s e) : x ∈ l := List.mem_of_mem_drop (List.mem_of_mem_take h)

theorem computeNodeContext_oob (R : Rng G) (hy : AgreeOn B c.y y') (hw : AgreeOn B c.w w') {k : Work G} (hB : ∀ i ∈ k.partTrain, i ∈ B)
    (sT eT sV eV : Nat) :
    RelM (fun x y => NcSame c.aggregation x.1 y.1 ∧ x.2 = y.2 ∧ x.2.partTrain = k.partTrain) (computeNodeContext R T c k sT eT sV eV)
      (computeNodeContext R T { c with y := y', w := w' } k sT eT sV eV) := by
  unfold computeNodeContext
  refine RelM.bind (S := fun x y => x = y ∧ x.partTrain = k.partTrain) ?_ fun k' _ hb => ?_
  · intro x z hx hz
    have : x = z := Except.ok.inj (hx.symm.trans hz)
    exact ⟨this, sampleFeatures_part hx⟩
  obtain ⟨hb, hk⟩ := hb
  subst hb
  refine RelM.same.bind fun nT _ hb => ?_
  subst hb
  refine RelM.same.bind fun nV _ hb => ?_
  subst hb
  refine (nodeStats_oob T hy hw (fun i hi => hB i (hk ▸ slice_mem hi)) _ _ _ _).bind fun x y hxy => RelM.pure' ⟨hxy, rfl, hk⟩

theorem tryBins_oob (nc : NodeCtx F Y P) (hs : List (Hist F Y)) (ls wv : F) (h : Hist F Y) (x : List F) (f : Nat) (b : Bool) (cs o : List Nat)
    (l : List Nat) (a : TryAcc F Y) (best : Split F) :
    tryBins T { c with y := y', w := w' } { nc with hists := hs, loss := ls, wValid := wv } { h with wValid := x } f b cs o l a best =
      tryBins T c nc h f b cs o l a best := by
  induction l generalizing a best with
  | nil => rfl
  | cons z l ih =>
    unfold tryBins
    simp only [ih]
    rfl

theorem chooseSplit_oob {nc nc' : NodeCtx F Y P} (hn : NcSame c.aggregation nc nc') (r : Record F) (k : Work G) :
    RelM (fun x y => x = y) (chooseSplit T c r nc k) (chooseSplit T { c with y := y', w := w' } r nc' k) := by
  obtain ⟨hs, ls, wv, rfl, hh⟩ : ∃ hs ls wv, nc' = { nc with hists := hs, loss := ls, wValid := wv } ∧ nc.hists.map Hist.noW = hs.map Hist.noW := by
    refine ⟨nc'.hists, nc'.loss, nc'.wValid, ?_, hn.hists⟩
    obtain ⟨-, h1, h2, h3, h4, -⟩ := hn
    cases nc; cases nc'
    simp only at h1 h2 h3 h4
    subst h1 h2 h3 h4
    rfl
  have h4 : ∀ h x f b g, findBestAlong T { c with y := y', w := w' } { nc with hists := hs, loss := ls, wValid := wv } { h with wValid := x } f b g =
      findBestAlong T c nc h f b g := by
    intro h x f b g
    unfold findBestAlong tryOrder
    simp only [tryBins_oob]
  unfold chooseSplit
  have : stopHere { c with y := y', w := w' } r nc.nTrain nc.nValid = stopHere c r nc.nTrain nc.nValid := rfl
  simp only [this]
  split
  · exact RelM.same
  · unfold findNodeSplit
    refine RelM.bind (S := fun x y => x = y) (RelM.foldlM (fun s s' p hs => ?_) rfl) fun x _ hb => ?_
    · subst hs
      refine RelM.bind (S := fun h h' : Hist F Y => h.noW = h'.noW) ?_ fun h h' e => ?_
      · intro h h' q1 q2
        have e := congrArg (fun l : List (Hist F Y) => l[p.1]?) hh
        simp only [List.getElem?_map] at e
        rw [rd_ok.1 q1, rd_ok.1 q2] at e
        exact Option.some.inj e
      · obtain ⟨x, rfl⟩ : ∃ x, h' = { h with wValid := x } := ⟨_, Hist.noW_eq e⟩
        simp only [h4]
        exact RelM.same
    · subst hb
      exact RelM.same

end

/-- A node without the loss and the weight of the validation rows, if `b`. -/
def Node.er (b : Bool) (n : Node F) : Node F := if b then { n with loss := Num.zero, wValid := Num.zero } else n

/-- Node tables that are equal up to losses and weights of validation rows. -/
def NodesSame (b : Bool) (ns ns' : List (Node F)) : Prop := ns.map (Node.er b) = ns'.map (Node.er b)

theorem NodesSame.length {b : Bool} {ns ns' : List (Node F)} (h : NodesSame b ns ns') : ns'.length = ns.length := by
  have := congrArg List.length h
  simpa only [List.length_map] using this.symm

theorem NodesSame.rd {b : Bool} {ns ns' : List (Node F)} (h : NodesSame b ns ns') (k : Nat) :
    RelM (fun n n' => n.er b = n'.er b) (rd ns k) (rd ns' k) := by
  intro n n' h1 h2
  have e := congrArg (fun l : List (Node F) => l[k]?) h
  simp only [List.getElem?_map] at e
  rw [rd_ok.1 h1, rd_ok.1 h2] at e
  exact Option.some.inj e

theorem NodesSame.wr {b : Bool} {ns ns' : List (Node F)} (h : NodesSame b ns ns') {k : Nat} {n n' : Node F} (h1 : n.er b = n'.er b) :
    RelM (NodesSame b) (wr ns k n) (wr ns' k n') := by
  intro a a' ha ha'
  obtain ⟨_, rfl⟩ := wr_ok.1 ha
  obtain ⟨_, rfl⟩ := wr_ok.1 ha'
  unfold NodesSame at h ⊢
  rw [List.map_set, List.map_set, h, h1]

/-- Tree arrays in the same sense. -/
structure TreeSame (b : Bool) (t t' : TreeArr F P) : Prop where
  nodes : NodesSame b t.nodes t'.nodes
  yPred : t'.yPred = t.yPred
  count : t'.nodeCount = t.nodeCount
  capacity : t'.capacity = t.capacity
  binParts : t'.binParts = t.binParts
  bpCapacity : t'.bpCapacity = t.bpCapacity
  bpEnd : t'.bpEnd = t.bpEnd

theorem resizeTree'_oob {b : Bool} (z : P) {t t' : TreeArr F P} (h : TreeSame b t t') (n : Nat) :
    RelM (TreeSame b) (resizeTree' z t n) (resizeTree' z t' n) := by
  unfold resizeTree'
  rw [h.yPred]
  refine RelM.bind (S := NodesSame b) ?_ fun a a' ha => ?_
  · unfold resizeArr
    rw [h.nodes.length]
    split
    · refine RelM.pure ?_
      have := h.nodes
      unfold NodesSame at this ⊢
      rw [List.map_append, List.map_append, this]
    · intro _ _ h0; exact absurd h0 (by simp)
  · refine RelM.same.bind fun p _ hb => ?_
    subst hb
    exact RelM.pure' ⟨ha, rfl, h.count, rfl, h.binParts, h.bpCapacity, h.bpEnd⟩

theorem resizeTree_oob {b : Bool} (z : P) {t t' : TreeArr F P} (h : TreeSame b t t') (o : Option Nat) :
    RelM (TreeSame b) (resizeTree z t o) (resizeTree z t' o) := by
  cases o with
  | none =>
    simp only [resizeTree, h.capacity]
    split
    · exact resizeTree'_oob z h 3
    · exact resizeTree'_oob z h _
  | some n =>
    simp only [resizeTree, h.capacity, h.nodes.length]
    split
    · exact RelM.pure h
    · exact resizeTree'_oob z h n

theorem er_upd {b : Bool} {n n' : Node F} (h : n.er b = n'.er b) (f : Node F → Node F) (hf : ∀ m : Node F, (f m).er b = (f (m.er b)).er b) :
    (f n).er b = (f n').er b := by
  rw [hf n, hf n', h]

theorem setChild_oob {b : Bool} {ns ns' : List (Node F)} (h : NodesSame b ns ns') (r : Record F) (k : Nat) :
    RelM (NodesSame b) (setChild ns r k) (setChild ns' r k) := by
  unfold setChild
  cases hp : r.parent with
  | none => exact RelM.pure h
  | some p =>
    refine (h.rd p).bind fun n n' hn => ?_
    refine h.wr (er_upd hn (fun pn => if r.isLeft = true then { pn with left := some k } else { pn with right := some k }) fun m => ?_)
    cases b <;> cases r.isLeft <;> rfl

theorem writeNode_oob {b : Bool} {t t' : TreeArr F P} (h : TreeSame b t t') (r : Record F) {nc nc' : NodeCtx F Y P}
    (hn : NcSame b nc nc') (i : SplitInfo) : RelM (TreeSame b) (writeNode t r nc i) (writeNode t' r nc' i) := by
  unfold writeNode
  rw [h.count]
  refine (h.nodes.rd t.nodeCount).bind fun n n' hnn => ?_
  refine RelM.bind (S := NodesSame b) (h.nodes.wr ?_) fun a a' ha => ?_
  · rw [hn.nTrain, hn.nValid, hn.wTrain]
    cases b with
    | false =>
      obtain ⟨e1, e2⟩ := hn.rest rfl
      have : n = n' := hnn
      rw [this, e1, e2]
    | true =>
      have e : ({ n with loss := Num.zero, wValid := Num.zero } : Node F) = { n' with loss := Num.zero, wValid := Num.zero } := hnn
      cases n; cases n'
      simp only [Node.mk.injEq] at e
      obtain ⟨e1, e2, e3, e4, e5, e6, e7, e8, e9, e10, e11, e12, e13, e14, e15, e16, e17, e18, e19, e20, e21, e22, e23⟩ := e
      subst e1 e2 e3 e4 e5 e6 e7 e8 e9 e10 e12 e13 e14 e15 e17 e18 e19 e20 e21 e22 e23
      cases i.isLeaf <;> rfl
  · refine (setChild_oob ha r _).bind fun b b' hb => ?_
    exact RelM.pure' ⟨hb, h.yPred, rfl, h.capacity, h.binParts, h.bpCapacity, h.bpEnd⟩

theorem resizeBinParts_oob {b : Bool} (g : Nat → Nat) {t t' : TreeArr F P} (h : TreeSame b t t') (n : Nat) :
    RelM (TreeSame b) (resizeBinParts g t n) (resizeBinParts g t' n) := by
  unfold resizeBinParts
  rw [h.bpCapacity, h.binParts]
  split
  · exact RelM.pure h
  · refine RelM.same.bind fun p _ hb => ?_
    subst hb
    exact RelM.pure' ⟨h.nodes, h.yPred, h.count, h.capacity, rfl, rfl, h.bpEnd⟩

theorem writePartition_oob {b : Bool} (g : Nat → Nat) {t t' : TreeArr F P} (h : TreeSame b t t') (i : SplitInfo) :
    RelM (TreeSame b) (writePartition g t i) (writePartition g t' i) := by
  unfold writePartition
  rw [h.count, h.bpEnd]
  have key : ∀ {u u' : TreeArr F P}, TreeSame b u u' → ∀ x z, RelM (NodesSame b)
      (do let node ← rd u.nodes t.nodeCount; wr u.nodes t.nodeCount { node with bpS := x, bpE := z })
      (do let node ← rd u'.nodes t.nodeCount; wr u'.nodes t.nodeCount { node with bpS := x, bpE := z }) := by
    intro u u' hu x z
    refine (hu.nodes.rd _).bind fun n n' hn => ?_
    exact hu.nodes.wr (er_upd hn (fun m => { m with bpS := x, bpE := z }) fun m => by cases b <;> rfl)
  split
  · refine RelM.bind (S := TreeSame b) ?_ fun u u' hu => ?_
    · rw [h.bpCapacity]
      split
      · exact resizeBinParts_oob g h _
      · exact RelM.pure h
    · rw [hu.binParts]
      refine RelM.same.bind fun q _ hb => ?_
      subst hb
      have := (key hu t.bpEnd (t.bpEnd + i.partition.length)).bind (S' := TreeSame b)
        (f := fun nodes => Pure.pure { u with binParts := q, nodes := nodes, bpEnd := t.bpEnd + i.partition.length })
        (g := fun nodes => Pure.pure { u' with binParts := q, nodes := nodes, bpEnd := t.bpEnd + i.partition.length })
        fun c c' hc => RelM.pure' ⟨hc, hu.yPred, hu.count, hu.capacity, rfl, hu.bpCapacity, rfl⟩
      simpa only [bind_assoc] using this
  · have := (key h 0 0).bind (S' := TreeSame b) (f := fun nodes => Pure.pure { t with nodes := nodes })
        (g := fun nodes => Pure.pure { t' with nodes := nodes, nodeCount := t.nodeCount, bpEnd := t.bpEnd })
        fun c c' hc => RelM.pure' ⟨hc, h.yPred, rfl, h.capacity, h.binParts, h.bpCapacity, rfl⟩
    simpa only [bind_assoc] using this

theorem addNode_oob {b : Bool} (z : P) (g : Nat → Nat) {t t' : TreeArr F P} (h : TreeSame b t t') (r : Record F)
    {nc nc' : NodeCtx F Y P} (hn : NcSame b nc nc') (i : SplitInfo) :
    RelM (fun x y => TreeSame b x.1 y.1 ∧ x.2 = y.2) (addNode z g t r nc i) (addNode z g t' r nc' i) := by
  unfold addNode
  rw [h.count, h.capacity]
  refine RelM.bind (S := TreeSame b) ?_ fun u u' hu => ?_
  · split
    · exact resizeTree_oob z h none
    · exact RelM.pure h
  · refine (writeNode_oob hu r hn i).bind fun a a' ha => ?_
    refine (writePartition_oob g ha i).bind fun v v' hv => ?_
    exact RelM.pure' ⟨⟨hv.nodes, hv.yPred, rfl, hv.capacity, hv.binParts, hv.bpCapacity, hv.bpEnd⟩, rfl⟩

/-! ### The rows of a node are rows of its parent -/

theorem splitSide_mem {c : Ctx F} {s : Split F} {part lb rb : List Nat} {start stop : Nat} {part' lb' rb' : List Nat} {pos : Nat}
    (h : splitSide c s part lb rb start stop = .ok (part', lb', rb', pos)) {i : Nat} (hi : i ∈ part') : i ∈ part := by
  unfold splitSide at h
  rw [bind_eq_ok] at h
  obtain ⟨⟨l1, r1, nl, nr⟩, h1, h⟩ := h
  have inv : (∀ x ∈ l1.take nl, x ∈ part) ∧ ∀ x ∈ r1.take nr, x ∈ part := by
    refine foldlM_inv_of_ok (I := fun _ (s : List Nat × List Nat × Nat × Nat) => (∀ x ∈ s.1.take s.2.2.1, x ∈ part) ∧ ∀ x ∈ s.2.1.take s.2.2.2, x ∈ part)
      (by simp) h1 (fun pre x post s s1 hl hs he => ?_)
    have hx : x ∈ part := slice_mem (s := start) (e := stop) (by rw [hl]; simp)
    obtain ⟨lb, rb, nl, nr⟩ := s
    simp only at he hs
    rw [bind_eq_ok] at he
    obtain ⟨bin, _, he⟩ := he
    rw [bind_eq_ok] at he
    obtain ⟨b, _, he⟩ := he
    have key : ∀ {l l' : List Nat} {n : Nat}, wr l n x = .ok l' → (∀ z ∈ l.take n, z ∈ part) → ∀ z ∈ l'.take (n + 1), z ∈ part := by
      intro l l' n hw hp z hz
      obtain ⟨hlt, rfl⟩ := wr_ok.1 hw
      rw [set_take_succ l n x hlt] at hz
      rcases List.mem_append.1 hz with hz | hz
      · exact hp z hz
      · obtain rfl := List.mem_singleton.1 hz
        exact hx
    cases b with
    | true =>
      rw [if_pos rfl, bind_eq_ok] at he
      obtain ⟨l', hw, he⟩ := he
      injection he with he
      subst he
      exact ⟨key hw hs.1, hs.2⟩
    | false =>
      rw [if_neg (by simp), bind_eq_ok] at he
      obtain ⟨l', hw, he⟩ := he
      injection he with he
      subst he
      exact ⟨hs.1, key hw hs.2⟩
  have wmem : ∀ {l l' v : List Nat} {a e : Nat}, wrSlice l a e v = .ok l' → (∀ x ∈ l, x ∈ part) → (∀ x ∈ v, x ∈ part) → ∀ x ∈ l', x ∈ part := by
    intro l l' v a e hw h1 h2 x hx
    unfold wrSlice at hw
    split at hw
    · injection hw with hw
      subst hw
      simp only [List.append_assoc, List.mem_append] at hx
      rcases hx with hx | hx | hx
      · exact h1 x (List.mem_of_mem_take hx)
      · exact h2 x hx
      · exact h1 x (List.mem_of_mem_drop hx)
    · cases hw
  simp only at h
  rw [bind_eq_ok] at h
  obtain ⟨p1, h2, h⟩ := h
  rw [bind_eq_ok] at h
  obtain ⟨p2, h3, h⟩ := h
  injection h with h
  injection h with h4 h5
  subst h4
  refine wmem h3 (wmem h2 (fun x hx => hx) fun x hx => inv.1 x ?_) (fun x hx => inv.2 x ?_) i hi
  · simpa only [slice, List.drop_zero, Nat.sub_zero] using hx
  · simpa only [slice, List.drop_zero, Nat.sub_zero] using hx

theorem splitIndices_mem {c : Ctx F} {s : Split F} {k k' : Work G} {sT eT sV eV pT pV : Nat}
    (h : splitIndices c s k sT eT sV eV = .ok (k', pT, pV)) {i : Nat} (hi : i ∈ k'.partTrain) : i ∈ k.partTrain := by
  unfold splitIndices at h
  rw [bind_eq_ok] at h
  obtain ⟨⟨pt, lb, rb, posT⟩, h1, h⟩ := h
  simp only at h
  rw [bind_eq_ok] at h
  obtain ⟨⟨pv, lb', rb', posV⟩, h2, h⟩ := h
  injection h with h
  injection h with h3 h4
  subst h3
  exact splitSide_mem h1 hi

/-! ### Growing -/

/-- States of `grow` in the same sense. -/
structure StateSame (b : Bool) (B : List Nat) (s s' : GState F P G) : Prop where
  tree : TreeSame b s.tree s'.tree
  recs : s'.recs = s.recs
  work : s'.work = s.work
  inB : ∀ i ∈ s.work.partTrain, i ∈ B

section
variable (R : Rng G) (T : Task F Y P G) {c : Ctx F} {y' w' : List F} {B : List Nat}

theorem growStep_oob (hy : AgreeOn B c.y y') (hw : AgreeOn B c.w w') (gb : Garbage F) {s s' : GState F P G} (h : StateSame c.aggregation B s s') :
    RelM (StateSame c.aggregation B) (growStep R T c gb s) (growStep R T { c with y := y', w := w' } gb s') := by
  unfold growStep
  rw [h.recs, h.work]
  refine RelM.same.bind fun x _ hb => ?_
  subst hb
  obtain ⟨r, recs⟩ := x
  refine (computeNodeContext_oob T R hy hw h.inB _ _ _ _).bind fun x y hxy => ?_
  obtain ⟨nc, w⟩ := x
  obtain ⟨nc', w''⟩ := y
  obtain ⟨hnc, hw1, hpart⟩ := hxy
  simp only at hw1 hpart
  subst hw1
  have hin : ∀ i ∈ w.partTrain, i ∈ B := by rw [hpart]; exact h.inB
  refine (chooseSplit_oob T hnc r w).bind fun x _ hb => ?_
  subst hb
  obtain ⟨sp, g⟩ := x
  refine (addNode_oob T.zeroP gb.bin h.tree r hnc sp.info).bind fun x y hxy => ?_
  obtain ⟨t, k⟩ := x
  obtain ⟨t', k'⟩ := y
  obtain ⟨ht, hk⟩ := hxy
  simp only at ht hk
  subst hk
  have hp : nc'.yPred = nc.yPred := hnc.yPred
  simp only [ht.yPred]
  rw [hp]
  refine RelM.same.bind fun ps _ hb => ?_
  subst hb
  have hT : TreeSame c.aggregation { t with yPred := ps } { t' with yPred := ps } :=
    ⟨ht.nodes, rfl, ht.count, ht.capacity, ht.binParts, ht.bpCapacity, ht.bpEnd⟩
  split
  · refine RelM.bind (S := fun x y => x = y ∧ ∀ i ∈ x.1.partTrain, i ∈ B) ?_ fun x _ hb => ?_
    · intro x z hx hz
      have e : x = z := Except.ok.inj (hx.symm.trans hz)
      exact ⟨e, fun i hi => hin i (splitIndices_mem (k := { w with rng := g }) hx hi)⟩
    · obtain ⟨hb, hi⟩ := hb
      subst hb
      obtain ⟨w2, pT, pV⟩ := x
      refine RelM.same.bind fun r1 _ hb => ?_
      subst hb
      refine RelM.same.bind fun r2 _ hb => ?_
      subst hb
      exact RelM.pure' ⟨hT, rfl, rfl, hi⟩
  · exact RelM.pure' ⟨hT, rfl, rfl, hin⟩

theorem growLoop_oob (hy : AgreeOn B c.y y') (hw : AgreeOn B c.w w') (gb : Garbage F) (n : Nat) {s s' : GState F P G}
    (h : StateSame c.aggregation B s s') :
    RelM (StateSame c.aggregation B) (growLoop R T c gb n s) (growLoop R T { c with y := y', w := w' } gb n s') := by
  induction n generalizing s s' with
  | zero =>
    unfold growLoop
    rw [h.recs]
    split
    · intro _ _ h0; exact absurd h0 (by simp)
    · exact RelM.pure h
  | succ n ih =>
    unfold growLoop
    rw [h.recs]
    split
    · exact (growStep_oob R T hy hw gb h).bind fun x y hxy => ih hxy
    · exact RelM.pure h

theorem growRaw_oob (gb : Garbage F) (k : Work G) (hy : AgreeOn k.partTrain c.y y') (hw : AgreeOn k.partTrain c.w w') :
    RelM (StateSame c.aggregation k.partTrain) (growRaw R T c gb k) (growRaw R T { c with y := y', w := w' } gb k) := by
  unfold growRaw
  refine RelM.same.bind fun t _ hb => ?_
  subst hb
  refine RelM.same.bind fun r _ hb => ?_
  subst hb
  exact growLoop_oob R T hy hw gb _ ⟨⟨rfl, rfl, rfl, rfl, rfl, rfl, rfl⟩, rfl, rfl, fun _ hi => hi⟩

/-- Two fits of a tree. -/
theorem fitTree_oob (gb : Garbage F) {seed : Nat} {train valid : List Nat} (hy : AgreeOn train c.y y') (hw : AgreeOn train c.w w')
    {arr arr' : TreeArr F P} {k k' : Work G} (h1 : fitTree R T c gb seed train valid = .ok (arr, k))
    (h2 : fitTree R T { c with y := y', w := w' } gb seed train valid = .ok (arr', k')) :
    k' = k ∧ ({ arr' with nodes := arr.nodes } : TreeArr F P) = arr ∧
      arr'.nodes.map noValid = arr.nodes.map noValid ∧ (c.aggregation = false → arr' = arr) := by
  obtain ⟨s, r1, rfl, e1⟩ := fitTree_raw h1
  obtain ⟨s', r2, rfl, e2⟩ := fitTree_raw h2
  have hs := growRaw_oob R T gb (initWork R c gb seed train valid) hy hw s s' r1 r2
  have hrest : ∀ ns, ({ s'.tree with nodes := ns } : TreeArr F P) = { s.tree with nodes := ns } := by
    intro ns
    obtain ⟨-, g1, g2, g3, g4, g5, g6⟩ := hs.tree
    simp only [g1, g2, g3, g4, g5, g6]
  refine ⟨hs.work, ?_⟩
  have blank : ∀ {ns ns' : List (Node F)}, SameBut ns ns' → ns'.map noValid = ns.map noValid := by
    intro ns ns' hb
    apply List.ext_getElem?
    intro j
    simp only [List.getElem?_map]
    cases hj : ns[j]? with
    | none =>
      have : ns'[j]? = none := by
        rw [List.getElem?_eq_none_iff] at hj ⊢
        have := hb.1
        omega
      rw [this]
    | some n =>
      obtain ⟨x, hx⟩ := hb.2 j n hj
      rw [hx]
      rfl
  have hn := hs.tree.nodes
  cases hc : c.aggregation with
  | false =>
    rcases e1 with ⟨ha, _⟩ | ⟨-, rfl⟩
    · exact absurd (ha.symm.trans hc) (by simp)
    rcases e2 with ⟨ha, _⟩ | ⟨-, rfl⟩
    · exact absurd (ha.symm.trans hc) (by simp)
    rw [hc] at hn
    have hid : (Node.er false : Node F → Node F) = id := rfl
    have hn' : s.tree.nodes = s'.tree.nodes := by
      unfold NodesSame at hn
      rwa [hid, List.map_id, List.map_id] at hn
    have : s'.tree = s.tree := by rw [show s'.tree = { s'.tree with nodes := s.tree.nodes } by rw [hn']]; exact hrest _
    rw [this]
    exact ⟨rfl, rfl, fun _ => rfl⟩
  | true =>
    rcases e1 with ⟨-, ns, q1, rfl, b1⟩ | ⟨ha, _⟩
    swap
    · exact absurd (ha.symm.trans hc) (by simp)
    rcases e2 with ⟨-, ns', q2, rfl, b2⟩ | ⟨ha, _⟩
    swap
    · exact absurd (ha.symm.trans hc) (by simp)
    refine ⟨hrest _, ?_, fun h0 => absurd h0 (by simp)⟩
    simp only
    rw [blank b1, blank b2]
    rw [hc] at hn
    have := congrArg (List.map noValid) hn
    have he : (noValid ∘ Node.er true : Node F → Node F) = noValid := rfl
    rw [List.map_map, List.map_map, he] at this
    exact this.symm

end

end Verif
