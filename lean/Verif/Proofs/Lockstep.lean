import Verif.Proofs.StepSetter

set_option linter.unusedSectionVars false

/-! Two fits that differ only in the final division of the node predictions grow the same tree. -/
namespace Verif

variable {F Y P G : Type} [Num F]

/-- The results of two computations are related whenever both succeed. -/
def RelM {α β : Type} (S : α → β → Prop) (a : M α) (b : M β) : Prop := ∀ x y, a = .ok x → b = .ok y → S x y

theorem RelM.bind {α β γ δ : Type} {S : α → β → Prop} {S' : γ → δ → Prop} {a : M α} {b : M β} {f : α → M γ} {g : β → M δ}
    (h : RelM S a b) (hf : ∀ x y, S x y → RelM S' (f x) (g y)) : RelM S' (a >>= f) (b >>= g) := by
  intro u v hu hv
  rw [bind_eq_ok] at hu hv
  obtain ⟨x, h1, h2⟩ := hu
  obtain ⟨y, h3, h4⟩ := hv
  exact hf x y (h x y h1 h3) u v h2 h4

theorem RelM.pure {α β : Type} {S : α → β → Prop} {x : α} {y : β} (h : S x y) : RelM S (.ok x : M α) (.ok y : M β) := by
  intro u v hu hv
  injection hu with hu
  injection hv with hv
  exact hu ▸ hv ▸ h

theorem RelM.pure' {α β : Type} {S : α → β → Prop} {x : α} {y : β} (h : S x y) : RelM S (Pure.pure x : M α) (Pure.pure y : M β) :=
  RelM.pure h

theorem RelM.same {α : Type} {a : M α} : RelM (fun x y => x = y) a a := by
  intro u v hu hv
  rw [hu] at hv
  injection hv

theorem RelM.any {α β : Type} {a : M α} {b : M β} : RelM (fun _ _ => True) a b := fun _ _ _ _ => trivial

theorem RelM.foldlM {α σ τ : Type} {S : σ → τ → Prop} {f : σ → α → M σ} {g : τ → α → M τ} {l : List α}
    (h : ∀ s s' x, S s s' → RelM S (f s x) (g s' x)) {s : σ} {s' : τ} (hs : S s s') : RelM S (l.foldlM f s) (l.foldlM g s') := by
  induction l generalizing s s' with
  | nil => exact RelM.pure' hs
  | cons x l ih =>
    rw [List.foldlM_cons, List.foldlM_cons]
    exact (h s s' x hs).bind fun u v huv => ih huv

/-- Equal up to the prediction and the loss. -/
def NcRel (nc nc' : NodeCtx F Y P) : Prop := ∃ p l, nc' = { nc with yPred := p, loss := l }

section
variable (T : Task F Y P G) (e : P → F → M P)

theorem validStep_rel (c : Ctx F) (j : Nat) (first : Bool) (p p' : P) (i : Nat) (s s' : Hist F Y × F × F)
    (h : s.1 = s'.1 ∧ s.2.1 = s'.2.1) :
    RelM (fun x y => x.1 = y.1 ∧ x.2.1 = y.2.1) (validStep T c j first p s i) (validStep { T with endP := e } c j first p' s' i) := by
  obtain ⟨h0, w0, l0⟩ := s
  obtain ⟨h1, w1, l1⟩ := s'
  obtain ⟨rfl, rfl⟩ := h
  unfold validStep
  refine RelM.same.bind fun bin _ hb => ?_
  subst hb
  refine RelM.same.bind fun sw _ hb => ?_
  subst hb
  refine RelM.any.bind fun _ _ _ => ?_
  refine RelM.same.bind fun n _ hb => ?_
  subst hb
  refine RelM.same.bind fun ne _ hb => ?_
  subst hb
  refine RelM.same.bind fun nV _ hb => ?_
  subst hb
  refine RelM.same.bind fun wB _ hb => ?_
  subst hb
  refine RelM.same.bind fun wV _ hb => ?_
  subst hb
  exact RelM.pure' ⟨rfl, rfl⟩

theorem trainStep_rel (c : Ctx F) (j : Nat) (first : Bool) (i : Nat) (s s' : Hist F Y × F × P)
    (h : s.1 = s'.1 ∧ s.2.1 = s'.2.1) :
    RelM (fun x y => x.1 = y.1 ∧ x.2.1 = y.2.1) (trainStep T c j first s i) (trainStep { T with endP := e } c j first s' i) := by
  obtain ⟨h0, w0, l0⟩ := s
  obtain ⟨h1, w1, l1⟩ := s'
  obtain ⟨rfl, rfl⟩ := h
  unfold trainStep
  refine RelM.same.bind fun bin _ hb => ?_
  subst hb
  refine RelM.same.bind fun label _ hb => ?_
  subst hb
  refine RelM.same.bind fun sw _ hb => ?_
  subst hb
  refine RelM.any.bind fun _ _ _ => ?_
  refine RelM.same.bind fun n _ hb => ?_
  subst hb
  refine RelM.same.bind fun ne _ hb => ?_
  subst hb
  refine RelM.same.bind fun nT _ hb => ?_
  subst hb
  refine RelM.same.bind fun wB _ hb => ?_
  subst hb
  refine RelM.same.bind fun wT _ hb => ?_
  subst hb
  refine RelM.same.bind fun yB _ hb => ?_
  subst hb
  refine RelM.same.bind fun yB _ hb => ?_
  subst hb
  refine RelM.same.bind fun ys _ hb => ?_
  subst hb
  exact RelM.pure' ⟨rfl, rfl⟩

theorem featureStep_rel (c : Ctx F) (train valid : List Nat) (j : Nat) (a a' : NodeAcc F Y P)
    (h : a.hists = a'.hists ∧ a.wTrain = a'.wTrain ∧ a.wValid = a'.wValid) :
    RelM (fun x y => x.hists = y.hists ∧ x.wTrain = y.wTrain ∧ x.wValid = y.wValid) (featureStep T c train valid a j)
      (featureStep { T with endP := e } c train valid a' j) := by
  obtain ⟨h1, h2, h3⟩ := h
  unfold featureStep
  rw [h1]
  refine (RelM.foldlM (fun s s' x hs => trainStep_rel T e c j _ x s s' hs)
    (s := (Hist.zero T c.maxNBins, a.wTrain, a.yPred)) (s' := (Hist.zero { T with endP := e } c.maxNBins, a'.wTrain, a'.yPred))
    ⟨rfl, h2⟩).bind fun x y hxy => ?_
  obtain ⟨hx, wx, px⟩ := x
  obtain ⟨hy, wy, py⟩ := y
  obtain ⟨rfl, rfl⟩ := hxy
  refine RelM.any.bind fun p p' _ => ?_
  cases c.aggregation with
  | false => exact RelM.pure' ⟨rfl, rfl, h3⟩
  | true =>
    refine (RelM.foldlM (fun s s' x hs => validStep_rel T e c j _ p p' x s s' hs)
      (s := (hx, a.wValid, a.loss)) (s' := (hx, a'.wValid, a'.loss)) ⟨rfl, h3⟩).bind fun x y hxy => ?_
    obtain ⟨hx', wx', px'⟩ := x
    obtain ⟨hy', wy', py'⟩ := y
    obtain ⟨rfl, rfl⟩ := hxy
    exact RelM.pure' ⟨rfl, rfl, rfl⟩

theorem nodeStats_rel (c : Ctx F) (features train valid : List Nat) (nT nV : Nat) :
    RelM NcRel (nodeStats T c features train valid nT nV) (nodeStats { T with endP := e } c features train valid nT nV) := by
  unfold nodeStats
  refine (RelM.foldlM (fun s s' x hs => featureStep_rel T e c train valid x s s' hs) ⟨rfl, rfl, rfl⟩).bind fun x y hxy => ?_
  obtain ⟨h1, h2, h3⟩ := hxy
  refine RelM.pure' ⟨y.yPred, y.loss, ?_⟩
  rw [h1, h2, h3]

theorem computeNodeContext_rel (R : Rng G) (c : Ctx F) (k : Work G) (sT eT sV eV : Nat) :
    RelM (fun x y => NcRel x.1 y.1 ∧ x.2 = y.2) (computeNodeContext R T c k sT eT sV eV)
      (computeNodeContext R { T with endP := e } c k sT eT sV eV) := by
  unfold computeNodeContext
  refine RelM.same.bind fun k' _ hb => ?_
  subst hb
  refine RelM.same.bind fun nT _ hb => ?_
  subst hb
  refine RelM.same.bind fun nV _ hb => ?_
  subst hb
  exact (nodeStats_rel T e c _ _ _ _ _).bind fun x y hxy => RelM.pure' ⟨hxy, rfl⟩

theorem tryBins_rel (c : Ctx F) (nc : NodeCtx F Y P) (p : P) (ls : F) (h : Hist F Y) (f : Nat) (b : Bool) (cs o : List Nat)
    (l : List Nat) (a : TryAcc F Y) (best : Split F) :
    tryBins { T with endP := e } c { nc with yPred := p, loss := ls } h f b cs o l a best = tryBins T c nc h f b cs o l a best := by
  induction l generalizing a best with
  | nil => rfl
  | cons x l ih =>
    unfold tryBins
    simp only [ih]

theorem chooseSplit_rel (c : Ctx F) (nc : NodeCtx F Y P) (p : P) (ls : F) (r : Record F) (w : Work G) :
    chooseSplit { T with endP := e } c r { nc with yPred := p, loss := ls } w = chooseSplit T c r nc w := by
  have h3 : ∀ s g, findNodeSplit { T with endP := e } c { nc with yPred := p, loss := ls } s g = findNodeSplit T c nc s g := by
    intro s g
    have h4 : ∀ hh f b g, findBestAlong { T with endP := e } c { nc with yPred := p, loss := ls } hh f b g =
        findBestAlong T c nc hh f b g := by
      intro hh f b g
      unfold findBestAlong tryOrder
      simp only [tryBins_rel]
    unfold findNodeSplit
    simp only [h4]
  unfold chooseSplit
  simp only [h3]

end

/-- Node tables equal up to the losses of the first `m` nodes. -/
def NodesRel (m : Nat) (ns ns' : List (Node F)) : Prop :=
  ns'.length = ns.length ∧ ∀ (j : Nat) n n', ns[j]? = some n → ns'[j]? = some n' →
    (∃ x, n' = { n with loss := x }) ∧ (m ≤ j → n' = n)

theorem NodesRel.mono {m m' : Nat} {ns ns' : List (Node F)} (h : NodesRel m ns ns') (hm : m ≤ m') : NodesRel m' ns ns' :=
  ⟨h.1, fun j n n' h1 h2 => ⟨(h.2 j n n' h1 h2).1, fun h3 => (h.2 j n n' h1 h2).2 (by omega)⟩⟩

theorem NodesRel.rd {m : Nat} {ns ns' : List (Node F)} (h : NodesRel m ns ns') (k : Nat) :
    RelM (fun n n' => (∃ x, n' = { n with loss := x }) ∧ (m ≤ k → n' = n)) (rd ns k) (rd ns' k) := by
  intro n n' h1 h2
  exact h.2 k n n' (rd_ok.1 h1) (rd_ok.1 h2)

theorem NodesRel.wr {m : Nat} {ns ns' : List (Node F)} (h : NodesRel m ns ns') {k : Nat} {n n' : Node F}
    (h1 : ∃ x, n' = { n with loss := x }) (h2 : m ≤ k → n' = n) : RelM (NodesRel m) (wr ns k n) (wr ns' k n') := by
  intro a a' ha ha'
  obtain ⟨l1, rfl⟩ := wr_ok.1 ha
  obtain ⟨l2, rfl⟩ := wr_ok.1 ha'
  refine ⟨by simp [h.1], fun j x x' hx hx' => ?_⟩
  by_cases hj : k = j
  · subst hj
    rw [List.getElem?_set_self l1] at hx
    rw [List.getElem?_set_self l2] at hx'
    injection hx with hx
    injection hx' with hx'
    exact hx ▸ hx' ▸ ⟨h1, h2⟩
  · rw [List.getElem?_set_ne hj] at hx hx'
    exact h.2 j x x' hx hx'

/-- Predictions equal from index `m` on. -/
def PredRel (m : Nat) (ps ps' : List P) : Prop := ps'.length = ps.length ∧ ∀ j : Nat, m ≤ j → ps'[j]? = ps[j]?

/-- Tree arrays equal up to the predictions and losses of the first `m` nodes. -/
structure TreeRel (m : Nat) (t t' : TreeArr F P) : Prop where
  nodes : NodesRel m t.nodes t'.nodes
  yPred : PredRel m t.yPred t'.yPred
  count : t'.nodeCount = t.nodeCount
  capacity : t'.capacity = t.capacity
  binParts : t'.binParts = t.binParts
  bpCapacity : t'.bpCapacity = t.bpCapacity
  bpEnd : t'.bpEnd = t.bpEnd

theorem resizeArr_rel {m : Nat} {ns ns' : List (Node F)} (h : NodesRel m ns ns') (n : Nat) :
    RelM (NodesRel m) (resizeArr (fun _ => Node.zero) ns n) (resizeArr (fun _ => Node.zero) ns' n) := by
  unfold resizeArr
  rw [h.1]
  split
  · refine RelM.pure ⟨by simp [h.1], fun j x x' hx hx' => ?_⟩
    by_cases hj : j < ns.length
    · rw [List.getElem?_append_left hj] at hx
      rw [List.getElem?_append_left (by rw [h.1]; exact hj)] at hx'
      exact h.2 j x x' hx hx'
    · rw [List.getElem?_append_right (by omega)] at hx
      rw [List.getElem?_append_right (by rw [h.1]; omega), h.1, hx] at hx'
      injection hx' with hx'
      subst hx'
      exact ⟨⟨x.loss, rfl⟩, fun _ => rfl⟩
  · intro _ _ h0; exact absurd h0 (by simp)

theorem resizePred_rel {m : Nat} {z : P} {ps ps' : List P} (h : PredRel m ps ps') (n : Nat) :
    RelM (PredRel m) (resizeArr (fun _ => z) ps n) (resizeArr (fun _ => z) ps' n) := by
  unfold resizeArr
  rw [h.1]
  split
  · refine RelM.pure ⟨by simp [h.1], fun j hj => ?_⟩
    by_cases hl : j < ps.length
    · rw [List.getElem?_append_left hl, List.getElem?_append_left (by rw [h.1]; exact hl)]
      exact h.2 j hj
    · have := h.1
      rw [List.getElem?_append_right (l₁ := ps) (by omega), List.getElem?_append_right (l₁ := ps') (by omega), h.1]
  · intro _ _ h0; exact absurd h0 (by simp)

theorem resizeTree'_rel {m : Nat} (z : P) {t t' : TreeArr F P} (h : TreeRel m t t') (n : Nat) :
    RelM (TreeRel m) (resizeTree' z t n) (resizeTree' z t' n) := by
  unfold resizeTree'
  refine (resizeArr_rel h.nodes n).bind fun a a' ha => ?_
  refine (resizePred_rel h.yPred n).bind fun b b' hb => ?_
  exact RelM.pure' ⟨ha, hb, h.count, rfl, h.binParts, h.bpCapacity, h.bpEnd⟩

theorem resizeTree_rel {m : Nat} (z : P) {t t' : TreeArr F P} (h : TreeRel m t t') (o : Option Nat) :
    RelM (TreeRel m) (resizeTree z t o) (resizeTree z t' o) := by
  cases o with
  | none =>
    simp only [resizeTree, h.capacity]
    split
    · exact resizeTree'_rel z h 3
    · exact resizeTree'_rel z h _
  | some n =>
    simp only [resizeTree, h.capacity, h.nodes.1]
    split
    · exact RelM.pure h
    · exact resizeTree'_rel z h n

theorem setChild_rel {m : Nat} {ns ns' : List (Node F)} (h : NodesRel m ns ns') (r : Record F) (k : Nat) :
    RelM (NodesRel m) (setChild ns r k) (setChild ns' r k) := by
  unfold setChild
  cases hp : r.parent with
  | none => exact RelM.pure h
  | some p =>
    refine (h.rd p).bind fun n n' hn => ?_
    obtain ⟨⟨x, rfl⟩, h2⟩ := hn
    refine h.wr ?_ ?_
    · split
      · exact ⟨x, rfl⟩
      · exact ⟨x, rfl⟩
    · intro hm
      rw [h2 hm]

theorem writeNode_rel {t t' : TreeArr F P} (h : TreeRel t.nodeCount t t') (r : Record F) {nc nc' : NodeCtx F Y P}
    (hn : NcRel nc nc') (i : SplitInfo) : RelM (TreeRel (t.nodeCount + 1)) (writeNode t r nc i) (writeNode t' r nc' i) := by
  obtain ⟨p, l, rfl⟩ := hn
  have hN := h.nodes.mono (Nat.le_succ _)
  unfold writeNode
  rw [h.count]
  refine (hN.rd t.nodeCount).bind fun n n' hn => ?_
  obtain ⟨⟨x, rfl⟩, _⟩ := hn
  refine RelM.bind (S := NodesRel (t.nodeCount + 1)) (hN.wr ?_ (by omega)) fun a a' ha => ?_
  · cases i.isLeaf with
    | true => exact ⟨l, rfl⟩
    | false => exact ⟨l, rfl⟩
  · refine (setChild_rel ha r _).bind fun b b' hb => ?_
    exact RelM.pure' ⟨hb, ⟨h.yPred.1, fun j hj => h.yPred.2 j (by omega)⟩, rfl, h.capacity, h.binParts, h.bpCapacity, h.bpEnd⟩

theorem resizeBinParts_rel {m : Nat} (g : Nat → Nat) {t t' : TreeArr F P} (h : TreeRel m t t') (n : Nat) :
    RelM (TreeRel m) (resizeBinParts g t n) (resizeBinParts g t' n) := by
  unfold resizeBinParts
  rw [h.bpCapacity, h.binParts]
  split
  · exact RelM.pure h
  · refine RelM.same.bind fun b _ hb => ?_
    subst hb
    exact RelM.pure' ⟨h.nodes, h.yPred, h.count, h.capacity, rfl, rfl, h.bpEnd⟩

theorem writePartition_rel {m : Nat} (g : Nat → Nat) {t t' : TreeArr F P} (h : TreeRel m t t') (i : SplitInfo) :
    RelM (TreeRel m) (writePartition g t i) (writePartition g t' i) := by
  unfold writePartition
  rw [h.count, h.bpEnd]
  have key : ∀ {u u' : TreeArr F P}, TreeRel m u u' → ∀ a b, RelM (NodesRel m)
      (do let node ← rd u.nodes t.nodeCount; wr u.nodes t.nodeCount { node with bpS := a, bpE := b })
      (do let node ← rd u'.nodes t.nodeCount; wr u'.nodes t.nodeCount { node with bpS := a, bpE := b }) := by
    intro u u' hu a b
    refine (hu.nodes.rd _).bind fun n n' hn => ?_
    obtain ⟨⟨x, rfl⟩, h2⟩ := hn
    exact hu.nodes.wr ⟨x, rfl⟩ fun hm => by rw [h2 hm]
  split
  · refine RelM.bind (S := TreeRel m) ?_ fun u u' hu => ?_
    · rw [h.bpCapacity]
      split
      · exact resizeBinParts_rel g h _
      · exact RelM.pure h
    · rw [hu.binParts]
      refine RelM.same.bind fun b _ hb => ?_
      subst hb
      have := (key hu t.bpEnd (t.bpEnd + i.partition.length)).bind (S' := TreeRel m)
        (f := fun nodes => Pure.pure { u with binParts := b, nodes := nodes, bpEnd := t.bpEnd + i.partition.length })
        (g := fun nodes => Pure.pure { u' with binParts := b, nodes := nodes, bpEnd := t.bpEnd + i.partition.length })
        fun c c' hc => RelM.pure' ⟨hc, hu.yPred, hu.count, hu.capacity, rfl, hu.bpCapacity, rfl⟩
      simpa only [bind_assoc] using this
  · have := (key h 0 0).bind (S' := TreeRel m) (f := fun nodes => Pure.pure { t with nodes := nodes })
        (g := fun nodes => Pure.pure { t' with nodes := nodes, nodeCount := t.nodeCount, bpEnd := t.bpEnd })
        fun c c' hc => RelM.pure' ⟨hc, h.yPred, rfl, h.capacity, h.binParts, h.bpCapacity, rfl⟩
    simpa only [bind_assoc] using this

/-- States of `grow` that differ in the predictions and losses only. -/
structure StateRel (s s' : GState F P G) : Prop where
  tree : TreeRel s.tree.nodeCount s.tree s'.tree
  recs : s'.recs = s.recs
  work : s'.work = s.work

theorem addNode_rel (z : P) (g : Nat → Nat) {t t' : TreeArr F P} (h : TreeRel t.nodeCount t t') (r : Record F)
    {nc nc' : NodeCtx F Y P} (hn : NcRel nc nc') (i : SplitInfo) :
    RelM (fun x y => TreeRel x.1.nodeCount x.1 y.1 ∧ x.1.nodeCount = t.nodeCount + 1 ∧ x.2 = t.nodeCount ∧ y.2 = t.nodeCount)
      (addNode z g t r nc i) (addNode z g t' r nc' i) := by
  unfold addNode
  rw [h.count, h.capacity]
  refine RelM.bind (S := fun u u' => TreeRel t.nodeCount u u' ∧ u.nodeCount = t.nodeCount) ?_ fun u u' hu => ?_
  · split
    · intro u u' hu hu'
      refine ⟨resizeTree_rel z h none u u' hu hu', ?_⟩
      have : ∀ n, resizeTree' z t n = .ok u → u.nodeCount = t.nodeCount := by
        intro n hn
        unfold resizeTree' at hn
        rw [bind_eq_ok] at hn
        obtain ⟨a, _, hn⟩ := hn
        rw [bind_eq_ok] at hn
        obtain ⟨b, _, hn⟩ := hn
        injection hn with hn
        rw [← hn]
      simp only [resizeTree] at hu
      split at hu
      · exact this _ hu
      · exact this _ hu
    · exact RelM.pure ⟨h, rfl⟩
  · obtain ⟨hu, hc⟩ := hu
    refine RelM.bind (S := TreeRel (t.nodeCount + 1)) ?_ fun a a' ha => ?_
    · have := writeNode_rel (t := u) (t' := u') (by rw [hc]; exact hu) r hn i
      rw [hc] at this
      exact this
    · refine (writePartition_rel g ha i).bind fun b b' hb => ?_
      exact RelM.pure' ⟨⟨hb.nodes, hb.yPred, rfl, hb.capacity, hb.binParts, hb.bpCapacity, hb.bpEnd⟩, rfl, rfl, rfl⟩

theorem growStep_rel (R : Rng G) (T : Task F Y P G) (e : P → F → M P) (c : Ctx F) (gb : Garbage F) {s s' : GState F P G}
    (h : StateRel s s') : RelM StateRel (growStep R T c gb s) (growStep R { T with endP := e } c gb s') := by
  unfold growStep
  rw [h.recs, h.work]
  refine RelM.same.bind fun x _ hb => ?_
  subst hb
  obtain ⟨r, recs⟩ := x
  refine (computeNodeContext_rel T e R c s.work _ _ _ _).bind fun x y hxy => ?_
  obtain ⟨nc, w⟩ := x
  obtain ⟨nc', w'⟩ := y
  obtain ⟨hnc, hw⟩ := hxy
  simp only at hw
  subst hw
  obtain ⟨p, l, rfl⟩ := hnc
  simp only [chooseSplit_rel]
  refine RelM.same.bind fun x _ hb => ?_
  subst hb
  obtain ⟨sp, g⟩ := x
  refine (addNode_rel T.zeroP gb.bin h.tree r ⟨p, l, rfl⟩ sp.info).bind fun x y hxy => ?_
  obtain ⟨t, k⟩ := x
  obtain ⟨t', k'⟩ := y
  obtain ⟨ht, hc, hk, hk'⟩ := hxy
  simp only at ht hc hk hk'
  subst hk hk'
  refine RelM.bind (S := PredRel t.nodeCount) ?_ fun ps ps' hps => ?_
  · intro a a' ha ha'
    obtain ⟨_, rfl⟩ := wr_ok.1 ha
    obtain ⟨_, rfl⟩ := wr_ok.1 ha'
    refine ⟨by simp [ht.yPred.1], fun j hj => ?_⟩
    rw [List.getElem?_set_ne (by omega), List.getElem?_set_ne (by omega)]
    exact ht.yPred.2 j hj
  · have hT : TreeRel t.nodeCount { t with yPred := ps } { t' with yPred := ps' } :=
      ⟨ht.nodes, hps, ht.count, ht.capacity, ht.binParts, ht.bpCapacity, ht.bpEnd⟩
    split
    · refine RelM.same.bind fun x _ hb => ?_
      subst hb
      obtain ⟨w2, pT, pV⟩ := x
      refine RelM.same.bind fun r1 _ hb => ?_
      subst hb
      refine RelM.same.bind fun r2 _ hb => ?_
      subst hb
      exact RelM.pure' ⟨hT, rfl, rfl⟩
    · exact RelM.pure' ⟨hT, rfl, rfl⟩

theorem growLoop_rel (R : Rng G) (T : Task F Y P G) (e : P → F → M P) (c : Ctx F) (gb : Garbage F) (n : Nat) {s s' : GState F P G}
    (h : StateRel s s') : RelM StateRel (growLoop R T c gb n s) (growLoop R { T with endP := e } c gb n s') := by
  induction n generalizing s s' with
  | zero =>
    unfold growLoop
    rw [h.recs]
    split
    · intro _ _ h0; exact absurd h0 (by simp)
    · exact RelM.pure h
  | succ n ih =>
    unfold growLoop
    rw [h.recs]
    split
    · exact (growStep_rel R T e c gb h).bind fun x y hxy => ih hxy
    · exact RelM.pure h

theorem growRaw_rel (R : Rng G) (T : Task F Y P G) (e : P → F → M P) (c : Ctx F) (gb : Garbage F) (k : Work G) :
    RelM StateRel (growRaw R T c gb k) (growRaw R { T with endP := e } c gb k) := by
  unfold growRaw
  refine RelM.same.bind fun t _ hb => ?_
  subst hb
  refine RelM.same.bind fun r _ hb => ?_
  subst hb
  refine growLoop_rel R T e c gb _ ⟨⟨⟨rfl, fun j n n' h1 h2 => ?_⟩, ⟨rfl, fun _ _ => rfl⟩, rfl, rfl, rfl, rfl, rfl⟩, rfl, rfl⟩
  rw [h1] at h2
  injection h2 with h2
  subst h2
  exact ⟨⟨n.loss, rfl⟩, fun _ => rfl⟩

end Verif
