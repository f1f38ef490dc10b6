import Verif.Spec.Scratch
import Verif.Proofs.StepSetter

set_option linter.unusedSectionVars false

/-! Growing a tree does not depend on the contents of uninitialised arrays. -/
namespace Verif

open Spec

variable {F Y P G : Type} [Num F]

theorem _root_.Verif.Spec.SameResult.bind {α β γ δ : Type} {S : α → β → Prop} {S' : γ → δ → Prop} {a : M α} {b : M β} {f : α → M γ} {g : β → M δ}
    (h : SameResult S a b) (hf : ∀ x y, S x y → SameResult S' (f x) (g y)) : SameResult S' (a >>= f) (b >>= g) := by
  cases a <;> cases b <;> simp only [SameResult] at h
  · exact h
  · exact hf _ _ h

theorem _root_.Verif.Spec.SameResult.ok {α β : Type} {S : α → β → Prop} {x : α} {y : β} (h : S x y) :
    SameResult S (.ok x : M α) (.ok y : M β) := h

theorem _root_.Verif.Spec.SameResult.pure {α β : Type} {S : α → β → Prop} {x : α} {y : β} (h : S x y) :
    SameResult S (Pure.pure x : M α) (Pure.pure y : M β) := h

theorem _root_.Verif.Spec.SameResult.same {α : Type} {a : M α} : SameResult (fun x y => x = y) a a := by
  cases a <;> rfl

theorem _root_.Verif.Spec.SameResult.foldlM {α σ τ : Type} {S : σ → τ → Prop} {f : σ → α → M σ} {g : τ → α → M τ} {l : List α}
    (h : ∀ s s' x, S s s' → SameResult S (f s x) (g s' x)) {s : σ} {s' : τ} (hs : S s s') :
    SameResult S (l.foldlM f s) (l.foldlM g s') := by
  induction l generalizing s s' with
  | nil => exact SameResult.pure hs
  | cons x l ih =>
    rw [List.foldlM_cons, List.foldlM_cons]
    exact (h s s' x hs).bind fun u v huv => ih huv

theorem _root_.Verif.Spec.SameResult.mapM {α β γ : Type} {S : β → γ → Prop} {f : α → M β} {g : α → M γ} {l : List α}
    (h : ∀ x ∈ l, SameResult S (f x) (g x)) : SameResult (List.Forall₂ S) (l.mapM f) (l.mapM g) := by
  induction l with
  | nil => exact SameResult.pure .nil
  | cons x l ih =>
    rw [List.mapM_cons, List.mapM_cons]
    refine (h x (by simp)).bind fun u v huv => ?_
    refine (ih fun y hy => h y (by simp [hy])).bind fun us vs hus => ?_
    exact SameResult.pure (.cons huv hus)

theorem _root_.Verif.Spec.SameResult.mono {α β : Type} {S S' : α → β → Prop} {a : M α} {b : M β} (h : SameResult S a b)
    (hS : ∀ x y, S x y → S' x y) : SameResult S' a b := by
  cases a <;> cases b <;> simp only [SameResult] at h ⊢
  · exact h
  · exact hS _ _ h

theorem _root_.Verif.Spec.SameResult.eq {α : Type} {a b : M α} (h : SameResult (fun x y => x = y) a b) : a = b := by
  cases a <;> cases b <;> simp only [SameResult] at h
  · rw [h]
  · rw [h]

/-- Arrays of the same length with the same first `n` entries. -/
structure Prefix {α : Type} (n : Nat) (a b : List α) : Prop where
  len : a.length = b.length
  get : a.take n = b.take n

theorem Prefix.zero {α : Type} {a b : List α} (h : a.length = b.length) : Prefix 0 a b := ⟨h, by simp⟩

theorem Prefix.mono {α : Type} {m n : Nat} {a b : List α} (h : Prefix n a b) (hm : m ≤ n) : Prefix m a b := by
  refine ⟨h.len, ?_⟩
  have := congrArg (List.take m) h.get
  rwa [List.take_take, List.take_take, Nat.min_eq_left hm] at this

theorem Prefix.getElem? {α : Type} {n : Nat} {a b : List α} (h : Prefix n a b) {i : Nat} (hi : i < n) : a[i]? = b[i]? := by
  have := congrArg (fun l => l[i]?) h.get
  simpa only [List.getElem?_take_of_lt hi] using this

theorem Prefix.rd {α : Type} {n : Nat} {a b : List α} (h : Prefix n a b) {i : Nat} (hi : i < n) : rd a i = rd b i := by
  unfold Verif.rd
  rw [h.getElem? hi]

theorem Prefix.wr {α : Type} {n : Nat} {a b : List α} (h : Prefix n a b) (x : α) :
    SameResult (Prefix (n + 1)) (wr a n x) (wr b n x) := by
  by_cases hn : n < a.length
  · rw [wr_of_lt x hn, wr_of_lt x (by rw [← h.len]; exact hn)]
    refine ⟨by simp [h.len], ?_⟩
    rw [set_take_succ _ _ _ hn, set_take_succ _ _ _ (by rw [← h.len]; exact hn), h.get]
  · have h1 : Verif.wr a n x = .error .oob := by simp [Verif.wr, hn]
    have h2 : Verif.wr b n x = .error .oob := by simp [Verif.wr, ← h.len, hn]
    rw [h1, h2]
    rfl

theorem Prefix.slice {α : Type} {n : Nat} {a b : List α} (h : Prefix n a b) {s e : Nat} (he : e ≤ n) : slice a s e = slice b s e := by
  have h' := (h.mono he).get
  unfold Verif.slice
  have : ∀ l : List α, (l.drop s).take (e - s) = (l.take e).drop s := by
    intro l
    rw [List.drop_take]
  rw [this, this, h']

theorem Prefix.resize {α : Type} {n m : Nat} {a b : List α} (h : Prefix n a b) (hn : n ≤ a.length) (f g : Nat → α) :
    SameResult (Prefix n) (resizeArr f a m) (resizeArr g b m) := by
  unfold resizeArr
  rw [← h.len]
  split
  · refine ⟨by simp [h.len], ?_⟩
    rw [List.take_append_of_le_length hn, List.take_append_of_le_length (by rw [← h.len]; exact hn), h.get]
  · rfl

/-! ## Splitting the samples -/

/-- The same work arrays except the buffers. -/
structure WorkRel (k k' : Work G) : Prop where
  partTrain : k.partTrain = k'.partTrain
  partValid : k.partValid = k'.partValid
  left : k.leftBuf.length = k'.leftBuf.length
  right : k.rightBuf.length = k'.rightBuf.length
  pool : k.pool = k'.pool
  sampled : k.sampled = k'.sampled
  rng : k.rng = k'.rng

theorem splitSide_same (c : Ctx F) (s : Split F) (part : List Nat) {lb lb' rb rb' : List Nat} (hl : lb.length = lb'.length)
    (hr : rb.length = rb'.length) (start stop : Nat) :
    SameResult (fun x y => x.1 = y.1 ∧ x.2.1.length = y.2.1.length ∧ x.2.2.1.length = y.2.2.1.length ∧ x.2.2.2 = y.2.2.2)
      (splitSide c s part lb rb start stop) (splitSide c s part lb' rb' start stop) := by
  unfold splitSide
  refine SameResult.bind (S := fun (x y : List Nat × List Nat × Nat × Nat) => Prefix x.2.2.1 x.1 y.1 ∧ Prefix x.2.2.2 x.2.1 y.2.1 ∧ x.2.2 = y.2.2)
    (SameResult.foldlM ?_ ⟨Prefix.zero hl, Prefix.zero hr, rfl⟩) ?_
  · rintro ⟨a, b, n, m⟩ ⟨a', b', n', m'⟩ i ⟨h1, h2, h3⟩
    simp only at h1 h2 h3
    obtain ⟨rfl, rfl⟩ := Prod.mk.inj h3
    simp only
    refine SameResult.same.bind fun bin _ hb => ?_
    subst hb
    refine SameResult.same.bind fun t _ hb => ?_
    subst hb
    cases t with
    | true => exact (h1.wr i).bind fun x y hxy => SameResult.pure ⟨hxy, h2, rfl⟩
    | false => exact (h2.wr i).bind fun x y hxy => SameResult.pure ⟨h1, hxy, rfl⟩
  · rintro ⟨a, b, n, m⟩ ⟨a', b', n', m'⟩ ⟨h1, h2, h3⟩
    simp only at h1 h2 h3
    obtain ⟨rfl, rfl⟩ := Prod.mk.inj h3
    simp only
    rw [h1.slice le_rfl, h2.slice le_rfl]
    refine SameResult.same.bind fun p _ hb => ?_
    subst hb
    refine SameResult.same.bind fun q _ hb => ?_
    subst hb
    exact SameResult.pure ⟨rfl, h1.len, h2.len, rfl⟩

theorem splitIndices_same (c : Ctx F) (s : Split F) {k k' : Work G} (h : WorkRel k k') (sT eT sV eV : Nat) :
    SameResult (fun x y => WorkRel x.1 y.1 ∧ x.2 = y.2) (splitIndices c s k sT eT sV eV) (splitIndices c s k' sT eT sV eV) := by
  unfold splitIndices
  rw [← h.partTrain, ← h.partValid]
  refine (splitSide_same c s _ h.left h.right sT eT).bind ?_
  rintro ⟨a, lb, rb, p⟩ ⟨a', lb', rb', p'⟩ ⟨rfl, h2, h3, rfl⟩
  refine (splitSide_same c s _ h2 h3 sV eV).bind ?_
  rintro ⟨b, lb2, rb2, q⟩ ⟨b', lb2', rb2', q'⟩ ⟨rfl, h5, h6, rfl⟩
  exact SameResult.pure ⟨⟨rfl, rfl, h5, h6, h.pool, h.sampled, h.rng⟩, rfl⟩

theorem sampleFeatures_same (R : Rng G) (c : Ctx F) {k k' : Work G} (h : WorkRel k k') :
    SameResult WorkRel (sampleFeatures R c k) (sampleFeatures R c k') := by
  unfold sampleFeatures
  split
  · rw [← h.pool, ← h.sampled, ← h.rng]
    refine SameResult.same.bind fun x _ hb => ?_
    subst hb
    exact SameResult.pure ⟨h.partTrain, h.partValid, h.left, h.right, rfl, rfl, rfl⟩
  · exact SameResult.pure h

theorem computeNodeContext_same (R : Rng G) (T : Task F Y P G) (c : Ctx F) {k k' : Work G} (h : WorkRel k k') (sT eT sV eV : Nat) :
    SameResult (fun x y => x.1 = y.1 ∧ WorkRel x.2 y.2) (computeNodeContext R T c k sT eT sV eV) (computeNodeContext R T c k' sT eT sV eV) := by
  unfold computeNodeContext
  refine (sampleFeatures_same R c h).bind fun k k' h => ?_
  rw [← h.partTrain, ← h.partValid, ← h.sampled]
  refine SameResult.same.bind fun _ _ hb => ?_
  subst hb
  refine SameResult.same.bind fun _ _ hb => ?_
  subst hb
  refine SameResult.same.bind fun _ _ hb => ?_
  subst hb
  exact SameResult.pure ⟨rfl, h⟩

/-! ## Tree arrays -/

/-- The same arrays except `bin_partitions` beyond `bin_partitions_end`. -/
structure ArrRel (t t' : TreeArr F P) : Prop where
  nodes : t.nodes = t'.nodes
  yPred : t.yPred = t'.yPred
  nodeCount : t.nodeCount = t'.nodeCount
  capacity : t.capacity = t'.capacity
  bpCapacity : t.bpCapacity = t'.bpCapacity
  bpEnd : t.bpEnd = t'.bpEnd
  binParts : Prefix t.bpEnd t.binParts t'.binParts
  fits : t.bpEnd ≤ t.binParts.length
  stored : ∀ n ∈ t.nodes, n.bpE ≤ t.bpEnd

theorem resizeTree'_same (z : P) {t t' : TreeArr F P} (h : ArrRel t t') (n : Nat) :
    SameResult (fun x y => ArrRel x y ∧ x.nodeCount = t.nodeCount) (resizeTree' z t n) (resizeTree' z t' n) := by
  unfold resizeTree'
  rw [← h.nodes, ← h.yPred]
  unfold resizeArr
  split
  · rw [bind_ok, bind_ok]
    split
    · refine SameResult.pure ⟨⟨rfl, rfl, h.nodeCount, rfl, h.bpCapacity, h.bpEnd, h.binParts, h.fits, ?_⟩, rfl⟩
      intro x hx
      simp only [List.mem_append, List.mem_map] at hx
      rcases hx with hx | ⟨_, _, rfl⟩
      · exact h.stored x hx
      · exact Nat.zero_le _
    · rfl
  · rfl

theorem resizeTree_same (z : P) {t t' : TreeArr F P} (h : ArrRel t t') (o : Option Nat) :
    SameResult (fun x y => ArrRel x y ∧ x.nodeCount = t.nodeCount) (resizeTree z t o) (resizeTree z t' o) := by
  cases o with
  | none =>
    simp only [resizeTree, ← h.capacity]
    split
    · exact resizeTree'_same z h 3
    · exact resizeTree'_same z h _
  | some n =>
    simp only [resizeTree, ← h.capacity, ← h.nodes]
    split
    · exact ⟨h, rfl⟩
    · exact resizeTree'_same z h n

theorem mem_wr {α : Type} {a b : List α} {i : Nat} {x y : α} (h : wr a i x = .ok b) (hy : y ∈ b) : y ∈ a ∨ y = x := by
  obtain ⟨_, rfl⟩ := wr_ok.1 h
  exact List.mem_or_eq_of_mem_set hy

theorem mem_rd {α : Type} {a : List α} {i : Nat} {x : α} (h : rd a i = .ok x) : x ∈ a := List.mem_of_getElem? (rd_ok.1 h)

theorem setChild_stored {nodes nodes' : List (Node F)} {r : Record F} {k B : Nat} (h : setChild nodes r k = .ok nodes')
    (hs : ∀ n ∈ nodes, n.bpE ≤ B) : ∀ n ∈ nodes', n.bpE ≤ B := by
  unfold setChild at h
  split at h
  · injection h with h; exact h ▸ hs
  · rw [bind_eq_ok] at h
    obtain ⟨pn, h1, h2⟩ := h
    intro n hn
    rcases mem_wr h2 hn with h3 | rfl
    · exact hs n h3
    · have := hs pn (mem_rd h1)
      split <;> exact this

theorem writeNode_same {t t' : TreeArr F P} (h : ArrRel t t') (r : Record F) (nc : NodeCtx F Y P) (i : SplitInfo) :
    SameResult ArrRel (writeNode t r nc i) (writeNode t' r nc i) := by
  unfold writeNode
  simp only [← h.nodes, ← h.nodeCount]
  cases h1 : rd t.nodes t.nodeCount with
  | error e => rfl
  | ok old =>
    rw [bind_ok, bind_ok]
    generalize hnode : (if i.isLeaf = true then _ else _ : Node F) = node
    have hb : node.bpE ≤ t.bpEnd := by
      rw [← hnode]
      have := h.stored old (mem_rd h1)
      split <;> exact this
    cases h2 : wr t.nodes t.nodeCount { node with isCat := i.isCat } with
    | error e => rfl
    | ok nodes =>
      rw [bind_ok, bind_ok]
      cases h3 : setChild nodes r t.nodeCount with
      | error e => rfl
      | ok nodes' =>
        refine SameResult.pure ⟨rfl, h.yPred, rfl, h.capacity, h.bpCapacity, h.bpEnd, h.binParts, h.fits, ?_⟩
        refine setChild_stored h3 fun n hn => ?_
        rcases mem_wr h2 hn with h4 | rfl
        · exact h.stored n h4
        · exact hb

theorem resizeBinParts_same (f g : Nat → Nat) {t t' : TreeArr F P} (h : ArrRel t t') (n : Nat) :
    SameResult (fun x y => ArrRel x y ∧ x.bpEnd = t.bpEnd ∧ x.nodes = t.nodes ∧ x.nodeCount = t.nodeCount)
      (resizeBinParts f t n) (resizeBinParts g t' n) := by
  unfold resizeBinParts
  rw [← h.bpCapacity, ← h.binParts.len]
  split
  · exact ⟨h, rfl, rfl, rfl⟩
  · refine SameResult.bind (S := fun a b => Prefix t.bpEnd a b ∧ t.bpEnd ≤ a.length) ?_ fun a b hab => ?_
    · have hp := h.binParts.resize (m := n) h.fits f g
      have hf := h.fits
      revert hp
      unfold resizeArr
      rw [← h.binParts.len]
      split
      · intro hp
        exact ⟨hp, by simp; omega⟩
      · exact id
    · exact SameResult.pure ⟨⟨h.nodes, h.yPred, h.nodeCount, h.capacity, rfl, h.bpEnd, hab.1, hab.2, h.stored⟩, rfl, rfl, rfl⟩

theorem writePartition_same (f g : Nat → Nat) {t t' : TreeArr F P} (h : ArrRel t t') (i : SplitInfo) :
    SameResult ArrRel (writePartition f t i) (writePartition g t' i) := by
  unfold writePartition
  simp only [← h.bpEnd, ← h.nodeCount]
  split
  · refine SameResult.bind (S := fun x y => ArrRel x y ∧ x.bpEnd = t.bpEnd ∧ x.nodes = t.nodes ∧ x.nodeCount = t.nodeCount) ?_ ?_
    · rw [← h.bpCapacity]
      split
      · exact resizeBinParts_same f g h _
      · exact ⟨h, rfl, rfl, rfl⟩
    · rintro u u' ⟨hu, e1, e2, e3⟩
      refine SameResult.bind (S := fun a b => Prefix (t.bpEnd + i.partition.length) a b ∧ t.bpEnd + i.partition.length ≤ a.length) ?_ fun a b hab => ?_
      · unfold wrSlice
        rw [← hu.binParts.len]
        split
        · next hc =>
          have hp := hu.binParts
          rw [e1] at hp
          refine ⟨⟨?_, ?_⟩, ?_⟩
          · have := hp.len
            simp [this]
          · have h1 := hp.len
            have h2 := hc.2.1
            rw [List.take_append_of_le_length (l₁ := u.binParts.take t.bpEnd ++ i.partition) (by rw [List.length_append, List.length_take]; omega),
              List.take_append_of_le_length (l₁ := u'.binParts.take t.bpEnd ++ i.partition) (by rw [List.length_append, List.length_take]; omega), hp.get]
          · have h2 := hc.2.1
            rw [List.length_append, List.length_append, List.length_take, List.length_drop]; omega
        · rfl
      · rw [← hu.nodes]
        cases h1 : rd u.nodes t.nodeCount with
        | error e => rfl
        | ok node =>
          rw [bind_ok, bind_ok]
          cases h2 : wr u.nodes t.nodeCount { node with bpS := t.bpEnd, bpE := t.bpEnd + i.partition.length } with
          | error e => rfl
          | ok nodes =>
            refine SameResult.pure ⟨rfl, hu.yPred, hu.nodeCount, hu.capacity, hu.bpCapacity, rfl, hab.1, hab.2, ?_⟩
            intro n hn
            rcases mem_wr h2 hn with h3 | rfl
            · have := hu.stored n h3
              simp only
              omega
            · exact le_rfl
  · rw [← h.nodes]
    cases h1 : rd t.nodes t.nodeCount with
    | error e => rfl
    | ok node =>
      rw [bind_ok, bind_ok]
      cases h2 : wr t.nodes t.nodeCount { node with bpS := 0, bpE := 0 } with
      | error e => rfl
      | ok nodes =>
        refine SameResult.pure ⟨rfl, h.yPred, rfl, h.capacity, h.bpCapacity, rfl, h.binParts, h.fits, ?_⟩
        intro n hn
        rcases mem_wr h2 hn with h3 | rfl
        · exact h.stored n h3
        · exact Nat.zero_le _

theorem addNode_same (z : P) (f g : Nat → Nat) {t t' : TreeArr F P} (h : ArrRel t t') (r : Record F) (nc : NodeCtx F Y P) (i : SplitInfo) :
    SameResult (fun x y => ArrRel x.1 y.1 ∧ x.2 = y.2) (addNode z f t r nc i) (addNode z g t' r nc i) := by
  unfold addNode
  simp only [← h.nodeCount, ← h.capacity]
  refine SameResult.bind (S := fun x y => ArrRel x y ∧ x.nodeCount = t.nodeCount) ?_ ?_
  · split
    · exact resizeTree_same z h none
    · exact ⟨h, rfl⟩
  · rintro u u' ⟨hu, _⟩
    refine (writeNode_same hu r nc i).bind fun v v' hv => ?_
    refine (writePartition_same f g hv i).bind fun x x' hx => ?_
    exact SameResult.pure ⟨⟨hx.nodes, hx.yPred, rfl, hx.capacity, hx.bpCapacity, hx.bpEnd, hx.binParts, hx.fits, hx.stored⟩, rfl⟩

/-! ## The loop -/

/-- The same stack up to the unused entries. -/
structure RecRel (s s' : Records F) : Prop where
  capacity : s.capacity = s'.capacity
  top : s.top = s'.top
  stack : Prefix s.top s.stack s'.stack
  fits : s.top ≤ s.stack.length

theorem push_same (gb gb' : Garbage F) {s s' : Records F} (h : RecRel s s') (r : Record F) :
    SameResult RecRel (s.push gb r) (s'.push gb' r) := by
  unfold Records.push
  refine SameResult.bind (S := RecRel) ?_ fun u u' hu => ?_
  · rw [← h.capacity, ← h.top]
    split
    · refine SameResult.bind (S := fun a b => Prefix s.top a b ∧ s.top ≤ a.length) ?_ fun a b hab => ?_
      · have hp := h.stack.resize (m := s.capacity * 2) h.fits gb.record gb'.record
        have hf := h.fits
        revert hp
        unfold resizeArr
        rw [← h.stack.len]
        split
        · intro hp
          exact ⟨hp, by simp; omega⟩
        · exact id
      · exact SameResult.pure ⟨rfl, rfl, hab.1, hab.2⟩
    · exact h
  · rw [← hu.top]
    have := hu.stack.wr r
    revert this
    cases h1 : wr u.stack u.top r with
    | error e =>
      cases h2 : wr u'.stack u.top r with
      | error e' => exact id
      | ok b => intro h0; exact h0.elim
    | ok a =>
      cases h2 : wr u'.stack u.top r with
      | error e' => intro h0; exact h0.elim
      | ok b =>
        intro h0
        obtain ⟨hl, rfl⟩ := wr_ok.1 h1
        exact SameResult.pure ⟨hu.capacity, rfl, h0, by simp; omega⟩

theorem pop_same {s s' : Records F} (h : RecRel s s') :
    SameResult (fun x y => x.1 = y.1 ∧ RecRel x.2 y.2) s.pop s'.pop := by
  unfold Records.pop
  rw [← h.top]
  unfold usub
  have hf := h.fits
  split
  · next h1 =>
    rw [bind_ok, bind_ok, h.stack.rd (by omega)]
    refine SameResult.same.bind fun r _ hb => ?_
    subst hb
    exact SameResult.pure ⟨rfl, h.capacity, rfl, h.stack.mono (Nat.sub_le _ _), by simp only; omega⟩
  · rfl

/-- The same state of the loop up to unused entries. -/
structure GRel (s s' : GState F P G) : Prop where
  tree : ArrRel s.tree s'.tree
  recs : RecRel s.recs s'.recs
  work : WorkRel s.work s'.work

theorem chooseSplit_same (T : Task F Y P G) (c : Ctx F) (r : Record F) (nc : NodeCtx F Y P) {k k' : Work G} (h : WorkRel k k') :
    chooseSplit T c r nc k = chooseSplit T c r nc k' := by
  unfold chooseSplit
  rw [h.sampled, h.rng]

theorem growStep_same (R : Rng G) (T : Task F Y P G) (c : Ctx F) (gb gb' : Garbage F) {s s' : GState F P G} (h : GRel s s') :
    SameResult GRel (growStep R T c gb s) (growStep R T c gb' s') := by
  unfold growStep
  refine (pop_same h.recs).bind ?_
  rintro ⟨r, recs⟩ ⟨r', recs'⟩ ⟨rfl, hr⟩
  simp only
  refine (computeNodeContext_same R T c h.work _ _ _ _).bind ?_
  rintro ⟨nc, k⟩ ⟨nc', k'⟩ ⟨rfl, hk⟩
  simp only at hk ⊢
  rw [chooseSplit_same T c r nc hk]
  refine SameResult.same.bind ?_
  rintro ⟨sp, g⟩ _ rfl
  simp only
  have hk' : WorkRel { k with rng := g } { k' with rng := g } :=
    ⟨hk.partTrain, hk.partValid, hk.left, hk.right, hk.pool, hk.sampled, rfl⟩
  refine (addNode_same T.zeroP gb.bin gb'.bin h.tree r nc sp.info).bind ?_
  rintro ⟨t, j⟩ ⟨t', j'⟩ ⟨ht, rfl⟩
  simp only at ht ⊢
  rw [← ht.yPred]
  refine SameResult.same.bind fun ps _ hb => ?_
  subst hb
  have hT : ArrRel { t with yPred := ps } { t' with yPred := ps } :=
    ⟨ht.nodes, rfl, ht.nodeCount, ht.capacity, ht.bpCapacity, ht.bpEnd, ht.binParts, ht.fits, ht.stored⟩
  split
  · refine (splitIndices_same c sp hk' _ _ _ _).bind ?_
    rintro ⟨w, pT, pV⟩ ⟨w', pT', pV'⟩ ⟨hw, e⟩
    simp only at e hw
    obtain ⟨rfl, rfl⟩ := Prod.mk.inj e
    simp only
    refine (push_same gb gb' hr _).bind fun r1 r1' h1 => ?_
    refine (push_same gb gb' h1 _).bind fun r2 r2' h2 => ?_
    exact SameResult.pure ⟨hT, h2, hw⟩
  · exact SameResult.pure ⟨hT, hr, hk'⟩

theorem growLoop_same (R : Rng G) (T : Task F Y P G) (c : Ctx F) (gb gb' : Garbage F) (n : Nat) {s s' : GState F P G} (h : GRel s s') :
    SameResult GRel (growLoop R T c gb n s) (growLoop R T c gb' n s') := by
  induction n generalizing s s' with
  | zero =>
    unfold growLoop Records.nonEmpty
    rw [h.recs.top]
    split
    · rfl
    · exact h
  | succ n ih =>
    unfold growLoop Records.nonEmpty
    rw [h.recs.top]
    split
    · exact (growStep_same R T c gb gb' h).bind fun x y hxy => ih hxy
    · exact h

theorem growRaw_same (R : Rng G) (T : Task F Y P G) (c : Ctx F) (gb gb' : Garbage F) (seed : Nat) (train valid : List Nat) :
    SameResult GRel (growRaw R T c gb (initWork R c gb seed train valid)) (growRaw R T c gb' (initWork R c gb' seed train valid)) := by
  unfold growRaw
  refine SameResult.bind (S := fun (t t' : TreeArr F P) => ArrRel t t' ∧ t.nodeCount = (TreeArr.empty : TreeArr F P).nodeCount)
    (resizeTree_same T.zeroP (t := TreeArr.empty) (t' := TreeArr.empty)
      ⟨rfl, rfl, rfl, rfl, rfl, rfl, ⟨rfl, rfl⟩, le_rfl, by simp [TreeArr.empty]⟩ (some 2047)) fun t t' ht => ?_
  refine SameResult.bind (S := RecRel) (push_same gb gb' (s := Records.init gb 10) (s' := Records.init gb' 10) ⟨rfl, rfl, Prefix.zero (by simp [Records.init]), Nat.zero_le _⟩ _)
    fun r r' hr => ?_
  exact growLoop_same R T c gb gb' _ ⟨ht.1, hr, ⟨rfl, rfl, by simp [initWork], by simp [initWork], rfl, rfl, rfl⟩⟩

theorem weightStep_stored {step : F} {nodes nodes' : List (Node F)} {k B : Nat} (h : weightStep step nodes k = .ok nodes')
    (hs : ∀ n ∈ nodes, n.bpE ≤ B) : ∀ n ∈ nodes', n.bpE ≤ B := by
  unfold weightStep at h
  rw [bind_eq_ok] at h
  obtain ⟨node, h1, h⟩ := h
  have hb := hs node (mem_rd h1)
  have key : ∀ x, wr nodes k { node with logW := x } = .ok nodes' → ∀ n ∈ nodes', n.bpE ≤ B := by
    intro x hx n hn
    rcases mem_wr hx hn with h3 | rfl
    · exact hs n h3
    · exact hb
  simp only at h
  split at h
  · exact key _ h
  · rw [bind_eq_ok] at h
    obtain ⟨l, _, h⟩ := h
    rw [bind_eq_ok] at h
    obtain ⟨r, _, h⟩ := h
    rw [bind_eq_ok] at h
    obtain ⟨ln, _, h⟩ := h
    rw [bind_eq_ok] at h
    obtain ⟨rn, _, h⟩ := h
    split at h
    · exact key _ h
    · exact absurd h (by simp)

theorem growEnd_same (c : Ctx F) {s s' : GState F P G} (h : GRel s s') :
    SameResult (fun x y => ArrRel x.1 y.1 ∧ WorkRel x.2 y.2) (growEnd c s) (growEnd c s') := by
  unfold growEnd
  split
  · rw [← h.tree.nodes, ← h.tree.nodeCount]
    cases hc : computeTreeWeights s.tree.nodes s.tree.nodeCount c.step with
    | error e => rfl
    | ok nodes =>
      refine SameResult.pure ⟨⟨rfl, h.tree.yPred, h.tree.nodeCount, h.tree.capacity, h.tree.bpCapacity, h.tree.bpEnd, h.tree.binParts, h.tree.fits, ?_⟩, h.work⟩
      exact foldlM_inv_of_ok (I := fun _ nodes => ∀ n ∈ nodes, n.bpE ≤ s.tree.bpEnd) h.tree.stored hc
        (fun _ _ _ _ _ _ hI he => weightStep_stored he hI)
  · exact SameResult.pure ⟨h.tree, h.work⟩

/-- Fitting a tree with two contents of uninitialised memory. -/
theorem treeFit_same (R : Rng G) (T : F → Task F Y P G) (c : Ctx F) (gb gb' : Garbage F) (seed : Nat) (d : F) (train valid : List Nat) :
    SameResult (fun o o' => SameButScratch o o' ∧ ∀ n ∈ o.arr.nodes, n.bpE ≤ o.arr.bpEnd)
      (TreeObj.fit R T c gb seed d train valid) (TreeObj.fit R T c gb' seed d train valid) := by
  unfold TreeObj.fit
  rw [fitTree_eq, fitTree_eq]
  refine SameResult.bind (S := fun x y => ArrRel x.1 y.1 ∧ WorkRel x.2 y.2)
    ((growRaw_same R (T d) c gb gb' seed train valid).bind fun s s' hs => growEnd_same c hs) ?_
  rintro ⟨a, w⟩ ⟨a', w'⟩ ⟨ha, hw⟩
  exact SameResult.pure ⟨⟨ha.nodes, ha.yPred, ha.nodeCount, ha.capacity, ha.bpCapacity, ha.bpEnd, ha.binParts.len,
    fun j hj => ha.binParts.getElem? hj, rfl, rfl, rfl, rfl, hw.partTrain, hw.partValid, hw.pool, hw.sampled, hw.rng⟩, ha.stored⟩

theorem buildTree_same (R : Rng G) (T : F → Task F Y P G) (draw : Nat → List Nat) (depth : Nat) (c : Ctx F) (gb gb' : Garbage F) (d : F)
    (seed : Nat) : SameResult (fun o o' => SameButScratch o o' ∧ ∀ n ∈ o.arr.nodes, n.bpE ≤ o.arr.bpEnd)
      (buildTree R T draw depth c gb d seed) (buildTree R T draw depth c gb' d seed) := by
  unfold buildTree
  refine SameResult.same.bind fun b _ hb => ?_
  subst hb
  refine SameResult.same.bind fun w _ hb => ?_
  subst hb
  exact treeFit_same R T _ gb gb' seed d _ _

/-! ## Predictions -/

theorem findLeafFrom_same {o o' : TreeObj F P G} (h : SameButScratch o o') (hs : ∀ n ∈ o.arr.nodes, n.bpE ≤ o.arr.bpEnd) (fba : FBA) (i : Nat) :
    ∀ n k, findLeafFrom o.arr fba i n k = findLeafFrom o'.arr fba i n k := by
  intro n
  induction n with
  | zero => intro k; rfl
  | succ n ih =>
    intro k
    unfold findLeafFrom
    rw [← h.nodes]
    cases hr : rd o.arr.nodes k with
    | error e => rfl
    | ok node =>
      rw [bind_ok, bind_ok]
      have : childOf o.arr fba i node = childOf o'.arr fba i node := by
        unfold childOf
        rw [slice_congr fun j _ hj => h.binParts j (hj.trans_le (hs node (mem_rd hr)))]
      rw [this]
      simp only [ih]

theorem predict_same {o o' : TreeObj F P G} (h : SameButScratch o o') (hs : ∀ n ∈ o.arr.nodes, n.bpE ≤ o.arr.bpEnd)
    (mix : F → P → P → P) (fba : FBA) : o.predict mix fba = o'.predict mix fba := by
  unfold TreeObj.predict treePredict predictRow findLeaf
  simp only [findLeafFrom_same h hs, ← h.nodes, ← h.yPred, ← h.nodeCount, ← h.aggregation, ← h.step]

end Verif
