import Verif.Spec.Pickle
import Verif.Proofs.Scratch

/-! Sizes and links of the arrays of fitted trees, for all inputs. -/
namespace Verif

open Spec

set_option linter.unusedSectionVars false

variable {F Y P G : Type} [Num F]

/-- `I` holds for the value of a computation that succeeds. -/
def Post {α : Type} (I : α → Prop) (m : M α) : Prop := ∀ x, m = .ok x → I x

theorem Post.bind {α β : Type} {I : α → Prop} {J : β → Prop} {m : M α} {f : α → M β} (h : Post I m) (hf : ∀ x, I x → Post J (f x)) :
    Post J (m >>= f) := by
  intro y hy
  rw [bind_eq_ok] at hy
  obtain ⟨x, h1, h2⟩ := hy
  exact hf x (h x h1) y h2

theorem Post.ok {α : Type} {I : α → Prop} {x : α} (h : I x) : Post I (.ok x) := by
  intro y hy
  injection hy with hy
  exact hy ▸ h

theorem Post.pure {α : Type} {I : α → Prop} {x : α} (h : I x) : Post I (pure x : M α) := Post.ok h

theorem Post.error {α : Type} {I : α → Prop} {e : Err} : Post I (.error e : M α) := by
  intro y hy
  exact absurd hy (by simp)

theorem Post.self {α : Type} (m : M α) : Post (fun x => m = .ok x) m := fun _ h => h

theorem Post.trivial {α : Type} (m : M α) : Post (fun _ => True) m := fun _ _ => True.intro

theorem Post.mono {α : Type} {I J : α → Prop} {m : M α} (h : Post I m) (hij : ∀ x, I x → J x) : Post J m := fun x hx => hij x (h x hx)

theorem Post.foldlM {α β : Type} {I : β → Prop} {f : β → α → M β} (l : List α) {b : β} (hb : I b) (hf : ∀ b a, I b → Post I (f b a)) :
    Post I (l.foldlM f b) := by
  induction l generalizing b with
  | nil => exact Post.pure hb
  | cons a l ih => rw [List.foldlM_cons]; exact (hf b a hb).bind fun x hx => ih hx

theorem wr_length {α : Type} {a b : List α} {i : Nat} {x : α} (h : wr a i x = .ok b) : b.length = a.length := by
  obtain ⟨_, rfl⟩ := wr_ok.1 h
  simp

theorem wrSlice_length {α : Type} {a b v : List α} {s e : Nat} (h : wrSlice a s e v = .ok b) : b.length = a.length := by
  unfold wrSlice at h
  split at h
  · rename_i hc
    injection h with h
    subst h
    simp only [List.length_append, List.length_take, List.length_drop]
    omega
  · exact absurd h (by simp)

theorem resizeArr_length {α : Type} {f : Nat → α} {a b : List α} {n : Nat} (h : resizeArr f a n = .ok b) : b.length = n := by
  unfold resizeArr at h
  split at h
  · injection h with h
    subst h
    simp only [List.length_append, List.length_map, List.length_range]
    omega
  · exact absurd h (by simp)

theorem resizeArr_mem {α : Type} {f : Nat → α} {a b : List α} {n : Nat} (h : resizeArr f a n = .ok b) {x : α} (hx : x ∈ b) :
    x ∈ a ∨ ∃ i, x = f i := by
  unfold resizeArr at h
  split at h
  · injection h with h
    subst h
    rcases List.mem_append.1 hx with h | h
    · exact .inl h
    · obtain ⟨i, _, rfl⟩ := List.mem_map.1 h
      exact .inr ⟨i, rfl⟩
  · exact absurd h (by simp)

/-- Parent and children are among the first `B` nodes. -/
structure Links (B : Nat) (n : Node F) : Prop where
  left : ∀ l, n.left = some l → l < B ∨ l = 0
  right : ∀ l, n.right = some l → l < B ∨ l = 0
  parent : ∀ l, n.parent = some l → l < B ∨ l = 0

theorem Links.mono {B B' : Nat} {n : Node F} (h : Links B n) (hb : B ≤ B') : Links B' n :=
  ⟨fun l hl => (h.left l hl).imp (fun x => lt_of_lt_of_le x hb) id, fun l hl => (h.right l hl).imp (fun x => lt_of_lt_of_le x hb) id,
    fun l hl => (h.parent l hl).imp (fun x => lt_of_lt_of_le x hb) id⟩

theorem Links.zero (B : Nat) : Links B (Node.zero : Node F) :=
  ⟨fun l h => .inr (by injection h with h; exact h.symm), fun l h => .inr (by injection h with h; exact h.symm),
    fun l h => .inr (by injection h with h; exact h.symm)⟩

/-- Lengths and links of the arrays of a tree. -/
structure ArrOK (B : Nat) (t : TreeArr F P) : Prop where
  lenN : t.nodes.length = t.capacity
  lenP : t.yPred.length = t.capacity
  lenB : t.binParts.length = t.bpCapacity
  fits : t.bpEnd ≤ t.bpCapacity
  stored : ∀ n ∈ t.nodes, n.bpE ≤ t.bpEnd
  links : ∀ n ∈ t.nodes, Links B n

theorem ArrOK.mono {B B' : Nat} {t : TreeArr F P} (h : ArrOK B t) (hb : B ≤ B') : ArrOK B' t :=
  ⟨h.lenN, h.lenP, h.lenB, h.fits, h.stored, fun n hn => (h.links n hn).mono hb⟩

theorem ArrOK.setNodes {B : Nat} {t : TreeArr F P} (h : ArrOK B t) {k : Nat} {nodes : List (Node F)} {x : Node F} (hw : wr t.nodes k x = .ok nodes)
    (hb : x.bpE ≤ t.bpEnd) (hl : Links B x) : ArrOK B { t with nodes := nodes } := by
  refine ⟨(wr_length hw).trans h.lenN, h.lenP, h.lenB, h.fits, fun n hn => ?_, fun n hn => ?_⟩
  · rcases mem_wr hw hn with h1 | rfl
    · exact h.stored n h1
    · exact hb
  · rcases mem_wr hw hn with h1 | rfl
    · exact h.links n h1
    · exact hl

theorem resizeTree'_post (z : P) {B : Nat} {t : TreeArr F P} (h : ArrOK B t) (n : Nat) :
    Post (fun t' => ArrOK B t' ∧ t'.nodeCount = t.nodeCount) (resizeTree' z t n) := by
  unfold resizeTree'
  refine (Post.self _).bind fun nodes h1 => (Post.self _).bind fun yPred h2 => Post.pure ⟨⟨resizeArr_length h1, resizeArr_length h2, h.lenB, h.fits, ?_, ?_⟩, rfl⟩
  · intro n hn
    rcases resizeArr_mem h1 hn with h3 | ⟨_, rfl⟩
    · exact h.stored n h3
    · exact Nat.zero_le _
  · intro n hn
    rcases resizeArr_mem h1 hn with h3 | ⟨_, rfl⟩
    · exact h.links n h3
    · exact Links.zero B

theorem resizeTree_post (z : P) {B : Nat} {t : TreeArr F P} (h : ArrOK B t) (n : Option Nat) :
    Post (fun t' => ArrOK B t' ∧ t'.nodeCount = t.nodeCount) (resizeTree z t n) := by
  cases n with
  | none =>
    simp only [resizeTree]
    split <;> exact resizeTree'_post z h _
  | some n =>
    simp only [resizeTree]
    split
    · exact Post.ok ⟨h, rfl⟩
    · exact resizeTree'_post z h _

theorem setChild_post {B : Nat} {t : TreeArr F P} (h : ArrOK B t) (r : Record F) {k : Nat} (hk : k < B) :
    Post (fun nodes => ArrOK B { t with nodes := nodes }) (setChild t.nodes r k) := by
  unfold setChild
  split
  · exact Post.ok h
  · refine (Post.self _).bind fun pn h1 => fun nodes h2 => ?_
    have hm := mem_rd h1
    refine h.setNodes h2 ?_ ?_
    · split <;> exact h.stored pn hm
    · split
      · exact ⟨fun l hl => by injection hl with hl; exact .inl (hl ▸ hk), (h.links pn hm).right, (h.links pn hm).parent⟩
      · exact ⟨(h.links pn hm).left, fun l hl => by injection hl with hl; exact .inl (hl ▸ hk), (h.links pn hm).parent⟩

theorem writeNode_post {B : Nat} {t : TreeArr F P} (h : ArrOK B t) {r : Record F} (hr : ∀ p, r.parent = some p → p < B) (nc : NodeCtx F Y P)
    (i : SplitInfo) (hk : t.nodeCount < B) : Post (fun t' => ArrOK B t' ∧ t'.nodeCount = t.nodeCount) (writeNode t r nc i) := by
  unfold writeNode
  refine (Post.self _).bind fun old h1 => (Post.self _).bind fun nodes h2 => ?_
  have hm := mem_rd h1
  have ho := h.stored old hm
  have hl := h.links old hm
  have h3 : ArrOK B { t with nodes := nodes } := by
    refine h.setNodes h2 ?_ ?_
    · split <;> exact ho
    · split
      · exact ⟨fun l hl => by simp at hl, fun l hl => by simp at hl, fun l hl => .inl (hr l hl)⟩
      · exact ⟨hl.left, hl.right, fun l hl => .inl (hr l hl)⟩
  exact (setChild_post h3 r hk).bind fun nodes' h4 => Post.pure ⟨⟨h4.lenN, h4.lenP, h4.lenB, h4.fits, h4.stored, h4.links⟩, rfl⟩

theorem resizeBinParts_post (f : Nat → Nat) {B : Nat} {t : TreeArr F P} (h : ArrOK B t) (n : Nat) (hn : t.bpEnd ≤ n) :
    Post (fun t' => ArrOK B t' ∧ t'.nodeCount = t.nodeCount ∧ t'.bpEnd = t.bpEnd) (resizeBinParts f t n) := by
  unfold resizeBinParts
  split
  · exact Post.ok ⟨h, rfl, rfl⟩
  · exact (Post.self _).bind fun b h1 => Post.pure ⟨⟨h.lenN, h.lenP, resizeArr_length h1, hn, h.stored, h.links⟩, rfl, rfl⟩

theorem writePartition_post (f : Nat → Nat) {B : Nat} {t : TreeArr F P} (h : ArrOK B t) (i : SplitInfo) :
    Post (fun t' => ArrOK B t' ∧ t'.nodeCount = t.nodeCount) (writePartition f t i) := by
  unfold writePartition
  dsimp only
  split
  · refine Post.bind (I := fun t' => ArrOK B t' ∧ t'.nodeCount = t.nodeCount ∧ t'.bpEnd = t.bpEnd) ?_ ?_
    · split
      · exact resizeBinParts_post f h _ (by omega)
      · exact Post.ok ⟨h, rfl, rfl⟩
    · rintro u ⟨hu, hc, he⟩
      refine (Post.self _).bind fun bp h1 => (Post.self _).bind fun node h2 => (Post.self _).bind fun nodes h3 => Post.pure ⟨?_, hc⟩
      have hm := mem_rd h2
      have hlen : t.bpEnd + i.partition.length ≤ u.binParts.length := by
        unfold wrSlice at h1
        split at h1
        · rename_i hh; exact hh.2.1
        · exact absurd h1 (by simp)
      refine ⟨(wr_length h3).trans hu.lenN, hu.lenP, (wrSlice_length h1).trans hu.lenB, by simp only; rw [← hu.lenB]; exact hlen, fun n hn => ?_, fun n hn => ?_⟩
      · rcases mem_wr h3 hn with h4 | rfl
        · have := hu.stored n h4
          simp only
          omega
        · exact le_rfl
      · rcases mem_wr h3 hn with h4 | rfl
        · exact hu.links n h4
        · exact ⟨(hu.links node hm).left, (hu.links node hm).right, (hu.links node hm).parent⟩
  · refine (Post.self _).bind fun node h2 => (Post.self _).bind fun nodes h3 => Post.pure ⟨?_, rfl⟩
    have hm := mem_rd h2
    exact h.setNodes h3 (Nat.zero_le _) ⟨(h.links node hm).left, (h.links node hm).right, (h.links node hm).parent⟩

theorem addNode_post (z : P) (f : Nat → Nat) {t : TreeArr F P} (h : ArrOK t.nodeCount t) {r : Record F}
    (hr : ∀ p, r.parent = some p → p < t.nodeCount) (nc : NodeCtx F Y P) (i : SplitInfo) :
    Post (fun x => ArrOK x.1.nodeCount x.1 ∧ x.1.nodeCount = t.nodeCount + 1 ∧ x.2 = t.nodeCount) (addNode z f t r nc i) := by
  unfold addNode
  dsimp only
  have h := h.mono (Nat.le_succ _)
  refine Post.bind (I := fun t' => ArrOK (t.nodeCount + 1) t' ∧ t'.nodeCount = t.nodeCount) ?_ ?_
  · split
    · exact resizeTree_post z h none
    · exact Post.ok ⟨h, rfl⟩
  · rintro u ⟨hu, hc⟩
    refine (writeNode_post hu (fun p hp => (hr p hp).trans (Nat.lt_succ_self _)) nc i (by omega)).bind ?_
    rintro v ⟨hv, hc'⟩
    refine (writePartition_post f hv i).bind ?_
    rintro x ⟨hx, hc''⟩
    exact Post.pure ⟨⟨hx.lenN, hx.lenP, hx.lenB, hx.fits, hx.stored, hx.links⟩, rfl, rfl⟩

/-- The parents in the stack are nodes that exist. -/
structure RecOK (B : Nat) (s : Records F) : Prop where
  parent : ∀ (i : Nat) (r : Record F), i < s.top → s.stack[i]? = some r → ∀ p, r.parent = some p → p < B

theorem pop_post {B : Nat} {s : Records F} (h : RecOK B s) : Post (fun x => (∀ p, x.1.parent = some p → p < B) ∧ RecOK B x.2) s.pop := by
  unfold Records.pop
  refine (Post.self _).bind fun top h1 => (Post.self _).bind fun r h2 => Post.pure ?_
  unfold usub at h1
  split at h1
  · injection h1 with h1
    exact ⟨h.parent top r (by omega) (rd_ok.1 h2), ⟨fun i r hi he => h.parent i r (by simp only at hi; omega) he⟩⟩
  · exact absurd h1 (by simp)

theorem push_post (gb : Garbage F) {B : Nat} {s : Records F} (h : RecOK B s) {r : Record F} (hr : ∀ p, r.parent = some p → p < B) (hs : s.top ≤ s.stack.length) :
    Post (fun x => RecOK B x ∧ x.top = s.top + 1 ∧ x.top ≤ x.stack.length) (s.push gb r) := by
  unfold Records.push
  refine Post.bind (I := fun x => RecOK B x ∧ x.top = s.top) ?_ ?_
  · split
    · refine (Post.self _).bind fun st h1 => Post.pure ⟨⟨fun i r hi he => ?_⟩, rfl⟩
      simp only at hi he
      unfold resizeArr at h1
      split at h1
      · injection h1 with h1
        subst h1
        rw [List.getElem?_append_left (by omega)] at he
        exact h.parent i r hi he
      · exact absurd h1 (by simp)
    · exact Post.ok ⟨h, rfl⟩
  · rintro u ⟨hu, ht⟩
    refine (Post.self _).bind fun st h1 => Post.pure ⟨⟨fun i r' hi he => ?_⟩, by simp only; omega, ?_⟩
    · obtain ⟨hlt, rfl⟩ := wr_ok.1 h1
      simp only at hi he
      rw [List.getElem?_set] at he
      split at he
      · rename_i hi'
        injection he with he
        exact he ▸ hr
      · exact hu.parent i r' (by omega) he
    · obtain ⟨hlt, rfl⟩ := wr_ok.1 h1
      simp only [List.length_set]
      omega

/-- Lengths of the arrays of the tree context. -/
structure WorkLen (c : Ctx F) (nT nV : Nat) (k : Work G) : Prop where
  train : k.partTrain.length = nT
  valid : k.partValid.length = nV
  left : k.leftBuf.length = c.fba.nSamples
  right : k.rightBuf.length = c.fba.nSamples

theorem splitSide_post (c : Ctx F) (s : Split F) (part lb rb : List Nat) (a b : Nat) :
    Post (fun x => x.1.length = part.length ∧ x.2.1.length = lb.length ∧ x.2.2.1.length = rb.length) (splitSide c s part lb rb a b) := by
  unfold splitSide
  refine Post.bind (I := fun x => x.1.length = lb.length ∧ x.2.1.length = rb.length) ?_ ?_
  · refine Post.foldlM _ ⟨rfl, rfl⟩ ?_
    rintro ⟨l, r, nl, nr⟩ i ⟨h1, h2⟩
    refine (Post.trivial _).bind fun bin _ => (Post.trivial _).bind fun b _ => ?_
    split
    · exact (Post.self _).bind fun l' h3 => Post.pure ⟨(wr_length h3).trans h1, h2⟩
    · exact (Post.self _).bind fun l' h3 => Post.pure ⟨h1, (wr_length h3).trans h2⟩
  · rintro ⟨l, r, nl, nr⟩ ⟨h1, h2⟩
    refine (Post.self _).bind fun p1 h3 => (Post.self _).bind fun p2 h4 => Post.pure ⟨(wrSlice_length h4).trans (wrSlice_length h3), h1, h2⟩

theorem splitIndices_post {c : Ctx F} {nT nV : Nat} {k : Work G} (h : WorkLen c nT nV k) (s : Split F) (sT eT sV eV : Nat) :
    Post (fun x => WorkLen c nT nV x.1) (splitIndices c s k sT eT sV eV) := by
  unfold splitIndices
  refine (splitSide_post c s _ _ _ _ _).bind ?_
  rintro ⟨pt, lb, rb, pos⟩ ⟨h1, h2, h3⟩
  refine (splitSide_post c s _ _ _ _ _).bind ?_
  rintro ⟨pv, lb', rb', pos'⟩ ⟨h4, h5, h6⟩
  exact Post.pure ⟨h1.trans h.train, h4.trans h.valid, h5.trans (h2.trans h.left), h6.trans (h3.trans h.right)⟩

theorem sampleFeatures_post (R : Rng G) {c : Ctx F} {nT nV : Nat} {k : Work G} (h : WorkLen c nT nV k) :
    Post (fun x => WorkLen c nT nV x) (sampleFeatures R c k) := by
  unfold sampleFeatures
  split
  · refine (Post.trivial _).bind fun x _ => Post.pure ⟨h.train, h.valid, h.left, h.right⟩
  · exact Post.pure h

theorem computeNodeContext_post (R : Rng G) (T : Task F Y P G) {c : Ctx F} {nT nV : Nat} {k : Work G} (h : WorkLen c nT nV k) (sT eT sV eV : Nat) :
    Post (fun x => WorkLen c nT nV x.2) (computeNodeContext R T c k sT eT sV eV) := by
  unfold computeNodeContext
  exact (sampleFeatures_post R h).bind fun k hk => (Post.trivial _).bind fun _ _ => (Post.trivial _).bind fun _ _ =>
    (Post.trivial _).bind fun _ _ => Post.pure hk

/-- State of the loop of `grow`. -/
structure GOK' (c : Ctx F) (nT nV : Nat) (s : GState F P G) : Prop where
  tree : ArrOK s.tree.nodeCount s.tree
  recs : RecOK s.tree.nodeCount s.recs
  top : s.recs.top ≤ s.recs.stack.length
  work : WorkLen c nT nV s.work

theorem growStep_post (R : Rng G) (T : Task F Y P G) {c : Ctx F} (gb : Garbage F) {nT nV : Nat} {s : GState F P G} (h : GOK' c nT nV s) :
    Post (fun s' => GOK' c nT nV s' ∧ 0 < s'.tree.nodeCount) (growStep R T c gb s) := by
  unfold growStep
  refine Post.bind (I := fun x => ((∀ p, x.1.parent = some p → p < s.tree.nodeCount) ∧ RecOK s.tree.nodeCount x.2) ∧ x.2.top ≤ x.2.stack.length) ?_ ?_
  · intro x hx
    refine ⟨pop_post h.recs x hx, ?_⟩
    unfold Records.pop at hx
    rw [bind_eq_ok] at hx
    obtain ⟨top, h1, hx⟩ := hx
    rw [bind_eq_ok] at hx
    obtain ⟨r, h2, hx⟩ := hx
    injection hx with hx
    subst hx
    unfold usub at h1
    have := h.top
    split at h1
    · injection h1 with h1
      simp only
      omega
    · exact absurd h1 (by simp)
  rintro ⟨r, recs⟩ ⟨⟨hr, hrecs⟩, htop⟩
  dsimp only
  refine (computeNodeContext_post R T h.work _ _ _ _).bind ?_
  rintro ⟨nc, work⟩ hw
  dsimp only
  refine (Post.trivial _).bind ?_
  rintro ⟨sp, g⟩ -
  dsimp only
  refine (addNode_post T.zeroP gb.bin h.tree hr nc sp.info).bind ?_
  rintro ⟨tree, k⟩ ⟨ht, hc, hk⟩
  dsimp only at ht hc hk ⊢
  refine (Post.self _).bind fun yPred hy => ?_
  have ht' : ArrOK tree.nodeCount { tree with yPred := yPred } := ⟨ht.lenN, (wr_length hy).trans ht.lenP, ht.lenB, ht.fits, ht.stored, ht.links⟩
  have hrecs' : RecOK tree.nodeCount recs := ⟨fun i r hi he p hp => (hrecs.parent i r hi he p hp).trans (by omega)⟩
  have hw' : WorkLen c nT nV { work with rng := g } := ⟨hw.train, hw.valid, hw.left, hw.right⟩
  split
  · refine (splitIndices_post hw' sp _ _ _ _).bind ?_
    rintro ⟨work', posT, posV⟩ hw''
    dsimp only
    refine (push_post gb hrecs' (fun p hp => by simp only [leftRecord, Option.some.injEq] at hp; omega) htop).bind ?_
    rintro recs1 ⟨h1, _, h2⟩
    refine (push_post gb h1 (fun p hp => by simp only [rightRecord, Option.some.injEq] at hp; omega) h2).bind ?_
    rintro recs2 ⟨h3, _, h4⟩
    exact Post.pure ⟨⟨ht', h3, h4, hw''⟩, by simp only; omega⟩
  · exact Post.pure ⟨⟨ht', hrecs', htop, hw'⟩, by simp only; omega⟩

theorem growLoop_post (R : Rng G) (T : Task F Y P G) {c : Ctx F} (gb : Garbage F) {nT nV : Nat} (n : Nat) {s : GState F P G} (h : GOK' c nT nV s)
    (h0 : 0 < s.recs.top ∨ 0 < s.tree.nodeCount) : Post (fun s' => GOK' c nT nV s' ∧ 0 < s'.tree.nodeCount) (growLoop R T c gb n s) := by
  induction n generalizing s with
  | zero =>
    unfold growLoop Records.nonEmpty
    split
    · exact Post.error
    · rename_i hn
      exact Post.ok ⟨h, by simp only [decide_eq_true_eq] at hn; omega⟩
  | succ n ih =>
    unfold growLoop Records.nonEmpty
    split
    · exact (growStep_post R T gb h).bind fun s' hs' => ih hs'.1 (.inr hs'.2)
    · rename_i hn
      exact Post.ok ⟨h, by simp only [decide_eq_true_eq] at hn; omega⟩

theorem weightStep_post {B : Nat} {t : TreeArr F P} (h : ArrOK B t) (step : F) (k : Nat) :
    Post (fun nodes => ArrOK B { t with nodes := nodes }) (weightStep step t.nodes k) := by
  unfold weightStep
  refine (Post.self _).bind fun node h1 => ?_
  have hm := mem_rd h1
  have key : ∀ x, Post (fun nodes => ArrOK B { t with nodes := nodes }) (wr t.nodes k { node with logW := x }) := fun x nodes hw =>
    h.setNodes hw (h.stored node hm) ⟨(h.links node hm).left, (h.links node hm).right, (h.links node hm).parent⟩
  dsimp only
  split
  · exact key _
  · refine (Post.trivial _).bind fun _ _ => (Post.trivial _).bind fun _ _ => (Post.trivial _).bind fun _ _ => (Post.trivial _).bind fun _ _ => ?_
    split
    · exact key _
    · exact Post.error

theorem computeTreeWeights_post {B : Nat} {t : TreeArr F P} (h : ArrOK B t) (n : Nat) (step : F) :
    Post (fun nodes => ArrOK B { t with nodes := nodes }) (computeTreeWeights t.nodes n step) := by
  unfold computeTreeWeights
  refine Post.foldlM (I := fun nodes => ArrOK B { t with nodes := nodes }) _ h fun nodes k hn => ?_
  exact weightStep_post hn step k

/-- What is known of every tree of a fitted forest. -/
structure ObjOK (fba : FBA) (train valid : List Nat) (o : TreeObj F P G) : Prop where
  arr : ArrOK o.arr.nodeCount o.arr
  pos : 0 < o.arr.nodeCount
  ctx : ∃ c, o.ctx = some c ∧ c.fba = fba
  train : o.work.partTrain.length = train.length
  valid : o.work.partValid.length = valid.length
  left : o.work.leftBuf.length = fba.nSamples
  right : o.work.rightBuf.length = fba.nSamples

theorem fit_post (R : Rng G) (T : F → Task F Y P G) (c : Ctx F) (gb : Garbage F) (seed : Nat) (d : F) (train valid : List Nat) :
    Post (ObjOK c.fba train valid) (TreeObj.fit R T c gb seed d train valid) := by
  unfold TreeObj.fit fitTree grow
  refine Post.bind (I := fun x => ArrOK x.1.nodeCount x.1 ∧ 0 < x.1.nodeCount ∧ WorkLen c train.length valid.length x.2) ?_ ?_
  · refine (resizeTree_post (T d).zeroP (B := 0) (t := TreeArr.empty)
      ⟨rfl, rfl, rfl, le_rfl, by simp [TreeArr.empty], by simp [TreeArr.empty]⟩ (some 2047)).bind ?_
    rintro t ⟨ht, hc⟩
    have hc : t.nodeCount = 0 := hc
    refine (push_post gb (B := 0) (s := Records.init gb 10) ⟨fun i r hi => absurd hi (Nat.not_lt_zero _)⟩ (fun p hp => by simp at hp) (Nat.zero_le _)).bind ?_
    rintro recs ⟨h1, h2, h3⟩
    refine (growLoop_post R (T d) (c := c) (nT := train.length) (nV := valid.length) gb _ (s := ⟨t, recs, initWork R c gb seed train valid⟩)
      ⟨by simp only [hc]; exact ht, by simp only [hc]; exact h1, h3, ⟨rfl, rfl, by simp [initWork], by simp [initWork]⟩⟩ (.inl (by simp only; omega))).bind ?_
    rintro s ⟨hs, hp⟩
    split
    · refine (computeTreeWeights_post hs.tree _ _).bind fun nodes hn => Post.pure ⟨hn, hp, hs.work⟩
    · exact Post.pure ⟨hs.tree, hp, hs.work⟩
  · rintro ⟨arr, w⟩ ⟨h1, h2, h3⟩
    exact Post.pure ⟨h1, h2, ⟨c, rfl, rfl⟩, h3.train, h3.valid, h3.left, h3.right⟩

theorem setStep_post {fba : FBA} {train valid : List Nat} {o : TreeObj F P G} (h : ObjOK fba train valid o) (v : F) :
    Post (ObjOK fba train valid) (o.setStep v) := by
  unfold TreeObj.setStep
  obtain ⟨c, hc, hf⟩ := h.ctx
  split
  · rw [hc]
    dsimp only
    split
    · refine (computeTreeWeights_post h.arr _ _).bind fun nodes hn => Post.pure ⟨hn, h.pos, ⟨_, rfl, hf⟩, h.train, h.valid, h.left, h.right⟩
    · exact Post.ok ⟨h.arr, h.pos, ⟨_, rfl, hf⟩, h.train, h.valid, h.left, h.right⟩
  · exact Post.ok h

theorem recomputeNode_post (T : Task F Y P G) (c : Ctx F) (k : Work G) {B : Nat} {t : TreeArr F P} (h : ArrOK B t ∧ t.nodeCount = B) (i : Nat) :
    Post (fun t' => ArrOK B t' ∧ t'.nodeCount = B) (recomputeNode T c k t i) := by
  unfold recomputeNode
  refine (Post.self _).bind fun node h1 => ?_
  have hm := mem_rd h1
  refine (Post.trivial _).bind ?_
  rintro ⟨w, p⟩ -
  dsimp only
  refine (Post.trivial _).bind fun p _ => (Post.self _).bind fun yPred h2 => (Post.trivial _).bind fun loss _ => (Post.self _).bind fun nodes h3 => Post.pure ⟨?_, h.2⟩
  have h4 := h.1.setNodes h3 (h.1.stored node hm) ⟨(h.1.links node hm).left, (h.1.links node hm).right, (h.1.links node hm).parent⟩
  exact ⟨h4.lenN, (wr_length h2).trans h4.lenP, h4.lenB, h4.fits, h4.stored, h4.links⟩

theorem setDirichlet_post (T : F → Task F Y P G) {fba : FBA} {train valid : List Nat} {o : TreeObj F P G} (h : ObjOK fba train valid o) (v : F) :
    Post (ObjOK fba train valid) (o.setDirichlet T v) := by
  unfold TreeObj.setDirichlet
  obtain ⟨c, hc, hf⟩ := h.ctx
  split
  · rw [hc]
    dsimp only
    refine Post.bind (I := fun t => ArrOK o.arr.nodeCount t ∧ t.nodeCount = o.arr.nodeCount) ?_ ?_
    · unfold recomputePredictions
      refine Post.bind (Post.foldlM (I := fun t => ArrOK o.arr.nodeCount t ∧ t.nodeCount = o.arr.nodeCount) _ ⟨h.arr, rfl⟩ fun t i ht => recomputeNode_post _ _ _ ht i) ?_
      rintro t ⟨ht, hn⟩
      split
      · exact (computeTreeWeights_post ht _ _).bind fun nodes hx => Post.pure ⟨⟨hx.lenN, hx.lenP, hx.lenB, hx.fits, hx.stored, hx.links⟩, hn⟩
      · exact Post.pure ⟨ht, hn⟩
    · rintro t ⟨ht, hn⟩
      exact Post.pure ⟨by simp only [hn]; exact ht, by simp only [hn]; exact h.pos, ⟨_, rfl, hf⟩, h.train, h.valid, h.left, h.right⟩
  · exact Post.ok h

theorem _root_.Verif.Spec.Reached.ok {R : Rng G} {T : F → Task F Y P G} {fba : FBA} {train valid : List Nat} {o : TreeObj F P G}
    (h : Reached R T fba train valid o) : ObjOK fba train valid o := by
  induction h with
  | fit hc hf => subst hc; exact fit_post R T _ _ _ _ _ _ _ hf
  | step _ hs ih => exact setStep_post ih _ _ hs
  | dirichlet _ hs ih => exact setDirichlet_post T ih _ _ hs

/-! ## The round trip -/

theorem assignAll_same {α : Type} {a v : List α} (h : v.length = a.length) : assignAll a v = .ok v := by
  unfold assignAll
  rw [if_pos h]

theorem layout_init (g : Nat → Word) (n : Nat) (m : List Nat) : FBALayout (FBA.init g n m) := by
  have hl : ∀ (k : Nat), (mkOffsets n k m).length = m.length + 1 := by
    induction m with
    | nil => intro k; rfl
    | cons a m ih => intro k; simp [mkOffsets, ih]
  exact ⟨by simp [FBA.init], by simp [FBA.init, hl], by simp [FBA.init], by simp [FBA.init], by simp [FBA.init]⟩

theorem unserializeFBA_same (g : Nat → Word) {b : FBA} (h : FBALayout b) : unserializeFBA g (b.state : Val F P) = .ok b := by
  have hi := layout_init g b.nSamples b.maxValues
  unfold unserializeFBA FBA.state
  simp only [Val.get, List.lookup, Val.asNat, Val.asNats, Val.asWords]
  have e1 : assignAll (FBA.init g b.nSamples b.maxValues).nBits b.nBits = .ok b.nBits := assignAll_same (h.nBits.trans hi.nBits.symm)
  have e2 : assignAll (FBA.init g b.nSamples b.maxValues).offsets b.offsets = .ok b.offsets := assignAll_same (h.offsets.trans hi.offsets.symm)
  have e3 : assignAll (FBA.init g b.nSamples b.maxValues).nValuesInWords b.nValuesInWords = .ok b.nValuesInWords := assignAll_same (h.values.trans hi.values.symm)
  have e4 : assignAll (FBA.init g b.nSamples b.maxValues).bitarray b.bitarray = .ok b.bitarray := assignAll_same (h.words.trans hi.words.symm)
  have e5 : assignAll (FBA.init g b.nSamples b.maxValues).bitmasks b.bitmasks = .ok b.bitmasks := assignAll_same (h.masks.trans hi.masks.symm)
  simp [e1, e2, e3, e4, e5]
  rfl

theorem unserializeTree_same (z : P) (cls : Bool) (t : TreeJit F P) (hN : t.arr.nodes.length = t.arr.capacity) (hP : t.arr.yPred.length = t.arr.capacity)
    (hB : t.arr.binParts.length = t.arr.bpCapacity) (hd : t.maxDepth = 0) (hc : t.nClasses.isSome = cls) :
    unserializeTree z cls (serialize (.tree t)) = .ok t := by
  obtain ⟨nf, rs, md, arr, nc⟩ := t
  obtain rfl : md = 0 := hd
  have e1 : ∀ n : Option Nat, assignAll (TreeJit.new z nf n rs arr.nodeCount arr.capacity arr.bpCapacity arr.bpEnd).arr.nodes arr.nodes = .ok arr.nodes := fun n =>
    assignAll_same (by simp only [TreeJit.new, List.length_replicate]; exact hN)
  have e2 : ∀ n : Option Nat, assignAll (TreeJit.new (F := F) z nf n rs arr.nodeCount arr.capacity arr.bpCapacity arr.bpEnd).arr.yPred arr.yPred = .ok arr.yPred := fun n =>
    assignAll_same (by simp only [TreeJit.new, List.length_replicate]; exact hP)
  have e3 : ∀ n : Option Nat, assignAll (TreeJit.new (F := F) z nf n rs arr.nodeCount arr.capacity arr.bpCapacity arr.bpEnd).arr.binParts arr.binParts = .ok arr.binParts := fun n =>
    assignAll_same (by simp only [TreeJit.new, List.length_replicate]; exact hB)
  unfold unserializeTree serialize
  cases nc with
  | none =>
    obtain rfl : cls = false := hc.symm
    simp only [Val.get, List.lookup, List.cons_append, List.nil_append, Val.asNat, Val.asInt, Val.asNats, Val.asNodes, Val.asPreds]
    simp [e1, e2, e3]
    exact ⟨rfl, rfl, rfl, rfl, rfl⟩
  | some n =>
    obtain rfl : cls = true := hc.symm
    simp only [Val.get, List.lookup, List.cons_append, List.nil_append, Val.asNat, Val.asInt, Val.asNats, Val.asNodes, Val.asPreds]
    simp [e1, e2, e3]
    exact ⟨rfl, rfl, rfl, rfl, rfl⟩

theorem unserializeCtx_same (g : PickleGarbage) (cls : Bool) (x : CtxJit F) (hf : FBALayout x.c.fba) (h1 : x.maxNBins = x.c.maxNBins)
    (h2 : x.nSamples = x.c.fba.nSamples) (h3 : x.nTrain = x.train.length) (h4 : x.nValid = x.valid.length) (h5 : x.nFeatures = x.c.fba.nFeatures)
    (h6 : x.partTrain.length = x.train.length) (h7 : x.partValid.length = x.valid.length) (h8 : x.leftBuf.length = x.c.fba.nSamples)
    (h9 : x.rightBuf.length = x.c.fba.nSamples) (hc : x.cls.isSome = cls) :
    unserializeCtx g cls (serialize (.ctx x : PyObj F P)) = .ok x := by
  obtain ⟨mb, c, tr, va, ns, nt, nv, nf, pt, pv, lb, rb, cr, cl⟩ := x
  simp only at *
  subst h1 h2 h3 h4 h5
  have e6 : assignAll tr pt = .ok pt := assignAll_same h6
  have e7 : assignAll va pv = .ok pv := assignAll_same h7
  have e8 : assignAll ((List.range c.fba.nSamples).map g.buf) lb = .ok lb := assignAll_same (by simp [h8])
  have e9 : assignAll ((List.range c.fba.nSamples).map g.buf) rb = .ok rb := assignAll_same (by simp [h9])
  unfold unserializeCtx serialize
  cases cl with
  | none =>
    obtain rfl : cls = false := hc.symm
    simp only [Val.get, List.lookup, List.cons_append, List.nil_append, Val.asNat, Val.asNats, Val.asFlt, Val.asFlts, Val.asBool, Val.asBools]
    simp [unserializeFBA_same g.word hf, CtxJit.new, e6, e7, e8, e9]
    rfl
  | some a =>
    obtain rfl : cls = true := hc.symm
    simp only [Val.get, List.lookup, List.cons_append, List.nil_append, Val.asNat, Val.asNats, Val.asFlt, Val.asFlts, Val.asBool, Val.asBools]
    simp [unserializeFBA_same g.word hf, CtxJit.new, e6, e7, e8, e9]
    rfl

/-! ## The trees of forests -/

theorem buildTree_reached {R : Rng G} {T : F → Task F Y P G} {draw : Nat → List Nat} {depth : Nat} {c : Ctx F} {gb : Garbage F} {d : F} {seed : Nat}
    {o : TreeObj F P G} {fba : FBA} (hc : c.fba = fba) (h : buildTree R T draw depth c gb d seed = .ok o) :
    ∃ train valid, Reached R T fba train valid o := by
  unfold buildTree at h
  rw [bind_eq_ok] at h
  obtain ⟨b, h1, h⟩ := h
  rw [bind_eq_ok] at h
  obtain ⟨w, h2, h⟩ := h
  exact ⟨b.train, b.valid, .fit (c := { c with w := w }) hc h⟩

theorem fillColumn_layout {b : FBA} (h : FBALayout b) (j : Nat) (col : List Nat) :
    Post FBALayout (b.fillColumn j col) := by
  unfold FBA.fillColumn
  refine (Post.trivial _).bind fun _ _ => (Post.trivial _).bind fun _ _ => (Post.trivial _).bind fun _ _ => (Post.trivial _).bind fun _ _ =>
    (Post.trivial _).bind fun _ _ => (Post.self _).bind fun a ha => Post.pure ⟨h.nBits, h.offsets, h.values, h.masks, (wrSlice_length ha).trans h.words⟩

theorem arrayToBitarray_layout {g : Nat → Word} {n : Nat} {cols : List (List Nat)} {fba : FBA} (h : arrayToBitarray g n cols = .ok fba) :
    FBALayout fba := by
  revert h fba
  change Post FBALayout ((FBA.init g n (cols.map colMax)).fillValues cols)
  exact Post.foldlM _ (layout_init _ _ _) fun b p hb => (Post.trivial _).bind fun _ _ => fillColumn_layout hb _ _

/-! ## `lighten` -/

theorem rd_slice {α : Type} (a : List α) {n k : Nat} (h : k < n) : rd (slice a 0 n) k = rd a k := by
  unfold rd
  rw [slice_getElem?, if_pos (by omega), Nat.zero_add]

theorem idx_ok {a : Option Nat} {k : Nat} (h : idx a = .ok k) : a = some k := by
  cases a with
  | none => exact absurd h (by simp [idx])
  | some x => simp only [idx] at h; injection h with h; rw [h]

/-- The arrays after `lighten`. -/
def TreeArr.light (t : TreeArr F P) : TreeArr F P := { t with nodes := slice t.nodes 0 t.nodeCount, binParts := slice t.binParts 0 t.bpEnd }

section
variable {t : TreeArr F P} (h : ArrOK t.nodeCount t) (hp : 0 < t.nodeCount)
include h hp

theorem findLeafFrom_light (fba : FBA) (i : Nat) : ∀ n k, k < t.nodeCount → findLeafFrom t.light fba i n k = findLeafFrom t fba i n k ∧
    ∀ l, findLeafFrom t fba i n k = .ok l → l < t.nodeCount := by
  intro n
  induction n with
  | zero => intro k _; exact ⟨rfl, fun l hl => absurd hl (by simp [findLeafFrom])⟩
  | succ n ih =>
    intro k hk
    unfold findLeafFrom
    rw [show rd t.light.nodes k = rd t.nodes k from rd_slice _ hk]
    cases hr : rd t.nodes k with
    | error e => exact ⟨rfl, fun l hl => absurd hl (by simp [bind, Except.bind])⟩
    | ok node =>
      rw [bind_ok, bind_ok]
      have hm := mem_rd hr
      have hc : childOf t.light fba i node = childOf t fba i node := by
        unfold childOf
        have : slice t.light.binParts node.bpS node.bpE = slice t.binParts node.bpS node.bpE := slice_congr fun j _ hj => by
          change (slice t.binParts 0 t.bpEnd)[j]? = _
          rw [slice_getElem?, if_pos (by have := h.stored node hm; omega), Nat.zero_add]
        rw [this]
      rw [hc]
      split
      · exact ⟨rfl, fun l hl => by simp only [pure_eq_ok] at hl; injection hl with hl; omega⟩
      · cases hk' : childOf t fba i node with
        | error e => exact ⟨rfl, fun l hl => absurd hl (by simp [bind, Except.bind])⟩
        | ok k' =>
          rw [bind_ok, bind_ok]
          refine ih k' ?_
          unfold childOf at hk'
          rw [bind_eq_ok] at hk'
          obtain ⟨_, -, hk'⟩ := hk'
          rw [bind_eq_ok] at hk'
          obtain ⟨_, -, hk'⟩ := hk'
          rw [bind_eq_ok] at hk'
          obtain ⟨g, -, hk'⟩ := hk'
          split at hk'
          · rcases (h.links node hm).left k' (idx_ok hk') with h1 | h1 <;> omega
          · rcases (h.links node hm).right k' (idx_ok hk') with h1 | h1 <;> omega

theorem findLeaf_light (fba : FBA) (i : Nat) : findLeaf t.light fba i = findLeaf t fba i ∧ ∀ l, findLeaf t fba i = .ok l → l < t.nodeCount :=
  findLeafFrom_light h hp fba i _ 0 hp

theorem climb_light {V : Type} (step : F) {val val' : Nat → M V} (hv : ∀ k, k < t.nodeCount → val' k = val k) (mix : F → V → V → V) :
    ∀ n k v, k < t.nodeCount → climb t.light.nodes step val' mix n k v = climb t.nodes step val mix n k v := by
  intro n
  induction n with
  | zero => intro k v _; rfl
  | succ n ih =>
    intro k v hk
    unfold climb
    rw [show rd t.light.nodes k = rd t.nodes k from rd_slice _ hk]
    split
    · cases hr : rd t.nodes k with
      | error e => rfl
      | ok node =>
        rw [bind_ok, bind_ok]
        cases hx : idx node.parent with
        | error e => rfl
        | ok p =>
          have hp' : p < t.nodeCount := by
            rcases (h.links node (mem_rd hr)).parent p (idx_ok hx) with h1 | h1 <;> omega
          rw [bind_ok, bind_ok, show rd t.light.nodes p = rd t.nodes p from rd_slice _ hp', hv p hp']
          simp only [ih p _ hp']
    · rfl

theorem predictRow_light (mix : F → P → P → P) (fba : FBA) (agg : Bool) (step : F) (i : Nat) :
    predictRow mix t.light fba agg step i = predictRow mix t fba agg step i := by
  unfold predictRow
  obtain ⟨h1, h2⟩ := findLeaf_light h hp fba i
  rw [h1]
  cases hl : findLeaf t fba i with
  | error e => rfl
  | ok k =>
    rw [bind_ok, bind_ok]
    have hk := h2 k hl
    have : ∀ v, climb t.light.nodes step (rd t.light.yPred) mix (t.light.nodeCount + 1) k v = climb t.nodes step (rd t.yPred) mix (t.nodeCount + 1) k v :=
      fun v => climb_light h hp step (fun _ _ => rfl) mix _ k v hk
    simp only [this]
    rfl

theorem weightedDepthRow_light (fba : FBA) (step : F) (i : Nat) : weightedDepthRow t.light fba step i = weightedDepthRow t fba step i := by
  unfold weightedDepthRow
  obtain ⟨h1, h2⟩ := findLeaf_light h hp fba i
  rw [h1]
  cases hl : findLeaf t fba i with
  | error e => rfl
  | ok k =>
    rw [bind_ok, bind_ok]
    have hk := h2 k hl
    rw [show rd t.light.nodes k = rd t.nodes k from rd_slice _ hk]
    have : ∀ v, climb t.light.nodes step (fun p => do let n ← rd t.light.nodes p; return Num.ofNat n.depth) mixF (t.light.nodeCount + 1) k v =
        climb t.nodes step (fun p => do let n ← rd t.nodes p; return Num.ofNat n.depth) mixF (t.nodeCount + 1) k v :=
      fun v => climb_light h hp step (fun p hp' => by rw [show rd t.light.nodes p = rd t.nodes p from rd_slice _ hp']) mixF _ k v hk
    simp only [this]

end

theorem assignAll_error {α : Type} (a v : List α) : ∀ e, assignAll a v = .error e → e = .valueError := by
  intro e h
  unfold assignAll at h
  split at h
  · exact absurd h (by simp)
  · split at h
    · exact absurd h (by simp)
    · injection h with h; exact h.symm

theorem unserializeTree_error (z : P) (cls : Bool) (t : TreeJit F P) (hc : t.nClasses.isSome = cls) (e : Err)
    (h : unserializeTree z cls (serialize (.tree t)) = .error e) : e = .valueError := by
  obtain ⟨nf, rs, md, arr, nc⟩ := t
  have key : ∀ n, (do
      let nodes ← assignAll (TreeJit.new z nf n rs arr.nodeCount arr.capacity arr.bpCapacity arr.bpEnd).arr.nodes arr.nodes
      let yPred ← assignAll (TreeJit.new (F := F) z nf n rs arr.nodeCount arr.capacity arr.bpCapacity arr.bpEnd).arr.yPred arr.yPred
      let binParts ← assignAll (TreeJit.new (F := F) z nf n rs arr.nodeCount arr.capacity arr.bpCapacity arr.bpEnd).arr.binParts arr.binParts
      return { TreeJit.new (F := F) z nf n rs arr.nodeCount arr.capacity arr.bpCapacity arr.bpEnd with
        arr := { (TreeJit.new (F := F) z nf n rs arr.nodeCount arr.capacity arr.bpCapacity arr.bpEnd).arr with nodes := nodes, yPred := yPred, binParts := binParts } } : M (TreeJit F P)) = .error e → e = .valueError := by
    intro n hn
    cases h1 : assignAll (TreeJit.new z nf n rs arr.nodeCount arr.capacity arr.bpCapacity arr.bpEnd).arr.nodes arr.nodes with
    | error e1 =>
      rw [h1] at hn
      injection hn with hn
      exact hn ▸ assignAll_error _ _ _ h1
    | ok x1 =>
      rw [h1, bind_ok] at hn
      cases h2 : assignAll (TreeJit.new (F := F) z nf n rs arr.nodeCount arr.capacity arr.bpCapacity arr.bpEnd).arr.yPred arr.yPred with
      | error e1 =>
        rw [h2] at hn
        injection hn with hn
        exact hn ▸ assignAll_error _ _ _ h2
      | ok x2 =>
        rw [h2, bind_ok] at hn
        cases h3 : assignAll (TreeJit.new (F := F) z nf n rs arr.nodeCount arr.capacity arr.bpCapacity arr.bpEnd).arr.binParts arr.binParts with
        | error e1 =>
          rw [h3] at hn
          injection hn with hn
          exact hn ▸ assignAll_error _ _ _ h3
        | ok x3 =>
          rw [h3, bind_ok] at hn
          exact absurd hn (by simp [pure, Except.pure])
  cases nc with
  | none =>
    obtain rfl : cls = false := hc.symm
    exact key none h
  | some n =>
    obtain rfl : cls = true := hc.symm
    exact key (some n) h

end Verif
