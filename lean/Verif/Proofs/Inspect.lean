import Verif.Spec.Inspect
import Verif.Proofs.Climb

/-! Lemmas about the inspection functions. -/
set_option linter.unusedSectionVars false
namespace Verif

open Spec

/-! ## Levels and node tables -/

section
variable {F P : Type} [Num F] {t : TreeArr F P}

theorem nodeAt_inj {k : Nat} {n m : Node F} (h : NodeAt t k n) (h' : NodeAt t k m) : n = m := by
  have := h.2.symm.trans h'.2
  injection this

/-- A left or right child of a node. -/
theorem _root_.Verif.Spec.WellFormed.child (h : WellFormed t) {k c : Nat} {n : Node F} (hn : NodeAt t k n) (hc : n.left = some c ∨ n.right = some c) :
    ∃ m, NodeAt t c m ∧ m.parent = some k ∧ m.depth = n.depth + 1 ∧ k < c ∧ n.isLeaf = false ∧ (n.left = some c → n.right ≠ some c) := by
  cases hl : n.isLeaf with
  | true => obtain ⟨h1, h2⟩ := h.leaf k n hn hl; rw [h1, h2] at hc; simp at hc
  | false =>
    obtain ⟨l, r, nl, nr, e1, e2, hne, h1, h2, h3, h4, h5, h6, h7, h8⟩ := h.children k n hn hl
    rw [e1, e2] at hc
    simp only [Option.some.injEq] at hc
    rcases hc with rfl | rfl
    · exact ⟨nl, h3, h5, h7, h1, rfl, fun _ h0 => hne (by rw [e2] at h0; injection h0 with h0; exact h0.symm)⟩
    · exact ⟨nr, h4, h6, h8, h2, rfl, fun h0 _ => hne (by rw [e1] at h0; injection h0)⟩

theorem Level.node (h : WellFormed t) {k d : Nat} (hl : Level t k d) : ∃ n, NodeAt t k n ∧ n.depth = d := by
  induction hl with
  | root => obtain ⟨n, h1, _⟩ := h.entries 0 h.rootFirst; exact ⟨n, h1, h.rootDepth n h1⟩
  | left _ h2 h3 ih =>
    obtain ⟨n', i1, rfl⟩ := ih
    cases nodeAt_inj i1 h2
    obtain ⟨m, h1, _, h2, _⟩ := h.child h2 (.inl h3)
    exact ⟨m, h1, h2⟩
  | right _ h2 h3 ih =>
    obtain ⟨n', i1, rfl⟩ := ih
    cases nodeAt_inj i1 h2
    obtain ⟨m, h1, _, h2, _⟩ := h.child h2 (.inr h3)
    exact ⟨m, h1, h2⟩

/-- The parent of a node that is not the root. -/
theorem _root_.Verif.Spec.WellFormed.up (h : WellFormed t) {k : Nat} {n : Node F} (hn : NodeAt t k n) (hk : k ≠ 0) :
    ∃ p np, NodeAt t p np ∧ (np.left = some k ∨ np.right = some k) ∧ n.parent = some p ∧ n.depth = np.depth + 1 ∧ p < k := by
  obtain ⟨p, ⟨np, h1, h2⟩, _⟩ := h.parent k n hn hk
  obtain ⟨m, h3, h4, h5, h6, _⟩ := h.child h1 h2
  cases nodeAt_inj hn h3
  exact ⟨p, np, h1, h2, h4, h5, h6⟩

theorem _root_.Verif.Spec.WellFormed.level (h : WellFormed t) : ∀ (k : Nat) {n : Node F}, NodeAt t k n → Level t k n.depth := by
  intro k
  induction k using Nat.strongRecOn with
  | _ k ih =>
    intro n hn
    by_cases hk : k = 0
    · subst hk; rw [h.rootDepth n hn]; exact .root
    · obtain ⟨p, np, h1, h2, _, h4, h5⟩ := h.up hn hk
      rw [h4]
      rcases h2 with h2 | h2
      · exact .left (ih p h5 h1) h1 h2
      · exact .right (ih p h5 h1) h1 h2

theorem _root_.Verif.Spec.WellFormed.under (h : WellFormed t) : ∀ (k : Nat) {n : Node F}, NodeAt t k n → Under t 0 k := by
  intro k
  induction k using Nat.strongRecOn with
  | _ k ih =>
    intro n hn
    by_cases hk : k = 0
    · subst hk; exact .self
    · obtain ⟨p, np, h1, h2, _, h4, h5⟩ := h.up hn hk
      rcases h2 with h2 | h2
      · exact .left (ih p h5 h1) h1 h2
      · exact .right (ih p h5 h1) h1 h2

theorem foldl_max (l : List Nat) : ∀ a, (l.foldl max a = a ∨ l.foldl max a ∈ l) ∧ a ≤ l.foldl max a ∧ ∀ x ∈ l, x ≤ l.foldl max a := by
  induction l with
  | nil => intro a; simp
  | cons b l ih =>
    intro a
    obtain ⟨h1, h2, h3⟩ := ih (max a b)
    simp only [List.foldl_cons, List.mem_cons]
    refine ⟨?_, by omega, fun x hx => ?_⟩
    · rcases h1 with h1 | h1
      · rw [h1]; rcases Nat.le_total a b with h | h
        · rw [Nat.max_eq_right h]; exact .inr (.inl rfl)
        · rw [Nat.max_eq_left h]; exact .inl rfl
      · exact .inr (.inr h1)
    · rcases hx with rfl | hx
      · omega
      · exact h3 x hx

theorem pyMax_ok {l : List Nat} (h : l ≠ []) : ∃ m, pyMax l = .ok m ∧ m ∈ l ∧ ∀ x ∈ l, x ≤ m := by
  cases l with
  | nil => exact absurd rfl h
  | cons a l =>
    obtain ⟨h1, h2, h3⟩ := foldl_max l a
    refine ⟨_, rfl, ?_, ?_⟩
    · rcases h1 with h1 | h1
      · rw [h1]; simp
      · simp [h1]
    · intro x hx
      rcases List.mem_cons.1 hx with rfl | hx
      · exact h2
      · exact h3 x hx

theorem table_get (_ : WellFormed t) {k : Nat} {n : Node F} : (t.nodes.take t.nodeCount)[k]? = some n ↔ NodeAt t k n := by
  rw [List.getElem?_take]
  unfold NodeAt
  split <;> simp_all

theorem table_length (h : WellFormed t) : (t.nodes.take t.nodeCount).length = t.nodeCount := by
  rw [List.length_take]
  obtain ⟨n, ⟨_, h1⟩, _⟩ := h.entries (t.nodeCount - 1) (by have := h.rootFirst; omega)
  obtain ⟨h2, _⟩ := List.getElem?_eq_some_iff.1 h1
  omega

theorem getNodesPred_ok (h : WellFormed t) (hp : ∀ k, k < t.nodeCount → ∃ p, t.yPred[k]? = some p) :
    ∃ nd, getNodesPred t = .ok nd ∧ nd.map (fun r => r.1.1) = t.nodes.take t.nodeCount := by
  have h1 : (t.yPred.take t.nodeCount).length = t.nodeCount := by
    rw [List.length_take]
    obtain ⟨n, h1⟩ := hp (t.nodeCount - 1) (by have := h.rootFirst; omega)
    obtain ⟨h2, _⟩ := List.getElem?_eq_some_iff.1 h1
    omega
  have h2 : (getNodes t).length = t.nodeCount := by unfold getNodes; rw [List.length_map, table_length h]
  refine ⟨_, if_pos (by rw [h1, h2]), ?_⟩
  rw [show (fun r : (Node F × PartitionCell) × P => r.1.1) = Prod.fst ∘ Prod.fst from rfl, ← List.map_map, List.map_fst_zip (by omega)]
  unfold getNodes
  rw [List.map_map]
  exact List.map_id'' (fun _ => rfl) _

/-- The rows of the node table. -/
theorem getNodesPred_rows (h : WellFormed t) {tab : List ((Node F × PartitionCell) × P)} (ht : getNodesPred t = .ok tab) {k : Nat}
    {r : (Node F × PartitionCell) × P} : tab[k]? = some r ↔
      NodeAt t k r.1.1 ∧ r.1.2 = (if r.1.1.isCat then .bins (slice t.binParts r.1.1.bpS r.1.1.bpE) else .threshold r.1.1.binThr) ∧ t.yPred[k]? = some r.2 := by
  unfold getNodesPred at ht
  split at ht
  · obtain rfl := Except.ok.inj ht
    rw [List.getElem?_zip_eq_some]
    unfold getNodes
    rw [List.getElem?_map, Option.map_eq_some_iff, List.getElem?_take (l := t.yPred)]
    constructor
    · rintro ⟨⟨n, h1, h2⟩, h3⟩
      split at h3
      · rw [table_get h] at h1
        rw [← h2]
        exact ⟨h1, rfl, h3⟩
      · cases h3
    · rintro ⟨h1, h2, h3⟩
      refine ⟨⟨r.1.1, (table_get h).2 h1, ?_⟩, ?_⟩
      · rw [← h2]
      · rw [if_pos h1.1, h3]
  · cases ht

theorem tableVisits_iff (h : WellFormed t) (hp : ∀ k, k < t.nodeCount → ∃ p, t.yPred[k]? = some p) {tab : List ((Node F × PartitionCell) × P)}
    (ht : getNodesPred t = .ok tab) (x : Nat → Nat) (k : Nat) : TableVisits tab x k ↔ Visits t x k := by
  have hc : ∀ {n : Node F} {b : Nat}, CellLeft (if n.isCat then .bins (slice t.binParts n.bpS n.bpE) else .threshold n.binThr) b ↔ TestLeft t n b := by
    intro n b
    unfold TestLeft
    split <;> rfl
  constructor
  · intro hv
    induction hv with
    | root => exact .root
    | left _ h2 h3 h4 h5 h6 ih =>
      obtain ⟨g1, g2, -⟩ := (getNodesPred_rows h ht).1 h2
      rw [g2] at h5
      exact .left ih g1 h3 h4 (hc.1 h5) h6
    | right _ h2 h3 h4 h5 h6 ih =>
      obtain ⟨g1, g2, -⟩ := (getNodesPred_rows h ht).1 h2
      rw [g2] at h5
      exact .right ih g1 h3 h4 (fun hh => h5 (hc.2 hh)) h6
  · intro hv
    induction hv with
    | root => exact .root
    | @left k n f l _ h2 h3 h4 h5 h6 ih =>
      obtain ⟨p, hp⟩ := hp k h2.1
      exact .left (r := ((n, _), p)) ih ((getNodesPred_rows h ht).2 ⟨h2, rfl, hp⟩) h3 h4 (hc.2 h5) h6
    | @right k n f l _ h2 h3 h4 h5 h6 ih =>
      obtain ⟨p, hp⟩ := hp k h2.1
      exact .right (r := ((n, _), p)) ih ((getNodesPred_rows h ht).2 ⟨h2, rfl, hp⟩) h3 h4 (fun hh => h5 (hc.1 hh)) h6

/-! ## Drawing -/

theorem drawBefore_depth {a b : Node F} (h : drawBefore a b) : a.depth ≤ b.depth := by
  unfold drawBefore at h
  rw [Prod.Lex.toLex_le_toLex] at h
  rcases h with h | h
  · exact Nat.le_of_lt h
  · exact Nat.le_of_eq h.1

instance : Std.Total (drawBefore (F := F)) := ⟨fun a b => by unfold drawBefore; exact le_total _ _⟩
instance : IsTrans _ (drawBefore (F := F)) := ⟨fun a b c h1 h2 => by unfold drawBefore at *; exact le_trans h1 h2⟩

/-- The order in which the nodes are drawn: all nodes, the root first, parents before children. -/
theorem draw_order (h : WellFormed t) : ∃ rest, ((t.nodes.take t.nodeCount).insertionSort drawBefore).map (·.nodeId) = 0 :: rest ∧
    (0 :: rest).Nodup ∧ (∀ k, k ∈ 0 :: rest ↔ k < t.nodeCount) ∧
    ∀ pre c post, rest = pre ++ c :: post → ∀ n p, NodeAt t c n → n.parent = some p → p ∈ 0 :: pre := by
  obtain ⟨srt, hs⟩ : ∃ srt, srt = (t.nodes.take t.nodeCount).insertionSort drawBefore := ⟨_, rfl⟩
  have hperm : srt.Perm (t.nodes.take t.nodeCount) := by rw [hs]; exact List.perm_insertionSort _ _
  have hpw : srt.Pairwise drawBefore := by rw [hs]; exact List.pairwise_insertionSort _ _
  rw [← hs]
  have hids : (t.nodes.take t.nodeCount).map (·.nodeId) = List.range t.nodeCount := by
    refine List.ext_getElem? fun k => ?_
    rw [List.getElem?_map]
    by_cases hk : k < t.nodeCount
    · obtain ⟨n, h1, h2⟩ := h.entries k hk
      rw [(table_get h).2 h1, List.getElem?_range hk]
      simp [h2]
    · rw [List.getElem?_eq_none (by rw [table_length h]; omega), List.getElem?_eq_none (by simp; omega)]; rfl
  have hp2 : (srt.map (·.nodeId)).Perm (List.range t.nodeCount) := by rw [← hids]; exact hperm.map _
  have hmem : ∀ k, k ∈ srt.map (·.nodeId) ↔ k < t.nodeCount := fun k => by rw [hp2.mem_iff, List.mem_range]
  have hnd : (srt.map (·.nodeId)).Nodup := hp2.nodup_iff.2 List.nodup_range
  -- entries of the sorted table
  have hent : ∀ n ∈ srt, NodeAt t n.nodeId n := by
    intro n hn
    obtain ⟨k, hk⟩ := List.mem_iff_getElem?.1 (hperm.mem_iff.1 hn)
    have h1 := (table_get h).1 hk
    obtain ⟨m, h2, h3⟩ := h.entries k h1.1
    cases nodeAt_inj h1 h2
    rw [h3]; exact h1
  have hdep : (srt.map (·.nodeId)).Pairwise fun a b => ∀ n m, NodeAt t a n → NodeAt t b m → n.depth ≤ m.depth := by
    rw [List.pairwise_map]
    refine hpw.imp_of_mem ?_
    intro a b ha hb hab n m hn hm
    cases nodeAt_inj hn (hent a ha)
    cases nodeAt_inj hm (hent b hb)
    exact drawBefore_depth hab
  generalize srt.map (·.nodeId) = o at hmem hnd hdep
  obtain ⟨r0, h0, _⟩ := h.entries 0 h.rootFirst
  cases o with
  | nil => exact absurd ((hmem 0).2 h.rootFirst) (by simp)
  | cons f rest =>
    have hf0 : f = 0 := by
      by_contra hne
      have hin : 0 ∈ rest := by
        rcases List.mem_cons.1 ((hmem 0).2 h.rootFirst) with h1 | h1
        · exact absurd h1.symm hne
        · exact h1
      obtain ⟨n, hn, _⟩ := h.entries f ((hmem f).1 (by simp))
      have := (List.pairwise_cons.1 hdep).1 0 hin n r0 hn h0
      rw [h.rootDepth r0 h0] at this
      obtain ⟨_, _, _, _, _, hd, _⟩ := h.up hn hne
      omega
    subst hf0
    refine ⟨rest, rfl, hnd, hmem, ?_⟩
    rintro pre c post rfl n p hn hp
    have hc0 : c ≠ 0 := by rintro rfl; exact (List.nodup_cons.1 hnd).1 (by simp)
    obtain ⟨p', np, h1, _, h3, h4, _⟩ := h.up hn hc0
    rw [hp] at h3; injection h3 with h3; subst h3
    have hin := (hmem p).2 h1.1
    rw [← List.cons_append] at hin hdep
    rcases List.mem_append.1 hin with h5 | h5
    · exact h5
    · exfalso
      rcases List.mem_cons.1 h5 with rfl | h5
      · cases nodeAt_inj hn h1; omega
      · have := (List.pairwise_cons.1 (List.pairwise_append.1 hdep).2.1).1 p h5 n np hn h1
        omega

end

section
variable {P : Type} {t : TreeArr ℝ P}

theorem halfPow_real (k : Nat) : (halfPow k : ℝ) = (1 / 2) ^ k := by
  induction k with
  | zero => rw [pow_zero]; rfl
  | succ k ih => rw [pow_succ, ← ih]; rfl

/-- What the loop has established for the nodes drawn so far. -/
structure Drawn (t : TreeArr ℝ P) (y : List Nat) (pre : List Nat) (s : Drawing ℝ) : Prop where
  lx : s.x.length = t.nodeCount
  lx0 : s.x0.length = t.nodeCount
  ly0 : s.y0.length = t.nodeCount
  root : s.x[0]? = some (1 / 2)
  child : ∀ k ∈ pre, ∀ n p pn, NodeAt t k n → n.parent = some p → NodeAt t p pn → p ∈ 0 :: pre ∧ ∃ xp yp, s.x[p]? = some xp ∧ y[p]? = some yp ∧
    s.x[k]? = some (if pn.left = some k then xp - (1 / 2) ^ (n.depth + 1) else xp + (1 / 2) ^ (n.depth + 1)) ∧ s.x0[k]? = some xp ∧ s.y0[k]? = some yp

theorem displayTree_ok (h : WellFormed t) (hp : ∀ k, k < t.nodeCount → ∃ p, t.yPred[k]? = some p) :
    ∃ s y m rest, displayTree t = .ok (s, y) ∧ (∀ k, k ∈ 0 :: rest ↔ k < t.nodeCount) ∧ Drawn t y rest s ∧
      (∀ k n, NodeAt t k n → n.depth ≤ m ∧ y[k]? = some (m - n.depth)) ∧ ∃ k n, NodeAt t k n ∧ n.depth = m := by
  obtain ⟨nd, h1, h2⟩ := getNodesPred_ok h hp
  have hlen := table_length h
  obtain ⟨m, m1, m2, m3⟩ := pyMax_ok (l := (t.nodes.take t.nodeCount).map (·.depth)) (by
    intro h0
    have := congrArg List.length h0
    rw [List.length_map, hlen] at this
    have := h.rootFirst
    simp_all)
  obtain ⟨rest, o1, o2, o3, o4⟩ := draw_order h
  have hle : ∀ k n, NodeAt t k n → n.depth ≤ m := fun k n hn =>
    m3 _ (List.mem_map.2 ⟨n, List.mem_iff_getElem?.2 ⟨k, (table_get h).2 hn⟩, rfl⟩)
  have hy : (t.nodes.take t.nodeCount).mapM (fun n => usub m n.depth) = .ok ((t.nodes.take t.nodeCount).map fun n => m - n.depth) := by
    refine mapM_ok_of fun n hn => ?_
    obtain ⟨k, hk⟩ := List.mem_iff_getElem?.1 hn
    unfold usub
    rw [if_pos (hle k n ((table_get h).1 hk))]
  obtain ⟨y, hyy⟩ : ∃ y, y = (t.nodes.take t.nodeCount).map fun n => m - n.depth := ⟨_, rfl⟩
  rw [← hyy] at hy
  have hyk : ∀ k n, NodeAt t k n → y[k]? = some (m - n.depth) := fun k n hn => by
    rw [hyy, List.getElem?_map, (table_get h).2 hn]; rfl
  have hylen : y.length = t.nodeCount := by rw [hyy, List.length_map, hlen]
  obtain ⟨x0, hx0⟩ : ∃ x0 : List ℝ, x0 = (List.replicate t.nodeCount 0).set 0 (1 / 2) := ⟨_, rfl⟩
  have hwr : wr (List.replicate (t.nodes.take t.nodeCount).length (Num.zero : ℝ)) 0 Num.half = .ok x0 := by
    unfold wr
    rw [if_pos (by rw [List.length_replicate, hlen]; exact h.rootFirst), hlen, hx0]; rfl
  have hx0len : x0.length = t.nodeCount := by rw [hx0]; simp
  obtain ⟨s, s1, s2⟩ := foldlM_inv (f := drawStep (t.nodes.take t.nodeCount) y) (l := rest) (s := ⟨x0, x0, y⟩) (Drawn t y)
    ⟨hx0len, hx0len, hylen, by rw [hx0, List.getElem?_set_self (by simpa using h.rootFirst)], by simp⟩ (by
      intro pre c post s hsplit hI
      have hc : c < t.nodeCount := (o3 c).1 (by rw [hsplit]; simp)
      have hnd := o2
      rw [hsplit, ← List.cons_append] at hnd
      have hcn : c ∉ 0 :: pre := fun h0 => (List.disjoint_of_nodup_append hnd) h0 (by simp)
      obtain ⟨n, hn, _⟩ := h.entries c hc
      obtain ⟨p, np, p1, _, p3, p4, p5⟩ := h.up hn (fun h0 => hcn (by simp [h0]))
      have hpin := o4 pre c post hsplit n p hn p3
      have hxp : ∃ xp, s.x[p]? = some xp := ⟨_, List.getElem?_eq_getElem (by rw [hI.lx]; exact p1.1)⟩
      obtain ⟨xp, hxp⟩ := hxp
      have hpc : c ≠ p := fun h0 => hcn (h0 ▸ hpin)
      refine ⟨⟨s.x.set c (if np.left = some c then xp - (1 / 2) ^ (n.depth + 1) else xp + (1 / 2) ^ (n.depth + 1)), s.x0.set c xp,
        s.y0.set c (m - np.depth)⟩, ?_, ?_⟩
      · unfold drawStep atLabel
        simp only [p3, hxp, hyk p np p1, (table_get h).2 hn, (table_get h).2 p1, bind_ok, wr, hI.lx, hI.lx0, hI.ly0, hc, if_true, pure_eq_ok,
          halfPow_real]
        rfl
      · refine ⟨by simp [hI.lx], by simp [hI.lx0], by simp [hI.ly0], ?_, ?_⟩
        · simp only
          rw [List.getElem?_set_ne (fun h0 => hcn (by simp [h0]))]; exact hI.root
        · intro k hk n' q qn hn' hq hqn
          rcases List.mem_append.1 hk with hk | hk
          · obtain ⟨i1, xq, yq, i2, i3, i4, i5, i6⟩ := hI.child k hk n' q qn hn' hq hqn
            have hck : c ≠ k := fun h0 => hcn (by simp [h0, hk])
            have hcq : c ≠ q := fun h0 => hcn (h0 ▸ i1)
            refine ⟨by rcases List.mem_cons.1 i1 with h0 | h0 <;> simp [h0], xq, yq, ?_, i3, ?_, ?_, ?_⟩
            · simp only; rw [List.getElem?_set_ne hcq]; exact i2
            · simp only; rw [List.getElem?_set_ne hck]; exact i4
            · simp only; rw [List.getElem?_set_ne hck]; exact i5
            · simp only; rw [List.getElem?_set_ne hck]; exact i6
          · rw [List.mem_singleton] at hk
            subst hk
            cases nodeAt_inj hn hn'
            rw [p3] at hq; injection hq with hq; subst hq
            cases nodeAt_inj p1 hqn
            refine ⟨by rcases List.mem_cons.1 hpin with h0 | h0 <;> simp [h0], xp, m - np.depth, ?_, hyk _ _ p1, ?_, ?_, ?_⟩
            · simp only; rw [List.getElem?_set_ne hpc]; exact hxp
            · simp only; rw [List.getElem?_set_self (by rw [hI.lx]; exact hc)]
            · simp only; rw [List.getElem?_set_self (by rw [hI.lx0]; exact hc)]
            · simp only; rw [List.getElem?_set_self (by rw [hI.ly0]; exact hc)])
  refine ⟨s, y, m, rest, ?_, o3, s2, fun k n hn => ⟨hle k n hn, hyk k n hn⟩, ?_⟩
  · unfold displayTree
    simp only [h1, bind_ok, h2, m1, o1, hy]
    simp only [atLabel, List.getElem?_cons_zero, bind_ok, hwr, List.tail_cons, s1, pure_eq_ok]
  · obtain ⟨n, hn, hd⟩ := List.mem_map.1 m2
    obtain ⟨k, hk⟩ := List.mem_iff_getElem?.1 hn
    exact ⟨k, n, (table_get h).1 hk, hd⟩

theorem nice_drawing (h : WellFormed t) {s : Drawing ℝ} {y : List Nat} {m : Nat} {rest : List Nat}
    (ho : ∀ k, k ∈ 0 :: rest ↔ k < t.nodeCount) (hd : Drawn t y rest s)
    (hy : ∀ k n, NodeAt t k n → n.depth ≤ m ∧ y[k]? = some (m - n.depth)) (hm : ∃ k n, NodeAt t k n ∧ n.depth = m) :
    NiceDrawing t (fun k => s.x.getD k 0) (fun k => s.x0.getD k 0) (fun k => y.getD k 0) (fun k => s.y0.getD k 0) := by
  obtain ⟨X, hX⟩ : ∃ X : Nat → ℝ, X = fun k => s.x.getD k 0 := ⟨_, rfl⟩
  have hstep : ∀ k n c, NodeAt t k n → n.left = some c ∨ n.right = some c → ∃ nc, NodeAt t c nc ∧ nc.depth = n.depth + 1 ∧
      X c = (if n.left = some c then X k - (1 / 2) ^ (nc.depth + 1) else X k + (1 / 2) ^ (nc.depth + 1)) ∧
      s.x0.getD c 0 = X k ∧ s.y0.getD c 0 = y.getD k 0 := by
    intro k n c hn hc
    obtain ⟨nc, h1, h2, h3, h4, _⟩ := h.child hn hc
    have hin : c ∈ rest := by
      rcases List.mem_cons.1 ((ho c).2 h1.1) with h0 | h0
      · omega
      · exact h0
    obtain ⟨_, xp, yp, e1, e2, e3, e4, e5⟩ := hd.child c hin nc k n h1 h2 hn
    refine ⟨nc, h1, h3, ?_, ?_, ?_⟩
    · rw [hX]; simp only [List.getD_eq_getElem?_getD, e3, e1, Option.getD_some]
    · rw [hX]; simp only [List.getD_eq_getElem?_getD, e4, e1, Option.getD_some]
    · simp only [List.getD_eq_getElem?_getD, e5, e2, Option.getD_some]
  have hspread : ∀ k n j, NodeAt t k n → Under t k j → ∃ nj, NodeAt t j nj ∧
      X k - (1 / 2) ^ (n.depth + 1) + (1 / 2) ^ (nj.depth + 1) ≤ X j ∧ X j ≤ X k + (1 / 2) ^ (n.depth + 1) - (1 / 2) ^ (nj.depth + 1) := by
    intro k n j hn hu
    induction hu with
    | self => exact ⟨n, hn, by linarith, by linarith⟩
    | left _ h2 h3 ih =>
      obtain ⟨nj, i1, i2, i3⟩ := ih
      have e0 := nodeAt_inj i1 h2
      subst e0
      obtain ⟨nc, c1, c2, c3, _⟩ := hstep _ _ _ h2 (.inl h3)
      rw [if_pos h3] at c3
      refine ⟨nc, c1, ?_, ?_⟩ <;> rw [c3, c2] <;> rw [pow_succ (1 / 2 : ℝ) (nj.depth + 1)] <;>
        nlinarith [pow_pos (show (0 : ℝ) < 1 / 2 by norm_num) (nj.depth + 1)]
    | right _ h2 h3 ih =>
      obtain ⟨nj, i1, i2, i3⟩ := ih
      have e0 := nodeAt_inj i1 h2
      subst e0
      obtain ⟨nc, c1, c2, c3, _⟩ := hstep _ _ _ h2 (.inr h3)
      rw [if_neg (fun h0 => (h.child h2 (.inl h0)).choose_spec.2.2.2.2.2 h0 h3)] at c3
      refine ⟨nc, c1, ?_, ?_⟩ <;> rw [c3, c2] <;> rw [pow_succ (1 / 2 : ℝ) (nj.depth + 1)] <;>
        nlinarith [pow_pos (show (0 : ℝ) < 1 / 2 by norm_num) (nj.depth + 1)]
  have hroot : X 0 = 1 / 2 := by rw [hX]; simp only [List.getD_eq_getElem?_getD, hd.root, Option.getD_some]
  rw [← hX]
  constructor
  · intro k hk
    obtain ⟨r, r1, _⟩ := h.entries 0 h.rootFirst
    obtain ⟨n, n1, _⟩ := h.entries k hk
    obtain ⟨nj, _, j2, j3⟩ := hspread 0 r k r1 (h.under k n1)
    rw [hroot, h.rootDepth r r1] at j2 j3
    have := pow_pos (show (0 : ℝ) < 1 / 2 by norm_num) (nj.depth + 1)
    constructor <;> norm_num at j2 j3 ⊢ <;> linarith
  · intro k n l j hn hl hu
    obtain ⟨nc, c1, c2, c3, _⟩ := hstep k n l hn (.inl hl)
    obtain ⟨nj, _, j2, j3⟩ := hspread l nc j c1 hu
    rw [if_pos hl] at c3
    have := pow_pos (show (0 : ℝ) < 1 / 2 by norm_num) (nj.depth + 1)
    linarith
  · intro k n r j hn hr hu
    obtain ⟨nc, c1, c2, c3, _⟩ := hstep k n r hn (.inr hr)
    obtain ⟨nj, _, j2, j3⟩ := hspread r nc j c1 hu
    rw [if_neg (fun h0 => (h.child hn (.inl h0)).choose_spec.2.2.2.2.2 h0 hr)] at c3
    have := pow_pos (show (0 : ℝ) < 1 / 2 by norm_num) (nj.depth + 1)
    linarith
  · intro k n c hn hc
    obtain ⟨nc, c1, c2, _⟩ := hstep k n c hn hc
    obtain ⟨a1, a2⟩ := hy k n hn
    obtain ⟨b1, b2⟩ := hy c nc c1
    simp only [List.getD_eq_getElem?_getD, a2, b2, Option.getD_some]
    omega
  · obtain ⟨k, n, h1, h2⟩ := hm
    refine ⟨k, h1.1, ?_⟩
    simp only [List.getD_eq_getElem?_getD, (hy k n h1).2, Option.getD_some]
    omega
  · intro k n c hn hc
    obtain ⟨nc, c1, c2, _, c4, c5⟩ := hstep k n c hn hc
    exact ⟨c4, c5⟩

end

/-! ## Paths -/

section
variable {F Y P G : Type} [Num F] {T : Task F Y P G} {c : Ctx F} {D : Data F} {lab : F → Prop} {okP : P → Prop} {train valid : List Nat}
  {arr : TreeArr F P} {w : Work G} {t : GTree F Y P}

theorem pathFrom_spec (h : Facts T c D lab okP train valid arr w t) {xi : List Nat} {x : Nat → Nat} (hx : ∀ j, j < D.d → xi[j]? = some (x j)) :
    ∀ (u : GTree F Y P) (k fuel : Nat) (a : GNode F Y P) (l r : GTree F Y P), u = .node a l r → SubAt t 0 u k → u.size ≤ fuel → Visits arr x k →
      ∃ rows, pathFrom arr xi fuel k = .ok rows ∧ a.rcd.depth + rows.length = (leafNode x u).rcd.depth ∧
        ∀ d row, rows[d]? = some row → row.depth = a.rcd.depth + d ∧ ∃ j, Visits arr x j ∧ RowDescribes arr x row j := by
  intro u
  induction u with
  | leaf a => intro k fuel a' l r h0; exact absurd h0 (by simp)
  | node a l r ihl ihr =>
    intro k fuel a' l' r' h0 hs hfu hv
    simp only [GTree.node.injEq] at h0
    obtain ⟨rfl, rfl, rfl⟩ := h0
    obtain ⟨n, h1, h2⟩ := h.below hs
    simp only [GTree.size] at hfu
    obtain ⟨f, rfl⟩ : ∃ f, fuel = f + 1 := ⟨fuel - 1, by omega⟩
    have hg := h2.ok
    obtain ⟨_, feats, hsamp, _, hsp⟩ := hg.1.split hg.2.1
    have hfd : a.sp.feature < D.d := hsamp.2.2 _ hsp.feature
    have htest := fun b => testLeft_iff h2.holds hg.1 hg.2.1 b
    simp only [GTree.root] at htest
    obtain ⟨t1, t2, t3, t4, -⟩ := htest 0
    have hdep : n.depth = a.rcd.depth := h2.holds.fields.2.2.1
    have hsh : n.isLeaf = false ∧ n.left = some (k + 1 + r.size) ∧ n.right = some (k + 1) := by
      rcases h2.shape with ⟨a', h0, _⟩ | ⟨a', l', r', h0, h1, h2, h3⟩
      · exact absurd h0 (by simp)
      · simp only [GTree.node.injEq] at h0
        obtain ⟨_, _, rfl⟩ := h0
        exact ⟨h1, h2, h3⟩
    obtain ⟨row, hrow⟩ : ∃ row : PathRow, row = ⟨a.rcd.depth, a.sp.feature, a.sp.isCat, if a.sp.isCat then .bins a.sp.partition
      else .threshold (some a.sp.binThreshold), goesLeft a.sp (x a.sp.feature)⟩ := ⟨_, rfl⟩
    have hstep : pathStep arr xi n = .ok (row, if goesLeft a.sp (x a.sp.feature) then k + 1 + r.size else k + 1) := by
      unfold pathStep
      simp only [t1, pyIdx, bind_ok, pyRd, hx _ hfd, t2, t3, hsh.2.1, hsh.2.2, pure_eq_ok, hrow]
      cases hc : a.sp.isCat with
      | true =>
        rw [t4 hc, isBinInPartition_spec _ ((hsp.part hc).1.imp (fun h => Nat.le_of_lt h))]
        simp only [if_true, bind_ok, goesLeft, hc, hdep]
        split <;> simp_all
      | false =>
        simp only [Bool.false_eq_true, if_false, bind_ok, goesLeft, hc, hdep]
        split <;> simp_all
    have hdesc : RowDescribes arr x row k := by
      refine ⟨n, h1, hsh.1, by rw [hrow, hdep], by rw [hrow, t1], by rw [hrow, t2], fun b => ?_, ?_⟩
      · rw [(htest b).2.2.2.2, hrow]
        unfold goesLeft
        cases hc : a.sp.isCat <;> simp [CellLeft]
      · rw [(htest _).2.2.2.2, hrow]
    -- the child
    obtain ⟨u', k', hu', hk', hs', hv', hsz, ihu, hleaf, hdc⟩ : ∃ u' k', (u' = if goesLeft a.sp (x a.sp.feature) then l else r) ∧
        (k' = if goesLeft a.sp (x a.sp.feature) then k + 1 + r.size else k + 1) ∧ SubAt t 0 u' k' ∧ Visits arr x k' ∧ u'.size ≤ f ∧
        (∀ (k fuel : Nat) (a : GNode F Y P) (l r : GTree F Y P), u' = .node a l r → SubAt t 0 u' k → u'.size ≤ fuel → Visits arr x k →
          ∃ rows, pathFrom arr xi fuel k = .ok rows ∧ a.rcd.depth + rows.length = (leafNode x u').rcd.depth ∧
            ∀ d row, rows[d]? = some row → row.depth = a.rcd.depth + d ∧ ∃ j, Visits arr x j ∧ RowDescribes arr x row j) ∧
        leafNode x (.node a l r) = leafNode x u' ∧ u'.root.rcd.depth = a.rcd.depth + 1 := by
      cases hgl : goesLeft a.sp (x a.sp.feature) with
      | true =>
        exact ⟨l, _, rfl, rfl, subAt_left hs, (h.visits_child (h.child_left hs) x).2 ⟨hv, hgl⟩, by omega, ihl, by simp [leafNode, hgl],
          by rw [(h.child_left hs).rcd]; rfl⟩
      | false =>
        exact ⟨r, _, rfl, rfl, subAt_right hs, (h.visits_child (h.child_right hs) x).2 ⟨hv, hgl⟩, by omega, ihr, by simp [leafNode, hgl],
          by rw [(h.child_right hs).rcd]; rfl⟩
    obtain ⟨n', c1, c2⟩ := h.below hs'
    rw [← hk'] at hstep
    simp only [pathFrom, pyRd, h1.2, bind_ok, hstep, c1.2]
    rw [hleaf]
    cases u' with
    | leaf b =>
      have hl' : n'.isLeaf = true := by
        rcases c2.shape with ⟨_, _, h0, _⟩ | ⟨_, _, _, h0, _⟩
        · exact h0
        · exact absurd h0 (by simp)
      refine ⟨[row], by rw [if_pos hl']; rfl, by simp only [leafNode, List.length_singleton]; exact hdc.symm, ?_⟩
      intro d row' hd'
      cases d with
      | zero =>
        simp only [List.getElem?_cons_zero, Option.some.injEq] at hd'
        subst hd'
        exact ⟨by rw [hrow]; rfl, k, hv, hdesc⟩
      | succ d => simp at hd'
    | node b bl br =>
      have hl' : n'.isLeaf = false := by
        rcases c2.shape with ⟨_, h0, _⟩ | ⟨_, _, _, _, h0, _⟩
        · exact absurd h0 (by simp)
        · exact h0
      obtain ⟨rows, r1, r2, r3⟩ := ihu k' f b bl br rfl hs' hsz hv'
      rw [GTree.root] at hdc
      refine ⟨row :: rows, by rw [if_neg (by simp [hl']), r1]; rfl, by rw [← r2, List.length_cons, hdc]; omega, ?_⟩
      intro d row' hd'
      cases d with
      | zero =>
        simp only [List.getElem?_cons_zero, Option.some.injEq] at hd'
        subst hd'
        exact ⟨by rw [hrow]; rfl, k, hv, hdesc⟩
      | succ d =>
        simp only [List.getElem?_cons_succ] at hd'
        obtain ⟨e1, e2⟩ := r3 d row' hd'
        exact ⟨by rw [e1, hdc]; omega, e2⟩

end

end Verif
