import Verif.Spec.FullTree
import Verif.Proofs.GreedyFit
import Verif.Proofs.InspectForest
import Verif.Proofs.Impurity

/-! Trees that are grown without limits have leaves with one label. -/
set_option linter.unusedSectionVars false
namespace Verif

open Spec

/-! ## Zero impurity -/

theorem classW_pos {D : Data ℝ} {l : List Nat} (hw : ∀ i ∈ l, 0 < D.w i) {i : Nat} (hi : i ∈ l) : 0 < classW D l ⌊D.y i⌋₊ := by
  have := totalW_pos (D := D) (l := l.filter fun r => decide (⌊D.y r⌋₊ = ⌊D.y i⌋₊)) (fun r hr => hw r (List.mem_filter.1 hr).1)
    (List.ne_nil_of_mem (List.mem_filter.2 ⟨hi, by simp⟩))
  exact this

theorem class_pure {D : Data ℝ} {n : Nat} {cr : Criterion} {l : List Nat} (hw : ∀ i ∈ l, 0 < D.w i) (hl : ∀ i ∈ l, ClassLabel n (D.y i))
    (h : classImpurity n cr D l ≤ 0) {i r : Nat} (hi : i ∈ l) (hr : r ∈ l) : ⌊D.y r⌋₊ = ⌊D.y i⌋₊ := by
  by_contra hne
  have hW : 0 < totalW D l := totalW_pos hw (List.ne_nil_of_mem hi)
  obtain ⟨p, hp⟩ : ∃ p : Nat → ℝ, p = fun k => classW D l k / totalW D l := ⟨_, rfl⟩
  have hs : ∑ k ∈ Finset.range n, p k = 1 := by
    rw [hp, ← Finset.sum_div, sum_classW hl, div_self hW.ne']
  have h0 : ∀ k, 0 ≤ p k := fun k => by rw [hp]; exact div_nonneg (classW_nonneg (fun i hi => (hw i hi).le) k) hW.le
  have hpos : ∀ {i}, i ∈ l → 0 < p ⌊D.y i⌋₊ := fun hi => by rw [hp]; exact div_pos (classW_pos hw hi) hW
  have hin : ⌊D.y i⌋₊ ∈ Finset.range n := Finset.mem_range.2 (hl i hi)
  have hrn : ⌊D.y r⌋₊ ∈ Finset.range n := Finset.mem_range.2 (hl r hr)
  have h1 : ∀ k ∈ Finset.range n, p k ≤ 1 := fun k hk => by rw [← hs]; exact Finset.single_le_sum (fun j _ => h0 j) hk
  have hlt : p ⌊D.y i⌋₊ < 1 := by
    have h2 : p ⌊D.y i⌋₊ + p ⌊D.y r⌋₊ ≤ 1 := by
      rw [← hs, ← Finset.sum_pair (f := p) (Ne.symm hne)]
      refine Finset.sum_le_sum_of_subset_of_nonneg (fun k hk => ?_) (fun k _ _ => h0 k)
      rcases Finset.mem_insert.1 hk with rfl | hk
      · exact hin
      · rw [Finset.mem_singleton.1 hk]; exact hrn
    linarith [hpos hr]
  have key : ∃ f : ℝ → ℝ, (∀ x, 0 ≤ x → x ≤ 1 → 0 ≤ f x) ∧ (∀ x, 0 < x → x < 1 → 0 < f x) ∧ ∑ k ∈ Finset.range n, f (p k) ≤ 0 := by
    cases cr with
    | gini =>
      refine ⟨fun x => x - x ^ 2, fun x a b => by nlinarith, fun x a b => by nlinarith, ?_⟩
      rw [Finset.sum_sub_distrib, hs, hp]
      exact h
    | entropy =>
      refine ⟨Real.negMulLog, fun x a b => Real.negMulLog_nonneg a b, fun x a b => ?_, by rw [hp]; exact h⟩
      have := Real.log_neg a b
      unfold Real.negMulLog
      nlinarith
  obtain ⟨f, f0, f1, hf⟩ := key
  have : 0 < ∑ k ∈ Finset.range n, f (p k) :=
    Finset.sum_pos' (fun k hk => f0 _ (h0 k) (h1 k hk)) ⟨_, hin, f1 _ (hpos hi) hlt⟩
  linarith

theorem variance_pure {D : Data ℝ} {l : List Nat} (hw : ∀ i ∈ l, 0 < D.w i) (h : variance D l ≤ 0) {i r : Nat} (hi : i ∈ l) (hr : r ∈ l) :
    D.y r = D.y i := by
  have hW : 0 < totalW D l := totalW_pos hw (List.ne_nil_of_mem hi)
  have h0 : (l.map fun i => D.w i * (D.y i - mean D l) ^ 2).sum ≤ 0 := by
    unfold variance at h
    by_contra hc
    exact absurd (div_pos (not_le.1 hc) hW) (not_lt.2 h)
  have hz : ∀ i ∈ l, D.y i = mean D l := by
    intro i hi
    have hle : D.w i * (D.y i - mean D l) ^ 2 ≤ (l.map fun i => D.w i * (D.y i - mean D l) ^ 2).sum :=
      List.single_le_sum (fun x hx => by
        obtain ⟨r, hr, rfl⟩ := List.mem_map.1 hx
        exact mul_nonneg (hw r hr).le (sq_nonneg _)) _ (List.mem_map.2 ⟨i, hi, rfl⟩)
    have h1 : D.w i * (D.y i - mean D l) ^ 2 ≤ 0 := le_trans hle h0
    have h2 : (D.y i - mean D l) ^ 2 ≤ 0 := by
      by_contra hc
      exact absurd (mul_pos (hw i hi) (not_le.1 hc)) (not_lt.2 h1)
    have h3 : D.y i - mean D l = 0 := pow_eq_zero_iff (two_ne_zero) |>.1 (le_antisymm h2 (sq_nonneg _))
    linarith
  rw [hz i hi, hz r hr]

/-! ## No candidates -/

theorem sample_all {d : Nat} {feats : List Nat} (h : IsSample d d feats) {j : Nat} (hj : j < d) : j ∈ feats := by
  obtain ⟨h1, h2, h3⟩ := h
  have hs : feats.toFinset = Finset.range d := Finset.eq_of_subset_of_card_le (fun x hx => Finset.mem_range.2 (h3 x (List.mem_toFinset.1 hx)))
    (by rw [Finset.card_range, List.toFinset_card_of_nodup h2, h1])
  exact List.mem_toFinset.1 (by rw [hs]; exact Finset.mem_range.2 hj)

theorem same_bins {c : Ctx ℝ} {D : Data ℝ} {Ks : List (List Key)} {feats tr va : List Nat} (hKs : ∀ keys ∈ Ks, keys ≠ [])
    (hagg : c.aggregation = false) (hleaf : c.minLeaf = 1) (h : AllCandidates c D Ks feats tr va fun _ => False) {j i r : Nat} (hj : j ∈ feats)
    (hc : j < c.isCategorical.length) (hi : i ∈ tr) (hr : r ∈ tr) : D.X r j = D.X i j := by
  by_contra hne
  have adm : ∀ (goes : Nat → Bool) (a b : Nat), a ∈ tr → b ∈ tr → goes a = true → goes b = false → Admissible c goes tr va := by
    intro goes a b ha hb h1 h2
    rw [Admissible, hleaf, hagg]
    exact ⟨List.length_pos_of_mem (List.mem_filter.2 ⟨ha, h1⟩), List.length_pos_of_mem (List.mem_filter.2 ⟨hb, by simp [h2]⟩), by simp⟩
  obtain ⟨hn, hcat⟩ := h j hj
  cases hk : c.isCategorical[j] with
  | false =>
    have hk' : c.isCategorical[j]? = some false := by rw [List.getElem?_eq_getElem hc, hk]
    rcases Nat.lt_or_gt_of_ne hne with hlt | hlt
    · exact hn hk' (D.X r j) ⟨r, hr, rfl⟩ ⟨i, hi, hlt⟩ (adm _ r i hr hi (by simp) (by simp; omega))
    · exact hn hk' (D.X i j) ⟨i, hi, rfl⟩ ⟨r, hr, hlt⟩ (adm _ i r hi hr (by simp) (by simp; omega))
  | true =>
    obtain ⟨keys, hkeys, hall⟩ := hcat (by rw [List.getElem?_eq_getElem hc, hk])
    obtain ⟨key, hkey⟩ := List.exists_mem_of_ne_nil _ (hKs keys hkeys)
    obtain ⟨o, ho, hsplit⟩ := hall key hkey
    have mi := (ho.mem (D.X i j)).2 ⟨i, hi, rfl⟩
    have mr := (ho.mem (D.X r j)).2 ⟨r, hr, rfl⟩
    cases o with
    | nil => cases mi
    | cons b o =>
      have hb : b ∉ o := (List.nodup_cons.1 ho.nodup).1
      obtain ⟨a, ha, hab⟩ := (ho.mem b).1 (by simp)
      have hne' : o ≠ [] := by
        rintro rfl
        simp only [List.mem_singleton] at mi mr
        exact hne (mr.trans mi.symm)
      obtain ⟨b', hb'⟩ := List.exists_mem_of_ne_nil _ hne'
      obtain ⟨a', ha', hab'⟩ := (ho.mem b').1 (by simp [hb'])
      refine hsplit [b] o rfl (by simp) hne' (adm _ a a' ha ha' (by simp [hab]) ?_)
      have : b' ≠ b := fun e => hb (e ▸ hb')
      simp [hab', this]

/-! ## The leaf of a row -/

theorem land_leaf {F P : Type} [Num F] {t : TreeArr F P} (hfeat : ∀ k n, NodeAt t k n → n.isLeaf = false → ∃ f, n.feature = some f) {x : Nat → Nat} {k : Nat} {b : BTree} (hb : TreeOf t k b) :
    Visits t x k → Visits t x (b.land (rowGoes t x)) ∧ ∃ n, NodeAt t (b.land (rowGoes t x)) n ∧ n.isLeaf = true := by
  induction hb with
  | leaf h1 h2 => exact fun h => ⟨h, _, h1, h2⟩
  | @node k n i j l r h1 h2 h3 h4 _ _ ihl ihr =>
    intro hv
    obtain ⟨f, hf⟩ := hfeat k n h1 h2
    simp only [BTree.land]
    by_cases hg : rowGoes t x k = true
    · rw [if_pos hg]
      refine ihl (.left hv h1 h2 hf ?_ h3)
      simp only [rowGoes, decide_eq_true_eq] at hg
      obtain ⟨n', f', g1, g2, g3⟩ := hg
      obtain rfl : n' = n := Option.some.inj (g1.2.symm.trans h1.2)
      obtain rfl : f' = f := Option.some.inj (g2.symm.trans hf)
      exact g3
    · rw [if_neg hg]
      refine ihr (.right hv h1 h2 hf (fun hT => hg ?_) h4)
      simp only [rowGoes, decide_eq_true_eq]
      exact ⟨n, f, h1, hf, hT⟩

theorem mem_drawnRows {n : Nat} {draws : List Nat} {i : Nat} : i ∈ drawnRows n draws ↔ i < n ∧ i ∈ draws := by
  simp [drawnRows]

/-- A leaf that contains a row with a consistent label contains no other label. -/
theorem _root_.Verif.Spec.Greedy.one_label {P : Type} {I : Data ℝ → List Nat → ℝ} {Ks : List (List Key)} {c : Ctx ℝ} {D : Data ℝ} {n : Nat}
    {draws : List Nat} {arr : TreeArr ℝ P} {α : Type} {lab : Nat → α} (h : Greedy I Ks c none D (drawnRows n draws) (leftOutRows n draws) arr)
    (hKs : ∀ keys ∈ Ks, keys ≠ []) (hagg : c.aggregation = false) (hsplit : c.minSplit = 2) (hleaf : c.minLeaf = 1) (hmf : c.maxFeatures = D.d)
    (hic : c.isCategorical.length = D.d)
    (hpure : ∀ l, (∀ i ∈ l, i < n ∧ i ∈ draws) → I D l ≤ 0 → ∀ i ∈ l, ∀ r ∈ l, lab r = lab i)
    {i : Nat} (hi : i < n) (hid : i ∈ draws) (hcons : Consistent D.d D.X lab draws i) {k : Nat} {node : Node ℝ} (hk : NodeAt arr k node)
    (hlf : node.isLeaf = true) (hv : Visits arr (D.X i) k) {r : Nat} (hr : r < n) (hrd : r ∈ draws) (hrv : Visits arr (D.X r) k) : lab r = lab i := by
  have mem : ∀ {i}, i < n → i ∈ draws → Visits arr (D.X i) k → i ∈ routed arr D (drawnRows n draws) k := fun a b c => by
    unfold routed
    exact List.mem_filter.2 ⟨mem_drawnRows.2 ⟨a, b⟩, by simpa using c⟩
  have hmi := mem hi hid hv
  have hmr := mem hr hrd hrv
  rcases h.leaf k node hk hlf with (h1 | h1 | h1 | h1) | ⟨feats, h1, h2⟩
  · rw [hsplit] at h1
    have : i = r := by
      match hl : routed arr D (drawnRows n draws) k with
      | [] => rw [hl] at hmi; cases hmi
      | [a] =>
        rw [hl, List.mem_singleton] at hmi hmr
        rw [hmi, hmr]
      | a :: b :: l => rw [hl] at h1; simp at h1
    rw [this]
  · rw [hagg] at h1; cases h1.1
  · obtain ⟨m, hm, _⟩ := h1; cases hm
  · exact hpure _ (fun i hi => mem_drawnRows.1 (List.mem_filter.1 hi).1) h1.2 i hmi r hmr
  · rw [hmf] at h1
    exact hcons r hrd fun j hj => same_bins hKs hagg hleaf h2 (sample_all h1 hj) (by rw [hic]; exact hj) hmi hmr

/-! ## Values of a leaf with one label -/

section
variable {P : Type} {S : Sample} {t : TreeArr ℝ P} {k i : Nat}

theorem drawnSum_pure {f : Nat → ℝ} (h : ∀ r < S.n, r ∈ S.draws → Visits t (S.X r) k → f r = f i) :
    S.drawnSum t k f = S.drawnSum t k (fun _ => 1) * f i := by
  unfold Sample.drawnSum
  rw [Finset.sum_mul]
  refine Finset.sum_congr rfl fun r hr => ?_
  by_cases hv : Visits t (S.X r) k
  · rw [if_pos hv, if_pos hv]
    by_cases hd : r ∈ S.draws
    · rw [h r (Finset.mem_range.1 hr) hd hv]; ring
    · rw [List.count_eq_zero.2 hd]; simp
  · rw [if_neg hv, if_neg hv, zero_mul]

theorem drawnSum_pos (hw : ∀ r < S.n, 0 < S.w r) (hi : i < S.n) (hd : i ∈ S.draws) (hv : Visits t (S.X i) k) : 0 < S.drawnSum t k fun _ => 1 := by
  unfold Sample.drawnSum
  refine Finset.sum_pos' (fun r hr => ?_) ⟨i, Finset.mem_range.2 hi, ?_⟩
  · split
    · have := hw r (Finset.mem_range.1 hr)
      positivity
    · exact le_rfl
  · rw [if_pos hv]
    have := hw i hi
    have : 0 < S.draws.count i := List.count_pos_iff.2 hd
    positivity

theorem average_pure {y : Nat → ℝ} (hw : ∀ r < S.n, 0 < S.w r) (hi : i < S.n) (hd : i ∈ S.draws) (hv : Visits t (S.X i) k)
    (h : ∀ r < S.n, r ∈ S.draws → Visits t (S.X r) k → y r = y i) : S.average t y k = y i := by
  have := drawnSum_pos hw hi hd hv
  rw [Sample.average, drawnSum_pure h]
  field_simp

theorem share_pure {nC : Nat} {dir : ℝ} {lab : Nat → Nat} (h : ∀ r < S.n, r ∈ S.draws → Visits t (S.X r) k → lab r = lab i) (j : Nat) :
    S.share t nC dir lab k j = (S.drawnSum t k (fun _ => 1) * (if lab i = j then 1 else 0) + dir) / (S.drawnSum t k (fun _ => 1) + nC * dir) := by
  rw [Sample.share, drawnSum_pure (f := fun i => if lab i = j then 1 else 0) fun r a b c => by rw [h r a b c]]

end

/-- The bootstrap of a seed is determined. -/
theorem _root_.Verif.Spec.BootstrapOf.unique {draw : Nat → List Nat} {n seed : Nat} {l l' : List Nat} (h : BootstrapOf draw n seed l)
    (h' : BootstrapOf draw n seed l') : l = l' := by
  obtain ⟨m, h1, ⟨i, hi, hi'⟩, h3⟩ := h
  obtain ⟨m', g1, ⟨r, hr, hr'⟩, g3⟩ := h'
  rcases Nat.lt_trichotomy m m' with hlt | rfl | hlt
  · exact absurd (g3 m hlt i hi) (h1 ▸ hi')
  · rw [h1, g1]
  · exact absurd (h3 m' hlt r hr) (g1 ▸ hr')

end Verif
