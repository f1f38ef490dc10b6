import Verif.Proofs.Constant
import Verif.Spec.Oracle

set_option linter.unusedSectionVars false

/-! An average with exponential weights is almost as good as the best of the prunings. -/
namespace Verif

open Spec

/-! ## Exponential weights -/

section
variable {α : Type} {l : List α} {π L : α → ℝ} {η : ℝ}

/-- The mean of `L` under exponential weights is at most `L q` plus the price `-log (π q) / η` of `q`. -/
theorem gibbs (hη : 0 < η) (hπ : ∀ p ∈ l, 0 < π p) (hs : (l.map π).sum ≤ 1) {q : α} (hq : q ∈ l) :
    (l.map fun p => π p * Real.exp (-η * L p) * L p).sum / (l.map fun p => π p * Real.exp (-η * L p)).sum ≤ L q + -Real.log (π q) / η := by
  obtain ⟨Z, hZ⟩ : ∃ Z, Z = (l.map fun p => π p * Real.exp (-η * L p)).sum := ⟨_, rfl⟩
  have hle : π q * Real.exp (-η * L q) ≤ Z := by
    rw [hZ]
    exact List.single_le_sum (fun x hx => by
      obtain ⟨p, hp, rfl⟩ := List.mem_map.1 hx
      have := hπ p hp
      positivity) _ (List.mem_map.2 ⟨q, hq, rfl⟩)
  have hq0 : 0 < π q * Real.exp (-η * L q) := mul_pos (hπ q hq) (Real.exp_pos _)
  have hZ0 : 0 < Z := lt_of_lt_of_le hq0 hle
  rw [← hZ]
  have key : (l.map fun p => π p * Real.exp (-η * L p) * (η * L p + Real.log Z)).sum ≤ 0 := by
    have h1 : (l.map fun p => π p * Real.exp (-η * L p) * (η * L p + Real.log Z)).sum ≤
        (l.map fun p => Z * π p - π p * Real.exp (-η * L p)).sum := by
      refine List.sum_le_sum fun p hp => ?_
      have h2 := Real.add_one_le_exp (η * L p + Real.log Z)
      rw [Real.exp_add, Real.exp_log hZ0] at h2
      have h3 : η * L p + Real.log Z ≤ Real.exp (η * L p) * Z - 1 := by linarith
      have h4 := mul_le_mul_of_nonneg_left h3 (mul_pos (hπ p hp) (Real.exp_pos (-η * L p))).le
      refine h4.trans (le_of_eq ?_)
      have h5 : Real.exp (-η * L p) * Real.exp (η * L p) = 1 := by rw [← Real.exp_add]; simp
      linear_combination (π p * Z) * h5
    have h6 : (l.map fun p => Z * π p - π p * Real.exp (-η * L p)).sum = Z * (l.map π).sum - Z := by
      have : ∀ p, Z * π p - π p * Real.exp (-η * L p) = Z * π p + -1 * (π p * Real.exp (-η * L p)) := fun p => by ring
      simp only [this]
      rw [List.sum_map_add, List.sum_map_mul_left, List.sum_map_mul_left, ← hZ]
      ring
    rw [h6] at h1
    nlinarith
  have h7 : (l.map fun p => π p * Real.exp (-η * L p) * (η * L p + Real.log Z)).sum =
      η * (l.map fun p => π p * Real.exp (-η * L p) * L p).sum + Z * Real.log Z := by
    have : ∀ p, π p * Real.exp (-η * L p) * (η * L p + Real.log Z) = η * (π p * Real.exp (-η * L p) * L p) + π p * Real.exp (-η * L p) * Real.log Z :=
      fun p => by ring
    simp only [this]
    rw [List.sum_map_add, List.sum_map_mul_left, List.sum_map_mul_right, ← hZ]
  rw [h7] at key
  have hlog : Real.log (π q) - η * L q ≤ Real.log Z := by
    have := Real.log_le_log hq0 hle
    rw [Real.log_mul (hπ q hq).ne' (Real.exp_pos _).ne', Real.log_exp] at this
    linarith
  rw [div_le_iff₀ hZ0]
  have h8 : (L q + -Real.log (π q) / η) * Z = (η * L q - Real.log (π q)) * Z / η := by field_simp; ring
  rw [h8, le_div_iff₀ hη]
  have := mul_le_mul_of_nonneg_right hlog hZ0.le
  linarith

/-- Jensen's inequality from a tangent at the mean. -/
theorem jensen {W v : α → ℝ} {f : ℝ → ℝ} {c : ℝ} (hW : ∀ p ∈ l, 0 ≤ W p) (hpos : 0 < (l.map W).sum)
    (ht : ∀ p ∈ l, f ((l.map fun p => W p * v p).sum / (l.map W).sum) + c * (v p - (l.map fun p => W p * v p).sum / (l.map W).sum) ≤ f (v p)) :
    f ((l.map fun p => W p * v p).sum / (l.map W).sum) ≤ (l.map fun p => W p * f (v p)).sum / (l.map W).sum := by
  obtain ⟨m, hm⟩ : ∃ m, m = (l.map fun p => W p * v p).sum / (l.map W).sum := ⟨_, rfl⟩
  rw [← hm] at ht ⊢
  rw [le_div_iff₀ hpos]
  have h1 : (l.map fun p => W p * (f m + c * (v p - m))).sum ≤ (l.map fun p => W p * f (v p)).sum :=
    List.sum_le_sum fun p hp => mul_le_mul_of_nonneg_left (ht p hp) (hW p hp)
  have h2 : (l.map fun p => W p * (f m + c * (v p - m))).sum = (l.map W).sum * f m + c * ((l.map fun p => W p * v p).sum - (l.map W).sum * m) := by
    have : ∀ p, W p * (f m + c * (v p - m)) = W p * (f m - c * m) + c * (W p * v p) := fun p => by ring
    simp only [this]
    rw [List.sum_map_add, List.sum_map_mul_right, List.sum_map_mul_left]
    ring
  have h3 : (l.map fun p => W p * v p).sum = (l.map W).sum * m := by rw [hm]; field_simp
  rw [h2, h3, sub_self, mul_zero, add_zero] at h1
  linarith

end

/-! ## Prunings -/

theorem sum_list_finset {α : Type} (l : List α) (s : Finset Nat) (f : α → Nat → ℝ) :
    (l.map fun p => ∑ i ∈ s, f p i).sum = ∑ i ∈ s, (l.map fun p => f p i).sum := by
  induction l with
  | nil => simp
  | cons p l ih => simp [ih, Finset.sum_add_distrib]

/-- The prior weights of the prunings add up to one. -/
theorem prior_sum (b : BTree) : ((prunings b).map fun p => (1 / 2 : ℝ) ^ p.inner).sum = 1 := by
  induction b with
  | leaf k => simp [prunings, Pruning.inner]
  | node k l r ihl ihr =>
    rw [prunings, List.map_cons, List.sum_cons]
    have h : (((prunings l).flatMap fun a => (prunings r).map fun b => Pruning.node k a b).map fun p => (1 / 2 : ℝ) ^ p.inner).sum =
        1 / 2 * (((prunings l).map fun p => (1 / 2 : ℝ) ^ p.inner).sum * ((prunings r).map fun p => (1 / 2 : ℝ) ^ p.inner).sum) := by
      rw [sum_flatMap_map]
      rw [sum_product (prunings l) (prunings r) (fun a b => (1 / 2 : ℝ) ^ (Pruning.node k a b).inner) (fun a => 1 / 2 * (1 / 2 : ℝ) ^ a.inner)
        (fun b => (1 / 2 : ℝ) ^ b.inner) (fun a b => by simp only [Pruning.inner, pow_add, pow_one])]
      rw [List.sum_map_mul_left]
      ring
    rw [h, ihl, ihr]
    simp [Pruning.inner]
    norm_num

/-- Losses are non-negative combinations, and exponential weights are positive. -/
theorem weight_sum_pos (b : BTree) (step : ℝ) (loss : Nat → ℝ) :
    0 < ((prunings b).map fun p => (1 / 2) ^ p.inner * Real.exp (-step * (p.leaves.map loss).sum)).sum := by
  refine List.sum_pos _ (fun x hx => ?_) (by cases b <;> simp [prunings])
  obtain ⟨p, -, rfl⟩ := List.mem_map.1 hx
  positivity

section
variable {P : Type} {t : TreeArr ℝ P}

/-- Every inner node has a feature. -/
def HasFeatures (t : TreeArr ℝ P) : Prop := ∀ k n, NodeAt t k n → n.isLeaf = false → ∃ f, n.feature = some f

theorem visits_left_iff (hw : WellFormed t) (hf : HasFeatures t) {x : Nat → Nat} {k l : Nat} {n : Node ℝ} (hn : NodeAt t k n) (hleaf : n.isLeaf = false)
    (hl : n.left = some l) : Visits t x l ↔ Visits t x k ∧ rowGoes t x k = true := by
  obtain ⟨f, hf⟩ := hf k n hn hleaf
  have hgo : rowGoes t x k = true ↔ TestLeft t n (x f) := by
    simp only [rowGoes, decide_eq_true_eq]
    constructor
    · rintro ⟨n', f', h1, h2, h3⟩
      cases nodeAt_inj hn h1
      rw [hf] at h2; cases h2
      exact h3
    · exact fun h => ⟨n, f, hn, hf, h⟩
  rw [hgo]
  exact ⟨fun h => ⟨hw.visits_parent hn (.inl hl) h, hw.visits_left hn hf hl h⟩, fun h => .left h.1 hn hleaf hf h.2 hl⟩

theorem visits_right_iff (hw : WellFormed t) (hf : HasFeatures t) {x : Nat → Nat} {k r : Nat} {n : Node ℝ} (hn : NodeAt t k n) (hleaf : n.isLeaf = false)
    (hr : n.right = some r) : Visits t x r ↔ Visits t x k ∧ rowGoes t x k = false := by
  obtain ⟨f, hf⟩ := hf k n hn hleaf
  have hgo : rowGoes t x k = false ↔ ¬TestLeft t n (x f) := by
    simp only [rowGoes, decide_eq_false_iff_not]
    refine not_congr ⟨?_, fun h => ⟨n, f, hn, hf, h⟩⟩
    rintro ⟨n', f', h1, h2, h3⟩
    cases nodeAt_inj hn h1
    rw [hf] at h2; cases h2
    exact h3
  rw [hgo]
  exact ⟨fun h => ⟨hw.visits_parent hn (.inr hr) h, hw.visits_right hn hf hr h⟩, fun h => .right h.1 hn hleaf hf h.2 hr⟩

/-- The losses of the leaves of a pruning add up to the loss of the values at the leaves that contain the rows. -/
theorem leaves_sum (hw : WellFormed t) (hf : HasFeatures t) (S : Sample) (h : Nat → Nat → ℝ) {k : Nat} {b : BTree} (hb : TreeOf t k b) :
    ∀ p ∈ prunings b, (p.leaves.map fun j => S.leftOutSum t j (h j)).sum =
      open Classical in ∑ i ∈ Finset.range S.n, if Visits t (S.X i) k ∧ i ∉ S.draws then S.w i * h (p.land (rowGoes t (S.X i))) i else 0 := by
  induction hb with
  | leaf h1 h2 =>
    intro p hp
    simp only [prunings, List.mem_singleton] at hp
    subst hp
    simp [Pruning.leaves, Pruning.land, Sample.leftOutSum]
  | @node k n i j l r h1 h2 h3 h4 _ _ ihl ihr =>
    intro p hp
    simp only [prunings, List.mem_cons, List.mem_flatMap, List.mem_map] at hp
    rcases hp with rfl | ⟨p1, hp1, p2, hp2, rfl⟩
    · simp [Pruning.leaves, Pruning.land, Sample.leftOutSum]
    · rw [Pruning.leaves, List.map_append, List.sum_append, ihl p1 hp1, ihr p2 hp2, ← Finset.sum_add_distrib]
      refine Finset.sum_congr rfl fun m _ => ?_
      have g1 := visits_left_iff (x := S.X m) hw hf h1 h2 h3
      have g2 := visits_right_iff (x := S.X m) hw hf h1 h2 h4
      simp only [Pruning.land]
      by_cases hv : Visits t (S.X m) k <;> by_cases hd : m ∉ S.draws <;> cases hg : rowGoes t (S.X m) k <;> simp [g1, g2, hv, hd, hg]

/-- The aggregated prediction is at most worse by `log 2 / step * p.inner` than the pruning `p`, for a loss `f i` with tangents. -/
theorem oracle (hw : WellFormed t) (hf : HasFeatures t) (S : Sample) {step : ℝ} (hstep : 0 < step) {b : BTree} (hb : TreeOf t 0 b)
    (hS : ∀ i < S.n, 0 ≤ S.w i) {val : Nat → Nat → ℝ} {f : Nat → ℝ → ℝ} {Q : ℝ → Prop} (hQ : ∀ i k, Q (val i k))
    (hmean : ∀ i loss, Q (expAverage b step loss (rowGoes t (S.X i)) (val i)))
    (htan : ∀ i m, Q m → ∃ c, ∀ v, Q v → f i m + c * (v - m) ≤ f i v) {q : Pruning} (hq : q ∈ prunings b) :
    ∑ i ∈ (Finset.range S.n).filter (fun i => i ∉ S.draws),
        S.w i * f i (expAverage b step (fun k => S.leftOutSum t k fun i => f i (val i k)) (rowGoes t (S.X i)) (val i)) ≤
      ∑ i ∈ (Finset.range S.n).filter (fun i => i ∉ S.draws), S.w i * f i (val i (q.land (rowGoes t (S.X i)))) + Real.log 2 / step * q.inner := by
  obtain ⟨loss, hloss⟩ : ∃ loss, loss = fun k => S.leftOutSum t k fun i => f i (val i k) := ⟨_, rfl⟩
  obtain ⟨W, hW⟩ : ∃ W : Pruning → ℝ, W = fun p => (1 / 2) ^ p.inner * Real.exp (-step * (p.leaves.map loss).sum) := ⟨_, rfl⟩
  rw [← hloss]
  have hsum : ∀ p ∈ prunings b, (p.leaves.map loss).sum = ∑ i ∈ (Finset.range S.n).filter (fun i => i ∉ S.draws), S.w i * f i (val i (p.land (rowGoes t (S.X i)))) := by
    intro p hp
    rw [hloss, leaves_sum hw hf S (fun k i => f i (val i k)) hb p hp, Finset.sum_filter]
    refine Finset.sum_congr rfl fun i _ => ?_
    simp only [show Visits t (S.X i) 0 from .root, true_and]
  have hZ : 0 < ((prunings b).map W).sum := by rw [hW]; exact weight_sum_pos b step loss
  have h1 : ∀ i ∈ (Finset.range S.n).filter (fun i => i ∉ S.draws), S.w i * f i (expAverage b step loss (rowGoes t (S.X i)) (val i)) ≤
      S.w i * (((prunings b).map fun p => W p * f i (val i (p.land (rowGoes t (S.X i))))).sum / ((prunings b).map W).sum) := by
    intro i hi
    refine mul_le_mul_of_nonneg_left ?_ (hS i (Finset.mem_range.1 (Finset.mem_filter.1 hi).1))
    obtain ⟨c, hc⟩ := htan i _ (hmean i loss)
    have := jensen (l := prunings b) (W := W) (v := fun p => val i (p.land (rowGoes t (S.X i)))) (f := f i) (c := c)
      (fun p _ => by rw [hW]; positivity) hZ
    rw [hW] at this ⊢
    exact this fun p _ => hc _ (hQ i _)
  refine (Finset.sum_le_sum h1).trans ?_
  have h2 : ∑ i ∈ (Finset.range S.n).filter (fun i => i ∉ S.draws),
      S.w i * (((prunings b).map fun p => W p * f i (val i (p.land (rowGoes t (S.X i))))).sum / ((prunings b).map W).sum) =
      ((prunings b).map fun p => W p * (p.leaves.map loss).sum).sum / ((prunings b).map W).sum := by
    rw [List.map_congr_left (f := fun p => W p * (p.leaves.map loss).sum) (g := fun p => ∑ i ∈ (Finset.range S.n).filter (fun i => i ∉ S.draws), W p * (S.w i * f i (val i (p.land (rowGoes t (S.X i))))))
      fun p hp => by rw [hsum p hp, Finset.mul_sum]]
    rw [sum_list_finset, Finset.sum_div]
    refine Finset.sum_congr rfl fun i _ => ?_
    rw [← mul_div_assoc, ← List.sum_map_mul_left]
    congr 2
    exact List.map_congr_left fun p _ => by ring
  rw [h2, ← hsum q hq]
  have h3 := gibbs (l := prunings b) (π := fun p => (1 / 2 : ℝ) ^ p.inner) (L := fun p => (p.leaves.map loss).sum) hstep (fun p _ => by positivity) (prior_sum b).le hq
  rw [hW]
  refine h3.trans (le_of_eq ?_)
  rw [Real.log_pow, one_div, Real.log_inv]
  ring

theorem expAverage_pos {b : BTree} {step : ℝ} {loss : Nat → ℝ} {goes : Nat → Bool} {val : Nat → ℝ} (h : ∀ k, 0 < val k) : 0 < expAverage b step loss goes val := by
  refine div_pos (List.sum_pos _ (fun x hx => ?_) (by cases b <;> simp [prunings])) (weight_sum_pos b step loss)
  obtain ⟨p, -, rfl⟩ := List.mem_map.1 hx
  have := h (p.land goes)
  positivity

theorem drawnSum_nonneg {S : Sample} (hS : ∀ i < S.n, 0 ≤ S.w i) (k : Nat) {f : Nat → ℝ} (hf : ∀ i, 0 ≤ f i) : 0 ≤ S.drawnSum t k f := by
  unfold Sample.drawnSum
  refine Finset.sum_nonneg fun i hi => ?_
  split
  · have := hS i (Finset.mem_range.1 hi)
    have := hf i
    positivity
  · exact le_rfl

theorem share_pos {S : Sample} (hS : ∀ i < S.n, 0 ≤ S.w i) {nC : Nat} {dir : ℝ} (hn : 0 < nC) (hd : 0 < dir) (lab : Nat → Nat) (k j : Nat) :
    0 < S.share t nC dir lab k j := by
  have h1 := drawnSum_nonneg (t := t) hS k (f := fun i => if lab i = j then 1 else 0) (fun i => by split <;> norm_num)
  have h2 := drawnSum_nonneg (t := t) hS k (f := fun _ => 1) (fun i => zero_le_one)
  unfold Sample.share
  positivity

theorem share_root {S : Sample} {nC : Nat} {dir : ℝ} {lab : Nat → Nat} (j : Nat) : S.share t nC dir lab 0 j = frequency S nC dir lab j := by
  simp [Sample.share, Sample.drawnSum, frequency, show ∀ x, Visits t x 0 from fun _ => .root]

theorem average_root {S : Sample} {y : Nat → ℝ} : S.average t y 0 = drawnMean S y := by
  simp [Sample.average, Sample.drawnSum, drawnMean, show ∀ x, Visits t x 0 from fun _ => .root]

/-- There is a pruning with the root as its only leaf. -/
theorem prune_root {b : BTree} (hb : TreeOf t 0 b) : ∃ q ∈ prunings b, q.inner ≤ 1 ∧ ∀ goes, q.land goes = 0 := by
  cases hb with
  | leaf => exact ⟨.full 0, by simp [prunings], by simp [Pruning.inner], fun _ => rfl⟩
  | node => exact ⟨.cut 0, by simp [prunings], by simp [Pruning.inner], fun _ => rfl⟩

/-- The pruning that removes nothing. -/
theorem prune_full (b : BTree) : ∃ q ∈ prunings b, q.inner = b.splits ∧ ∀ goes, q.land goes = b.land goes := by
  induction b with
  | leaf k => exact ⟨.full k, by simp [prunings], rfl, fun _ => rfl⟩
  | node k l r ihl ihr =>
    obtain ⟨a, h1, h2, h3⟩ := ihl
    obtain ⟨c, g1, g2, g3⟩ := ihr
    refine ⟨.node k a c, ?_, ?_, fun goes => ?_⟩
    · simp only [prunings, List.mem_cons, List.mem_flatMap, List.mem_map]
      exact .inr ⟨a, h1, c, g1, rfl⟩
    · simp only [Pruning.inner, BTree.splits, h2, g2]
    · simp only [Pruning.land, BTree.land, h3, g3]

theorem _root_.Verif.Spec.TreeLimits.hasFeatures {ms ml : Nat} {lim : Option Nat} {agg : Bool} {n : Nat} {X : Nat → Nat → Nat} {draws : List Nat}
    (h : TreeLimits ms ml lim agg n X draws t) (hml : 1 ≤ ml) : HasFeatures t := by
  intro k node hn hl
  obtain ⟨hw, hall⟩ := h
  obtain ⟨l, r, nl, nr, e1, e2, -, h1, h2, h3, h4, -⟩ := hw.children k node hn hl
  obtain ⟨-, -, -, a1, -⟩ := hall l nl h3
  obtain ⟨i, hi⟩ := List.exists_mem_of_length_pos (lt_of_lt_of_le (by omega) (a1 (by omega)).1)
  simp only [List.mem_filter, decide_eq_true_eq] at hi
  obtain ⟨p, -, hu⟩ := hw.parent l nl h3 (by omega)
  have hk : k = p := hu k ⟨node, hn, .inl e1⟩
  have hv := hi.2
  generalize X i = x at hv
  cases hv with
  | root => omega
  | left g0 g1 _ g3 _ g5 =>
    obtain rfl := hk.trans (hu _ ⟨_, g1, .inl g5⟩).symm
    cases nodeAt_inj hn g1
    exact ⟨_, g3⟩
  | right g0 g1 _ g3 _ g5 =>
    obtain rfl := hk.trans (hu _ ⟨_, g1, .inr g5⟩).symm
    cases nodeAt_inj hn g1
    exact ⟨_, g3⟩

variable (hw : WellFormed t) (hf : HasFeatures t) {S : Sample} {step : ℝ} (hstep : 0 < step) {b : BTree} (hb : TreeOf t 0 b) (hS : ∀ i < S.n, 0 ≤ S.w i)
  {q : Pruning} (hq : q ∈ prunings b)
include hw hf hstep hb hS hq

/-- The inequality for the logarithmic loss. -/
theorem oracle_log {nC : Nat} {dir : ℝ} (hn : 0 < nC) (hd : 0 < dir) (lab : Nat → Nat) :
    outOfBagLog S lab (fun i j => expAverage b step (S.logLoss t nC dir lab) (rowGoes t (S.X i)) fun k => S.share t nC dir lab k j) ≤
      outOfBagLog S lab (fun i j => S.share t nC dir lab (q.land (rowGoes t (S.X i))) j) + Real.log 2 / step * q.inner := by
  refine oracle hw hf S hstep hb hS (val := fun i k => S.share t nC dir lab k (lab i)) (f := fun _ v => -Real.log v) (Q := fun v => 0 < v)
    (fun i k => share_pos hS hn hd lab k _) (fun i loss => expAverage_pos fun k => share_pos hS hn hd lab k _) (fun i m hm => ⟨-(1 / m), fun v hv => ?_⟩) hq
  have h1 := Real.log_le_sub_one_of_pos (div_pos hv hm)
  rw [Real.log_div hv.ne' hm.ne'] at h1
  have h2 : -(1 / m) * (v - m) = 1 - v / m := by field_simp; ring
  rw [h2]
  linarith

/-- The inequality for the square loss. -/
theorem oracle_square (y : Nat → ℝ) :
    outOfBagSquare S y (fun i => expAverage b step (S.squareLoss t y) (rowGoes t (S.X i)) (S.average t y)) ≤
      outOfBagSquare S y (fun i => S.average t y (q.land (rowGoes t (S.X i)))) + Real.log 2 / step * q.inner := by
  refine oracle hw hf S hstep hb hS (val := fun _ k => S.average t y k) (f := fun i v => (y i - v) ^ 2) (Q := fun _ => True)
    (fun _ _ => trivial) (fun _ _ => trivial) (fun i m _ => ⟨-2 * (y i - m), fun v _ => ?_⟩) hq
  nlinarith [sq_nonneg (v - m)]

end

end Verif
