import Verif.Proofs.Climb
import Verif.Proofs.RealTree
import Verif.Spec.Ctw
import Mathlib.Analysis.SpecialFunctions.Exp

set_option linter.unusedSectionVars false

/-! Aggregation over the real numbers. -/
namespace Verif

open Spec

variable {Y P G : Type}

theorem logSum2Exp_real (a b : ℝ) : logSum2Exp a b = Real.log ((Real.exp a + Real.exp b) / 2) := by
  have key : ∀ a b : ℝ, a + Real.log ((1 + Real.exp (b - a)) / 2) = Real.log ((Real.exp a + Real.exp b) / 2) := by
    intro a b
    have h1 : Real.exp a * ((1 + Real.exp (b - a)) / 2) = (Real.exp a + Real.exp b) / 2 := by
      rw [Real.exp_sub]; field_simp
    rw [← h1, Real.log_mul (Real.exp_pos a).ne' (by positivity), Real.log_exp]
  unfold logSum2Exp
  simp only [Num.lt, Num.add, Num.log, Num.div, Num.one, Num.exp, Num.sub, Num.ofNat, Nat.cast_ofNat]
  split
  · exact key a b
  · rw [key b a, add_comm]

/-- The total weight of the prunings of a subtree. -/
noncomputable def expW (step : ℝ) (t : GTree ℝ Y P) : ℝ := Real.exp (treeLogW step t)

theorem expW_pos (step : ℝ) (t : GTree ℝ Y P) : 0 < expW step t := Real.exp_pos _

theorem expW_leaf (step : ℝ) (a : GNode ℝ Y P) : expW step (.leaf a) = Real.exp (-step * a.nc.loss) := rfl

theorem expW_node (step : ℝ) (a : GNode ℝ Y P) (l r : GTree ℝ Y P) :
    expW step (.node a l r) = (Real.exp (-step * a.nc.loss) + expW step l * expW step r) / 2 := by
  unfold expW
  simp only [treeLogW, logSum2Exp_real]
  rw [Real.exp_log (by positivity)]
  simp only [Num.mul, Num.neg, Num.add, Real.exp_add]

theorem alphaOf_real (step : ℝ) (t : GTree ℝ Y P) :
    alphaOf step t = 1 / 2 * Real.exp (-step * t.root.nc.loss) / expW step t := by
  unfold alphaOf expW
  simp only [Num.mul, Num.half, Num.exp, Num.sub, Num.neg, Real.exp_sub]
  ring

theorem alphaOf_node (step : ℝ) (a : GNode ℝ Y P) (l r : GTree ℝ Y P) :
    alphaOf step (.node a l r) = Real.exp (-step * a.nc.loss) / (Real.exp (-step * a.nc.loss) + expW step l * expW step r) := by
  have h1 := expW_pos step l
  have h2 := expW_pos step r
  have h3 := Real.exp_pos (-step * a.nc.loss)
  rw [alphaOf_real, expW_node]
  simp only [GTree.root]
  field_simp

theorem alphaOf_mem (step : ℝ) (a : GNode ℝ Y P) (l r : GTree ℝ Y P) :
    0 < alphaOf step (.node a l r) ∧ alphaOf step (.node a l r) < 1 := by
  have h1 := expW_pos step l
  have h2 := expW_pos step r
  have h3 := Real.exp_pos (-step * a.nc.loss)
  rw [alphaOf_node]
  constructor
  · positivity
  · rw [div_lt_one (by positivity)]
    have := mul_pos h1 h2
    linarith

theorem mixF_real (α a b : ℝ) : mixF α a b = α * a + (1 - α) * b := rfl

/-- A convex combination. -/
theorem aggOf_mem {step : ℝ} {g : GNode ℝ Y P → ℝ} {x : Nat → Nat} {lo hi : ℝ} : ∀ (t : GTree ℝ Y P) (k : Nat),
    (∀ u j, SubAt t k u j → lo ≤ g u.root ∧ g u.root ≤ hi) → lo ≤ aggOf step g mixF x t ∧ aggOf step g mixF x t ≤ hi := by
  intro t
  induction t with
  | leaf a => exact fun k h => h _ k (.refl _ _)
  | node a l r ihl ihr =>
    intro k h
    obtain ⟨a0, a1⟩ := alphaOf_mem step a l r
    have h0 := h _ k (.refl _ _)
    simp only [GTree.root] at h0
    simp only [aggOf, mixF_real]
    have h1 : lo ≤ (if goesLeft a.sp (x a.sp.feature) then aggOf step g mixF x l else aggOf step g mixF x r) ∧
        (if goesLeft a.sp (x a.sp.feature) then aggOf step g mixF x l else aggOf step g mixF x r) ≤ hi := by
      split
      · exact ihl (k + 1 + r.size) fun u j hu => h u j (.left hu)
      · exact ihr (k + 1) fun u j hu => h u j (.right hu)
    generalize (if goesLeft a.sp (x a.sp.feature) then aggOf step g mixF x l else aggOf step g mixF x r) = v at h1
    generalize alphaOf step (.node a l r) = α at a0 a1
    constructor <;> nlinarith

/-- The tree of indices. -/
def idxTree : GTree ℝ Y P → Nat → BTree
  | .leaf _, k => .leaf k
  | .node _ l r, k => .node k (idxTree l (k + 1 + r.size)) (idxTree r (k + 1))

theorem sum_product {α β : Type} (l1 : List α) (l2 : List β) (f : α → β → ℝ) (u : α → ℝ) (v : β → ℝ)
    (h : ∀ a b, f a b = u a * v b) :
    (l1.map fun a => (l2.map fun b => f a b).sum).sum = (l1.map u).sum * (l2.map v).sum := by
  induction l1 with
  | nil => simp
  | cons a l ih =>
    simp only [List.map_cons, List.sum_cons, ih, add_mul]
    congr 1
    simp only [h, List.sum_map_mul_left]

theorem sum_flatMap_map {α β γ : Type} (l1 : List α) (l2 : List β) (c : α → β → γ) (W : γ → ℝ) :
    ((l1.flatMap fun a => l2.map fun b => c a b).map W).sum = (l1.map fun a => (l2.map fun b => W (c a b)).sum).sum := by
  induction l1 with
  | nil => simp
  | cons a l ih =>
    simp only [List.flatMap_cons, List.map_append, List.sum_append, ih, List.map_cons, List.sum_cons, List.map_map]
    rfl

section
variable {T : Task ℝ Y P G} {c : Ctx ℝ} {D : Data ℝ} {lab : ℝ → Prop} {okP : P → Prop} {train valid : List Nat}
  {arr : TreeArr ℝ P} {w : Work G} {t : GTree ℝ Y P}

theorem Facts.treeOf (h : Facts T c D lab okP train valid arr w t) : ∀ (u : GTree ℝ Y P) (k : Nat), SubAt t 0 u k →
    TreeOf arr k (idxTree u k) := by
  intro u
  induction u with
  | leaf a =>
    intro k hs
    obtain ⟨n, h1, h2⟩ := h.below hs
    rcases h2.shape with ⟨_, _, h0, _⟩ | ⟨_, _, _, h0, _⟩
    · exact .leaf h1 h0
    · exact absurd h0 (by simp)
  | node a l r ihl ihr =>
    intro k hs
    obtain ⟨n, h1, h2⟩ := h.below hs
    rcases h2.shape with ⟨_, h0, _⟩ | ⟨a', l', r', h0, h3, h4, h5⟩
    · exact absurd h0 (by simp)
    · simp only [GTree.node.injEq] at h0
      obtain ⟨_, _, rfl⟩ := h0
      exact .node h1 h3 h4 h5 (ihl _ (subAt_left hs)) (ihr _ (subAt_right hs))

theorem Facts.lossAt (h : Facts T c D lab okP train valid arr w t) {u : GTree ℝ Y P} {k : Nat} (hs : SubAt t 0 u k) :
    lossAt arr k = u.root.nc.loss := by
  obtain ⟨n, h1, h2⟩ := h.below hs
  unfold Spec.lossAt
  rw [h1.2, ← h2.holds.isLeaf.2]

theorem Facts.rowGoes (h : Facts T c D lab okP train valid arr w t) {a : GNode ℝ Y P} {l r : GTree ℝ Y P} {k : Nat}
    (hs : SubAt t 0 (.node a l r) k) (x : Nat → Nat) : rowGoes arr x k = goesLeft a.sp (x a.sp.feature) := by
  obtain ⟨n, h1, h2⟩ := h.below hs
  have ht := fun bin => testLeft_iff h2.holds h2.ok.1 h2.ok.2.1 bin
  simp only [GTree.root] at ht
  rw [Bool.eq_iff_iff]
  simp only [Spec.rowGoes, decide_eq_true_eq]
  constructor
  · rintro ⟨m, f, e1, e2, e3⟩
    have := e1.2
    rw [h1.2] at this
    injection this with this
    subst this
    rw [(ht 0).1] at e2
    injection e2 with e2
    subst e2
    exact ((ht _).2.2.2.2).1 e3
  · exact fun h0 => ⟨n, _, h1, (ht 0).1, ((ht _).2.2.2.2).2 h0⟩

theorem weight_node (arr : TreeArr ℝ P) (step : ℝ) (k : Nat) (p q : Pruning) :
    pruningWeight arr step (.node k p q) = 1 / 2 * (pruningWeight arr step p * pruningWeight arr step q) := by
  simp only [pruningWeight, Pruning.inner, Pruning.leaves, List.map_append, List.sum_append, mul_add, Real.exp_add, pow_add]
  ring

/-- Total weight and weighted sum over the prunings of a subtree. -/
theorem Facts.sums (h : Facts T c D lab okP train valid arr w t) (step : ℝ) (x : Nat → Nat) {g : GNode ℝ Y P → ℝ}
    {val : Nat → ℝ} (hval : ∀ k u, SubAt t 0 u k → val k = g u.root) : ∀ (u : GTree ℝ Y P) (k : Nat), SubAt t 0 u k →
    ((prunings (idxTree u k)).map (pruningWeight arr step)).sum = expW step u ∧
    ((prunings (idxTree u k)).map fun p => pruningWeight arr step p * val (p.land (Spec.rowGoes arr x))).sum =
      expW step u * aggOf step g mixF x u := by
  intro u
  induction u with
  | leaf a =>
    intro k hs
    simp [idxTree, prunings, pruningWeight, Pruning.inner, Pruning.leaves, Pruning.land, h.lossAt hs, expW_leaf, aggOf, hval k _ hs,
      GTree.root]
  | node a l r ihl ihr =>
    intro k hs
    obtain ⟨l1, l2⟩ := ihl _ (subAt_left hs)
    obtain ⟨r1, r2⟩ := ihr _ (subAt_right hs)
    have hcut : pruningWeight arr step (.cut k) = 1 / 2 * Real.exp (-step * a.nc.loss) := by
      simp [pruningWeight, Pruning.inner, Pruning.leaves, h.lossAt hs, GTree.root]
    have hv := hval k _ hs
    simp only [GTree.root] at hv
    have e1 := expW_node step a l r
    have e2 := expW_pos step l
    have e3 := expW_pos step r
    have e4 := Real.exp_pos (-step * a.nc.loss)
    simp only [idxTree, prunings, List.map_cons, List.sum_cons, sum_flatMap_map, hcut, weight_node, Pruning.land, h.rowGoes hs x,
      hv, aggOf, mixF_real, alphaOf_node, e1]
    have hZ : (List.map (fun p => (List.map (fun q => 1 / 2 * (pruningWeight arr step p * pruningWeight arr step q))
        (prunings (idxTree r (k + 1)))).sum) (prunings (idxTree l (k + 1 + r.size)))).sum =
        (1 / 2 * expW step l) * expW step r := by
      rw [sum_product _ _ _ (fun p => 1 / 2 * pruningWeight arr step p) (pruningWeight arr step) (fun p q => by ring),
        List.sum_map_mul_left, l1, r1]
    rw [hZ]
    refine ⟨by ring, ?_⟩
    cases goesLeft a.sp (x a.sp.feature) with
    | true =>
      simp only [if_true]
      rw [sum_product _ _ _ (fun p => 1 / 2 * (pruningWeight arr step p * val (p.land (Spec.rowGoes arr x))))
        (pruningWeight arr step) (fun p q => by ring), List.sum_map_mul_left, l2, r1]
      field_simp
      ring
    | false =>
      simp only [Bool.false_eq_true, if_false]
      rw [sum_product _ _ _ (fun p => 1 / 2 * pruningWeight arr step p)
        (fun q => pruningWeight arr step q * val (q.land (Spec.rowGoes arr x))) (fun p q => by ring), List.sum_map_mul_left, l1, r2]
      field_simp
      ring

theorem Facts.average (h : Facts T c D lab okP train valid arr w t) (step : ℝ) (x : Nat → Nat) {g : GNode ℝ Y P → ℝ}
    {val : Nat → ℝ} (hval : ∀ k u, SubAt t 0 u k → val k = g u.root) :
    pruningAverage arr step x (idxTree t 0) val = aggOf step g mixF x t := by
  obtain ⟨h1, h2⟩ := h.sums step x hval t 0 (.refl _ _)
  unfold pruningAverage
  rw [h1, h2, mul_div_cancel_left₀ _ (expW_pos step t).ne']

end

/-- Aggregation of vectors, entry by entry. -/
theorem aggOf_vec {step : ℝ} {g : GNode ℝ Y P → List ℝ} {x : Nat → Nat} {n : Nat} : ∀ (t : GTree ℝ Y P) (k : Nat),
    (∀ u j, SubAt t k u j → (g u.root).length = n) → (aggOf step g mixV x t).length = n ∧
      ∀ j, j < n → (aggOf step g mixV x t).getD j 0 = aggOf step (fun a => (g a).getD j 0) mixF x t := by
  intro t
  induction t with
  | leaf a => exact fun k h => ⟨h _ k (.refl _ _), fun _ _ => rfl⟩
  | node a l r ihl ihr =>
    intro k h
    have h0 : (g a).length = n := h _ k (.refl _ _)
    obtain ⟨l1, l2⟩ := ihl (k + 1 + r.size) fun u j hu => h u j (.left hu)
    obtain ⟨r1, r2⟩ := ihr (k + 1) fun u j hu => h u j (.right hu)
    have key : ∀ v : List ℝ, v.length = n → (mixV (alphaOf step (.node a l r)) (g a) v).length = n ∧ ∀ j, j < n →
        (mixV (alphaOf step (.node a l r)) (g a) v).getD j 0 =
          mixF (alphaOf step (.node a l r)) ((g a).getD j 0) (v.getD j 0) := by
      intro v hv
      refine ⟨by simp [mixV, h0, hv], fun j hj => ?_⟩
      have ha : j < (g a).length := by omega
      have hb : j < v.length := by omega
      simp [mixV, List.getD_eq_getElem?_getD, List.getElem?_zipWith, List.getElem?_eq_getElem ha, List.getElem?_eq_getElem hb]
    simp only [aggOf]
    cases goesLeft a.sp (x a.sp.feature) with
    | true =>
      simp only [if_true]
      obtain ⟨k1, k2⟩ := key _ l1
      exact ⟨k1, fun j hj => by rw [k2 j hj, l2 j hj]⟩
    | false =>
      simp only [Bool.false_eq_true, if_false]
      obtain ⟨k1, k2⟩ := key _ r1
      exact ⟨k1, fun j hj => by rw [k2 j hj, r2 j hj]⟩

end Verif
