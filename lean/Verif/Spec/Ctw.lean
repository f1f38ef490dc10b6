import Verif.Spec.Real
import Verif.Spec.Tree

/-! Specification of the aggregated predictions: averages over all prunings of the fitted tree. -/
namespace Verif.Spec

variable {F P : Type} [Num F]

/-- Binary trees of node indices. -/
inductive BTree where
  | leaf (k : Nat)
  | node (k : Nat) (l r : BTree)

/-- The tree of indices below node `k` of the node table. -/
inductive TreeOf (t : TreeArr F P) : Nat → BTree → Prop
  | leaf {k n} : NodeAt t k n → n.isLeaf = true → TreeOf t k (.leaf k)
  | node {k n i j l r} : NodeAt t k n → n.isLeaf = false → n.left = some i → n.right = some j → TreeOf t i l →
      TreeOf t j r → TreeOf t k (.node k l r)

/-- Prunings of a tree: `full k` is a leaf that is also a leaf of the tree, `cut k` is a leaf that is an inner node of the
tree, the subtrees below which are removed. -/
inductive Pruning where
  | full (k : Nat)
  | cut (k : Nat)
  | node (k : Nat) (l r : Pruning)

/-- All prunings. -/
def prunings : BTree → List Pruning
  | .leaf k => [.full k]
  | .node k l r => .cut k :: (prunings l).flatMap fun a => (prunings r).map fun b => .node k a b

/-- Number of nodes of the pruning that are not leaves of the tree. -/
def Pruning.inner : Pruning → Nat
  | .full _ => 0
  | .cut _ => 1
  | .node _ a b => 1 + a.inner + b.inner

/-- The leaves of a pruning. -/
def Pruning.leaves : Pruning → List Nat
  | .full k => [k]
  | .cut k => [k]
  | .node _ a b => a.leaves ++ b.leaves

/-- The leaf of a pruning that contains a row, `goes k` being the answer of the row to the test of node `k`. -/
def Pruning.land (goes : Nat → Bool) : Pruning → Nat
  | .full k => k
  | .cut k => k
  | .node k a b => if goes k then a.land goes else b.land goes

/-- The answer of a row to the test of node `k`. -/
noncomputable def rowGoes (t : TreeArr F P) (x : Nat → Nat) (k : Nat) : Bool :=
  open Classical in decide (∃ n f, NodeAt t k n ∧ n.feature = some f ∧ TestLeft t n (x f))

/-- The validation loss of node `k`. -/
def lossAt (t : TreeArr ℝ P) (k : Nat) : ℝ := match t.nodes[k]? with | some n => n.loss | none => 0

/-- The weight of a pruning. -/
noncomputable def pruningWeight (t : TreeArr ℝ P) (step : ℝ) (p : Pruning) : ℝ :=
  (1 / 2) ^ p.inner * Real.exp (-step * (p.leaves.map (lossAt t)).sum)

/-- Weighted average over all prunings of `b` of the value at the leaf that contains the row. -/
noncomputable def pruningAverage (t : TreeArr ℝ P) (step : ℝ) (x : Nat → Nat) (b : BTree) (val : Nat → ℝ) : ℝ :=
  ((prunings b).map fun p => pruningWeight t step p * val (p.land (rowGoes t x))).sum /
    ((prunings b).map (pruningWeight t step)).sum

end Verif.Spec
