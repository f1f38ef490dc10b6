import Verif.Model.Inspect
import Verif.Spec.Tree
import Verif.Spec.Real

/-! Specification of the inspection functions. -/
namespace Verif.Spec

variable {F P : Type} [Num F]

/-- Node `k` is `d` edges below the root. -/
inductive Level (t : TreeArr F P) : Nat → Nat → Prop
  | root : Level t 0 0
  | left {k n d l} : Level t k d → NodeAt t k n → n.left = some l → Level t l (d + 1)
  | right {k n d r} : Level t k d → NodeAt t k n → n.right = some r → Level t r (d + 1)

/-- Node `j` is node `k` or below it. -/
inductive Under (t : TreeArr F P) (k : Nat) : Nat → Prop
  | self : Under t k k
  | left {j n l} : Under t k j → NodeAt t j n → n.left = some l → Under t k l
  | right {j n r} : Under t k j → NodeAt t j n → n.right = some r → Under t k r

/-- What the column `bin_partition` says about a bin. -/
def CellLeft : PartitionCell → Nat → Prop
  | .bins l, b => b ∈ l
  | .threshold thr, b => ∃ v, thr = some v ∧ b ≤ v

/-- The nodes that the row of bins `x` meets when its way down is read off the node table alone: columns `is_leaf`, `feature`, `bin_partition`, `left_child` and
`right_child`. -/
inductive TableVisits (tab : List ((Node F × PartitionCell) × P)) (x : Nat → Nat) : Nat → Prop
  | root : TableVisits tab x 0
  | left {k r f l} : TableVisits tab x k → tab[k]? = some r → r.1.1.isLeaf = false → r.1.1.feature = some f → CellLeft r.1.2 (x f) → r.1.1.left = some l →
      TableVisits tab x l
  | right {k r f l} : TableVisits tab x k → tab[k]? = some r → r.1.1.isLeaf = false → r.1.1.feature = some f → ¬CellLeft r.1.2 (x f) → r.1.1.right = some l →
      TableVisits tab x l

/-- A row of a path describes node `j`: depth, feature, kind of test, the test itself and the side taken by the row of bins `x`. -/
def RowDescribes (t : TreeArr F P) (x : Nat → Nat) (row : PathRow) (j : Nat) : Prop :=
  ∃ m, NodeAt t j m ∧ m.isLeaf = false ∧ m.depth = row.depth ∧ m.feature = some row.feature ∧ m.isCat = row.isCat ∧
    (∀ b, CellLeft row.cell b ↔ TestLeft t m b) ∧ (row.left = true ↔ TestLeft t m (x row.feature))

/-- A drawing of a tree: `x` and `y` give the position of each node, `x0` and `y0` the other end of the segment drawn for it. -/
structure NiceDrawing (t : TreeArr F P) (x x0 : Nat → ℝ) (y y0 : Nat → Nat) : Prop where
  /-- All nodes lie strictly inside the figure. -/
  inside : ∀ k, k < t.nodeCount → 0 < x k ∧ x k < 1
  /-- Nodes below the left child are drawn to the left, nodes below the right child to the right. -/
  left : ∀ k n l j, NodeAt t k n → n.left = some l → Under t l j → x j < x k
  right : ∀ k n r j, NodeAt t k n → n.right = some r → Under t r j → x k < x j
  /-- A child is drawn one unit below its parent; the lowest nodes are at height 0. -/
  below : ∀ k n c, NodeAt t k n → n.left = some c ∨ n.right = some c → y k = y c + 1
  bottom : ∃ k, k < t.nodeCount ∧ y k = 0
  /-- The segment of a child ends at its parent. -/
  segment : ∀ k n c, NodeAt t k n → n.left = some c ∨ n.right = some c → x0 c = x k ∧ y0 c = y k

/-- Node `k` is the leaf where the row of bins `x` ends: the only leaf whose tests it passes. -/
def LeafOfRow (t : TreeArr F P) (x : Nat → Nat) (k : Nat) : Prop :=
  (∃ n, NodeAt t k n ∧ n.isLeaf = true) ∧ Visits t x k ∧ ∀ k' n', NodeAt t k' n' → n'.isLeaf = true → Visits t x k' → k' = k

end Verif.Spec
