import Verif.Spec.Steps
import Verif.Spec.Tree

/-! Specification of fitted trees as rules about the values of the cells. -/
namespace Verif.Spec

/-- What `fit` knows about a column: cut points, or categories. -/
inductive Rule (V K : Type) where
  | cuts (l : List K)
  | cats (l : List V)

/-- The column is categorical. -/
def Rule.isCats {V K : Type} : Rule V K → Bool
  | .cuts _ => false
  | .cats _ => true

/-- The cut points of a column. -/
def Rule.cutPoints {V K : Type} : Rule V K → Option (List K)
  | .cuts l => some l
  | .cats _ => none

section
variable {V K F P G N : Type} [LinearOrder K] [Num F]

/-- The categories are distinct, and all values of the column are among them. -/
def CatsOf (X : Dataset N V) (rules : List (Rule V K)) : Prop :=
  ∀ (j : Nat) (l : List V), rules[j]? = some (.cats l) → l.Nodup ∧ ∀ i v, cell X i j = some (some v) → v ∈ l

/-- The cell satisfies the test of the node, whose stored categories have the positions `parts`.
* numerical column: the cell is a number that is at most cut point `bin_threshold` (any number, if there is no such cut point);
* categorical column: the position of the category is in `parts`. Missing cells and unknown categories have the position after the last category. -/
def RuleLeft (num : V → Option K) (parts : List Nat) (n : Node F) : Rule V K → Option V → Prop
  | .cuts _, none => False
  | .cuts l, some v => ∃ x b, num v = some x ∧ n.binThr = some b ∧ ∀ t, l[b]? = some t → x ≤ t
  | .cats l, none => l.length ∈ parts
  | .cats l, some v => (∃ k ∈ parts, l[k]? = some v) ∨ v ∉ l ∧ l.length ∈ parts

/-- The nodes that a row of cells visits on its way down. -/
inductive Reads (num : V → Option K) (rules : List (Rule V K)) (t : TreeArr F P) (row : Nat → Option (Option V)) : Nat → Prop
  | root : Reads num rules t row 0
  | left {k n f R c l} : Reads num rules t row k → NodeAt t k n → n.isLeaf = false → n.feature = some f → rules[f]? = some R → row f = some c →
      RuleLeft num (slice t.binParts n.bpS n.bpE) n R c → n.left = some l → Reads num rules t row l
  | right {k n f R c r} : Reads num rules t row k → NodeAt t k n → n.isLeaf = false → n.feature = some f → rules[f]? = some R → row f = some c →
      ¬RuleLeft num (slice t.binParts n.bpS n.bpE) n R c → n.right = some r → Reads num rules t row r

/-- `A` has the leaves that are reached when the trees are read in this way: one leaf for each tree and each of the `n` rows. -/
def ReadLeaves (num : V → Option K) (rules : List (Rule V K)) (trees : List (TreeObj F P G)) (X : Dataset N V) (n : Nat) (A : List (List Nat)) : Prop :=
  A.length = trees.length ∧ ∀ (t : Nat) (o : TreeObj F P G) (l : List Nat), trees[t]? = some o → A[t]? = some l → l.length = n ∧
    ∀ i k, l[i]? = some k → (∃ node, NodeAt o.arr k node ∧ node.isLeaf = true) ∧
      ∀ k' node', NodeAt o.arr k' node' → node'.isLeaf = true → (Reads num rules o.arr (cell X i) k' ↔ k' = k)

/-- Row `i` of `X` and row `i'` of `X'` have the same cells in the columns that are tested in the trees. -/
def SameTestedCells (trees : List (TreeObj F P G)) (X X' : Dataset N V) (i i' : Nat) : Prop :=
  ∀ o ∈ trees, ∀ k n f, NodeAt o.arr k n → n.isLeaf = false → n.feature = some f → cell X i f = cell X' i' f

end

end Verif.Spec
