import Verif.Spec.Greedy

/-! Trees cut at the nodes that break a limit. -/
namespace Verif.Spec

variable {F P : Type}

/-- Two nodes, of two trees, with the same depth, counts, weights, impurity, loss and prediction. -/
structure SameNumbers (t t' : TreeArr F P) (k k' : Nat) (n n' : Node F) : Prop where
  depth : n.depth = n'.depth
  nTrain : n.nTrain = n'.nTrain
  nValid : n.nValid = n'.nValid
  wTrain : n.wTrain = n'.wTrain
  wValid : n.wValid = n'.wValid
  impurity : n.impurity = n'.impurity
  loss : n.loss = n'.loss
  pred : t.yPred[k]? = t'.yPred[k']?

/-- Two nodes, of two trees, with the same test. -/
structure SameTest (t t' : TreeArr F P) (n n' : Node F) : Prop where
  feature : n.feature = n'.feature
  isCat : n.isCat = n'.isCat
  test : ∀ bin, TestLeft t n bin ↔ TestLeft t' n' bin

/-- The part of `t` below node `k` is the part of `t'` below node `k'`, cut at the topmost nodes with `stop`. -/
inductive CutAt (stop : Node F → Prop) (t t' : TreeArr F P) : Nat → Nat → Prop
  | leaf {k k' n n'} : NodeAt t k n → NodeAt t' k' n' → SameNumbers t t' k k' n n' → n.isLeaf = true →
      n'.isLeaf = true ∨ stop n' → CutAt stop t t' k k'
  | node {k k' n n' l r l' r'} : NodeAt t k n → NodeAt t' k' n' → SameNumbers t t' k k' n n' →
      n.isLeaf = false → n'.isLeaf = false → ¬stop n' → SameTest t t' n n' →
      n.left = some l → n.right = some r → n'.left = some l' → n'.right = some r' →
      CutAt stop t t' l l' → CutAt stop t t' r r' → CutAt stop t t' k k'

/-- The nodes that the row of bins `x` visits on its way down as long as no node has `stop`. -/
inductive Reaches (stop : Node F → Prop) (t : TreeArr F P) (x : Nat → Nat) : Nat → Prop
  | root : Reaches stop t x 0
  | left {k n f l} : Reaches stop t x k → NodeAt t k n → ¬stop n → n.isLeaf = false → n.feature = some f →
      TestLeft t n (x f) → n.left = some l → Reaches stop t x l
  | right {k n f r} : Reaches stop t x k → NodeAt t k n → ¬stop n → n.isLeaf = false → n.feature = some f →
      ¬TestLeft t n (x f) → n.right = some r → Reaches stop t x r

/-- The node breaks a limit that keeps nodes from being split: the depth, or the number of drawn rows or, with aggregation,
of left-out rows. -/
def Breaks (maxDepth : Option Nat) (minSplit : Nat) (aggregation : Bool) (n : Node F) : Prop :=
  (∃ m, maxDepth = some m ∧ m ≤ n.depth) ∨ n.nTrain < minSplit ∨ (aggregation = true ∧ n.nValid < minSplit)

/-- Two lists of trees: those of the first are those of the second, cut. -/
def ForestCut {G : Type} (stop : Node F → Prop) (ts ts' : List (TreeObj F P G)) : Prop :=
  ts.length = ts'.length ∧ ∀ (k : Nat) o o', ts[k]? = some o → ts'[k]? = some o' → CutAt stop o.arr o'.arr 0 0

end Verif.Spec
