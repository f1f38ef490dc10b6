import Verif.Model.Grow
import Verif.Spec.Node
import Verif.Spec.Task
import Verif.Spec.Sampling

/-! Specification of fitted trees, in terms of the node table. -/
namespace Verif.Spec

variable {F Y P G : Type} [Num F]

/-- The two kinds of trees that the library grows; `lab` is the set of labels that `y` may contain. -/
inductive ValidTask : {Y P : Type} → Task F Y P G → (F → Prop) → Prop
  | classifier (R : Rng G) {argsort : List F → List Nat} (nClasses : Nat) (dirichlet : F) (cr : Criterion)
      {s : CatStrategy} : ArgsortPerm argsort → StrategyOK nClasses s →
      ValidTask (classifierTask R argsort nClasses dirichlet cr s) (ClassLabel nClasses)
  | regressor {argsort : List F → List Nat} : ArgsortPerm argsort → ValidTask (regressorTask argsort) (fun _ => True)

/-- Valid parameters. -/
structure ParamsOK (c : Ctx F) (D : Data F) : Prop where
  feats : 1 ≤ c.maxFeatures ∧ c.maxFeatures ≤ D.d
  minSplit : 1 ≤ c.minSplit

/-- Valid input of a tree fit: distinct training and validation rows with valid labels, at least one training row. -/
structure FitInput (c : Ctx F) (D : Data F) (lab : F → Prop) (train valid : List Nat) : Prop where
  holds : Holds c D
  params : ParamsOK c D
  okTrain : ∀ i ∈ train, i < D.n ∧ lab (D.y i)
  okValid : ∀ i ∈ valid, i < D.n ∧ lab (D.y i)
  nodupT : train.Nodup
  nodupV : valid.Nodup
  nonempty : train ≠ []

/-- `n` is node `k` of the tree. -/
def NodeAt (t : TreeArr F P) (k : Nat) (n : Node F) : Prop := k < t.nodeCount ∧ t.nodes[k]? = some n

/-- A bin satisfies the test of a node. -/
def TestLeft (t : TreeArr F P) (n : Node F) (bin : Nat) : Prop :=
  if n.isCat then bin ∈ slice t.binParts n.bpS n.bpE else ∃ thr, n.binThr = some thr ∧ bin ≤ thr

/-- The nodes that the row of bins `x` visits on its way down. -/
inductive Visits (t : TreeArr F P) (x : Nat → Nat) : Nat → Prop
  | root : Visits t x 0
  | left {k n f l} : Visits t x k → NodeAt t k n → n.isLeaf = false → n.feature = some f → TestLeft t n (x f) →
      n.left = some l → Visits t x l
  | right {k n f r} : Visits t x k → NodeAt t k n → n.isLeaf = false → n.feature = some f → ¬TestLeft t n (x f) →
      n.right = some r → Visits t x r

/-- The rows of `l` that visit node `k`, in order. -/
noncomputable def routed (t : TreeArr F P) (D : Data F) (l : List Nat) (k : Nat) : List Nat :=
  open Classical in l.filter fun i => decide (Visits t (D.X i) k)

/-- Number of leaves in the node table. -/
def leafCount (t : TreeArr F P) : Nat :=
  ((List.range t.nodeCount).filter fun k => match t.nodes[k]? with | some n => n.isLeaf | none => false).length

/-- Well-formed binary tree. -/
structure WellFormed (t : TreeArr F P) : Prop where
  entries : ∀ k, k < t.nodeCount → ∃ n, NodeAt t k n ∧ n.nodeId = k
  rootFirst : 0 < t.nodeCount
  root : ∀ k n, NodeAt t k n → (n.parent = none ↔ k = 0)
  rootDepth : ∀ n, NodeAt t 0 n → n.depth = 0
  leaf : ∀ k n, NodeAt t k n → n.isLeaf = true → n.left = none ∧ n.right = none
  children : ∀ k n, NodeAt t k n → n.isLeaf = false → ∃ l r nl nr, n.left = some l ∧ n.right = some r ∧ l ≠ r ∧
    k < l ∧ k < r ∧ NodeAt t l nl ∧ NodeAt t r nr ∧ nl.parent = some k ∧ nr.parent = some k ∧
    nl.depth = n.depth + 1 ∧ nr.depth = n.depth + 1
  parent : ∀ k n, NodeAt t k n → k ≠ 0 → ∃! p, ∃ np, NodeAt t p np ∧ (np.left = some k ∨ np.right = some k)
  count : t.nodeCount + 1 = 2 * leafCount t

end Verif.Spec
