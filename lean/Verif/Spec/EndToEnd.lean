import Verif.Spec.Ctw
import Verif.Spec.Labels
import Mathlib.Algebra.BigOperators.Group.Finset.Basic

/-! Specification of the predictions of a fitted forest from its training data, its random draws and the tests in its trees. -/
namespace Verif.Spec

/-- The bins of row `i`. -/
def binsOf (fba : FBA) (i j : Nat) : Nat := match fba.getValue i j with | .ok v => v | .error _ => 0

/-- The seed that the bootstrap tries after `s`. -/
def nextSeed (s : Nat) : Nat := (s + 1) % (2 ^ 32 - 1)

/-- `draws` are the rows drawn with the first of the seeds `seed`, `nextSeed seed`, … that leaves a row out. -/
def BootstrapOf (draw : Nat → List Nat) (n seed : Nat) (draws : List Nat) : Prop :=
  ∃ m, draws = draw (nextSeed^[m] seed) ∧ (∃ i < n, i ∉ draws) ∧ ∀ k < m, ∀ i < n, i ∈ draw (nextSeed^[k] seed)

/-- What a tree learns from: number of rows, their bins and weights, the rows drawn by the bootstrap. -/
structure Sample where
  n : Nat
  X : Nat → Nat → Nat
  w : Nat → ℝ
  draws : List Nat

/-- The tests of a tree, its shape, and the rows drawn for it. -/
structure GrownTree (P : Type) where
  arr : TreeArr ℝ P
  shape : BTree
  draws : List Nat

variable {P : Type}

/-- Sum of `f` over the rows that visit node `k`, with their weights, each row as often as it was drawn. -/
noncomputable def Sample.drawnSum (S : Sample) (t : TreeArr ℝ P) (k : Nat) (f : Nat → ℝ) : ℝ :=
  open Classical in ∑ i ∈ Finset.range S.n, if Visits t (S.X i) k then S.draws.count i * S.w i * f i else 0

/-- Sum of `f` over the rows that visit node `k` and were not drawn, with their weights. -/
noncomputable def Sample.leftOutSum (S : Sample) (t : TreeArr ℝ P) (k : Nat) (f : Nat → ℝ) : ℝ :=
  open Classical in ∑ i ∈ Finset.range S.n, if Visits t (S.X i) k ∧ i ∉ S.draws then S.w i * f i else 0

/-- Share of class `j` among the drawn rows that visit node `k`, smoothed by `dir`, for `nC` classes. -/
noncomputable def Sample.share (S : Sample) (t : TreeArr ℝ P) (nC : Nat) (dir : ℝ) (lab : Nat → Nat) (k j : Nat) : ℝ :=
  (S.drawnSum t k (fun i => if lab i = j then 1 else 0) + dir) / (S.drawnSum t k (fun _ => 1) + nC * dir)

/-- Logarithmic loss of the shares at node `k` on the rows that were not drawn. -/
noncomputable def Sample.logLoss (S : Sample) (t : TreeArr ℝ P) (nC : Nat) (dir : ℝ) (lab : Nat → Nat) (k : Nat) : ℝ :=
  S.leftOutSum t k fun i => -Real.log (S.share t nC dir lab k (lab i))

/-- Mean label of the drawn rows that visit node `k`. -/
noncomputable def Sample.average (S : Sample) (t : TreeArr ℝ P) (y : Nat → ℝ) (k : Nat) : ℝ :=
  S.drawnSum t k y / S.drawnSum t k fun _ => 1

/-- Square loss of the mean at node `k` on the rows that were not drawn. -/
noncomputable def Sample.squareLoss (S : Sample) (t : TreeArr ℝ P) (y : Nat → ℝ) (k : Nat) : ℝ :=
  S.leftOutSum t k fun i => (y i - S.average t y k) ^ 2

/-- The leaf that a row reaches. -/
def BTree.land (goes : Nat → Bool) : BTree → Nat
  | .leaf k => k
  | .node k l r => if goes k then l.land goes else r.land goes

/-- Average of the values at the leaves that contain the row over all prunings; the weight of a pruning is
`2 ^ (-number of nodes that are not leaves of the tree)` times `exp (-step * sum of the losses of its leaves)`. -/
noncomputable def expAverage (b : BTree) (step : ℝ) (loss : Nat → ℝ) (goes : Nat → Bool) (val : Nat → ℝ) : ℝ :=
  ((prunings b).map fun p => (1 / 2) ^ p.inner * Real.exp (-step * (p.leaves.map loss).sum) * val (p.land goes)).sum /
    ((prunings b).map fun p => (1 / 2) ^ p.inner * Real.exp (-step * (p.leaves.map loss).sum)).sum

/-- Value of a tree for the row of bins `x`: with aggregation the average over all prunings, without it the value at the leaf. -/
noncomputable def treeValue (g : GrownTree P) (aggregation : Bool) (step : ℝ) (loss val : Nat → ℝ) (x : Nat → Nat) : ℝ :=
  if aggregation then expAverage g.shape step loss (rowGoes g.arr x) val else val (g.shape.land (rowGoes g.arr x))

/-- Probability of class `j` for the row of bins `x` in a tree grown on `S` with the labels `lab`. -/
noncomputable def probValue (S : Sample) (g : GrownTree P) (aggregation : Bool) (step dir : ℝ) (nC : Nat) (lab : Nat → Nat) (x : Nat → Nat) (j : Nat) : ℝ :=
  treeValue g aggregation step (S.logLoss g.arr nC dir lab) (fun k => S.share g.arr nC dir lab k j) x

/-- Prediction for the row of bins `x` of a tree grown on `S` with the labels `y`. -/
noncomputable def meanValue (S : Sample) (g : GrownTree P) (aggregation : Bool) (step : ℝ) (y : Nat → ℝ) (x : Nat → Nat) : ℝ :=
  treeValue g aggregation step (S.squareLoss g.arr y) (S.average g.arr y) x

/-- `g` is tree number `t` of a fitted estimator, with its shape and the rows that its seed draws. -/
def GrownIn {G : Type} (draw : Nat → List Nat) (n : Nat) (trees : List (TreeObj ℝ P G)) (seeds : List Nat) (t : Nat) (g : GrownTree P) : Prop :=
  ∃ o seed, trees[t]? = some o ∧ seeds[t]? = some seed ∧ g.arr = o.arr ∧ TreeOf g.arr 0 g.shape ∧ BootstrapOf draw n seed g.draws

/-- Number of the class of row `i`. -/
def classOf {L : Type} [DecidableEq L] (classes y : List L) (i : Nat) : Nat := match y[i]? with | some l => classes.idxOf l | none => 0

/-- Number of rows divided by the number of classes and the number of rows of the class of row `i`. -/
noncomputable def balanceFactor (n : Nat) (lab : Nat → Nat) (i : Nat) : ℝ :=
  n / (((Finset.range n).image lab).card * ((Finset.range n).filter fun r => lab r = lab i).card)

/-- Weight of row `i`. -/
noncomputable def rowWeight (given : List ℝ) (balanced : Bool) (n : Nat) (lab : Nat → Nat) (i : Nat) : ℝ :=
  given.getD i 0 * if balanced then balanceFactor n lab i else 1

/-- Normalised scores of the classes; all classes have the same probability when the scores are (almost) zero. -/
noncomputable def normalised (eps : ℝ) (nC : Nat) (score : Nat → ℝ) (c : Nat) : ℝ :=
  if (∑ k ∈ Finset.range nC, score k) ≤ eps then 1 / nC else score c / ∑ k ∈ Finset.range nC, score k

end Verif.Spec
