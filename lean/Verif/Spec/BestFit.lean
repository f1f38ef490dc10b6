import Verif.Spec.EndToEnd
import Mathlib.Data.Finset.Image

/-! Specification of the best values at the leaves of a tree for the rows that were drawn for it. -/
namespace Verif.Spec

variable {P : Type}

/-- The leaf of the tree that the row of bins `x` reaches. -/
noncomputable def GrownTree.leafOf (g : GrownTree P) (x : Nat → Nat) : Nat := g.shape.land (rowGoes g.arr x)

/-- The leaves of a tree. -/
def BTree.ends : BTree → Finset Nat
  | .leaf k => {k}
  | .node _ l r => l.ends ∪ r.ends

/-- Sum of `f` over the drawn rows, with their weights, each row as often as it was drawn. -/
noncomputable def Sample.total (S : Sample) (f : Nat → ℝ) : ℝ := ∑ i ∈ Finset.range S.n, S.draws.count i * S.w i * f i

/-- Sum of `f` over the drawn rows that reach leaf `k`, with their weights, each row as often as it was drawn. -/
noncomputable def Sample.atLeaf (S : Sample) (g : GrownTree P) (k : Nat) (f : Nat → ℝ) : ℝ :=
  ∑ i ∈ (Finset.range S.n).filter (fun i => g.leafOf (S.X i) = k), S.draws.count i * S.w i * f i

/-- Among all values that depend only on the leaf, the values `p i` of the rows have the smallest square loss on the drawn rows, and at every leaf their sum is the one of the
labels. -/
structure LeastSquares (S : Sample) (g : GrownTree P) (y p : Nat → ℝ) : Prop where
  constant : ∀ i < S.n, ∀ j < S.n, g.leafOf (S.X i) = g.leafOf (S.X j) → p i = p j
  best : ∀ h : Nat → ℝ, S.total (fun i => (y i - p i) ^ 2) ≤ S.total fun i => (y i - h (g.leafOf (S.X i))) ^ 2
  unbiased : ∀ k, S.atLeaf g k p = S.atLeaf g k y

/-- Negative log-likelihood of the probabilities `m k j` of class `j` at leaf `k` on the drawn rows, plus the one of a Dirichlet prior with parameter `dir + 1` at every leaf (up
to a constant). -/
noncomputable def penalised (S : Sample) (g : GrownTree P) (nC : Nat) (dir : ℝ) (lab : Nat → Nat) (m : Nat → Nat → ℝ) : ℝ :=
  S.total (fun i => -Real.log (m (g.leafOf (S.X i)) (lab i))) + dir * ∑ k ∈ g.shape.ends, ∑ j ∈ Finset.range nC, -Real.log (m k j)

/-- The probabilities `p i j` of class `j` for row `i` depend only on the leaf and maximise the posterior density among all positive probabilities with that property; at every leaf
the drawn rows have the expected number of labels of every class, up to the prior. -/
structure BestProba (S : Sample) (g : GrownTree P) (nC : Nat) (dir : ℝ) (lab : Nat → Nat) (p : Nat → Nat → ℝ) : Prop where
  best : ∃ m : Nat → Nat → ℝ, (∀ i < S.n, ∀ j < nC, p i j = m (g.leafOf (S.X i)) j) ∧
    ∀ h : Nat → Nat → ℝ, (∀ k, ∀ j < nC, 0 < h k j) → (∀ k, ∑ j ∈ Finset.range nC, h k j ≤ 1) → penalised S g nC dir lab m ≤ penalised S g nC dir lab h
  calibrated : ∀ i < S.n, ∀ j < nC, (S.atLeaf g (g.leafOf (S.X i)) (fun _ => 1) + nC * dir) * p i j =
    S.atLeaf g (g.leafOf (S.X i)) (fun r => if lab r = j then 1 else 0) + dir

end Verif.Spec
