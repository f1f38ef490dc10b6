import Verif.Spec.Greedy

/-! Specification of losses on the rows that a bootstrap left out. -/
namespace Verif.Spec

/-- Logarithmic loss of the probabilities `q i j` of class `j` for row `i` on the rows of `S` that were not drawn, with their weights. -/
noncomputable def outOfBagLog (S : Sample) (lab : Nat → Nat) (q : Nat → Nat → ℝ) : ℝ :=
  ∑ i ∈ (Finset.range S.n).filter (fun i => i ∉ S.draws), S.w i * -Real.log (q i (lab i))

/-- Square loss of the values `q i` for row `i` on the rows of `S` that were not drawn, with their weights. -/
noncomputable def outOfBagSquare (S : Sample) (y q : Nat → ℝ) : ℝ :=
  ∑ i ∈ (Finset.range S.n).filter (fun i => i ∉ S.draws), S.w i * (y i - q i) ^ 2

/-- Share of class `j` among all drawn rows, smoothed by `dir`, for `nC` classes. -/
noncomputable def frequency (S : Sample) (nC : Nat) (dir : ℝ) (lab : Nat → Nat) (j : Nat) : ℝ :=
  ((∑ i ∈ Finset.range S.n, S.draws.count i * S.w i * if lab i = j then 1 else 0) + dir) / ((∑ i ∈ Finset.range S.n, S.draws.count i * S.w i) + nC * dir)

/-- Mean label of all drawn rows. -/
noncomputable def drawnMean (S : Sample) (y : Nat → ℝ) : ℝ :=
  (∑ i ∈ Finset.range S.n, S.draws.count i * S.w i * y i) / ∑ i ∈ Finset.range S.n, S.draws.count i * S.w i

/-- Number of inner nodes of a tree. -/
def BTree.splits : BTree → Nat
  | .leaf _ => 0
  | .node _ l r => 1 + l.splits + r.splits

/-- On the rows that were not drawn, the probabilities `p` are almost as good as the shares at the leaves of any pruning of the tree `g`; in particular as the class
frequencies and as the tree without aggregation. -/
structure NearBestLog {P : Type} (S : Sample) (g : GrownTree P) (step dir : ℝ) (nC : Nat) (lab : Nat → Nat) (p : Nat → Nat → ℝ) : Prop where
  pruning : ∀ q ∈ prunings g.shape, outOfBagLog S lab p ≤
    outOfBagLog S lab (fun i => S.share g.arr nC dir lab (q.land (rowGoes g.arr (S.X i)))) + Real.log 2 / step * q.inner
  constant : outOfBagLog S lab p ≤ outOfBagLog S lab (fun _ => frequency S nC dir lab) + Real.log 2 / step
  leaves : outOfBagLog S lab p ≤ outOfBagLog S lab (fun i => probValue S g false step dir nC lab (S.X i)) + Real.log 2 / step * g.shape.splits

/-- The same for the square loss of the values `p`, the means at the leaves, and the mean of all drawn rows. -/
structure NearBestSquare {P : Type} (S : Sample) (g : GrownTree P) (step : ℝ) (y p : Nat → ℝ) : Prop where
  pruning : ∀ q ∈ prunings g.shape, outOfBagSquare S y p ≤
    outOfBagSquare S y (fun i => S.average g.arr y (q.land (rowGoes g.arr (S.X i)))) + Real.log 2 / step * q.inner
  constant : outOfBagSquare S y p ≤ outOfBagSquare S y (fun _ => drawnMean S y) + Real.log 2 / step
  leaves : outOfBagSquare S y p ≤ outOfBagSquare S y (fun i => meanValue S g false step y (S.X i)) + Real.log 2 / step * g.shape.splits

end Verif.Spec
