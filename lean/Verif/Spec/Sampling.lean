import Verif.Model.Sampling

/-! Specification of sampling. -/
namespace Verif.Spec

/-- `l` is a sample without replacement of `k` of the numbers `0, …, pop - 1`. -/
def IsSample (pop k : Nat) (l : List Nat) : Prop :=
  l.length = k ∧ l.Nodup ∧ ∀ x ∈ l, x < pop

/-- Contract of `RandomState(seed).randint(0, n, n)`: `n` numbers below `n`. -/
def DrawsOK (n : Nat) (draw : Nat → List Nat) : Prop :=
  ∀ s, (draw s).length = n ∧ ∀ x ∈ draw s, x < n

/-- Train and validation rows partition `0, …, n - 1`, both non-empty, and the multiplicities are positive and add
up to `n`. -/
def IsPartition (n : Nat) (b : Boot) : Prop :=
  (b.train ++ b.valid).Perm (List.range n) ∧ b.train ≠ [] ∧ b.valid ≠ [] ∧
  b.trainCount.length = b.train.length ∧ (∀ c ∈ b.trainCount, 0 < c) ∧ b.trainCount.sum = n

end Verif.Spec
