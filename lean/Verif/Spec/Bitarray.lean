/-! Specification vocabulary for the packed dataset: a history of column writes. -/
namespace Verif.Spec

/-- The content of the last write to column `j` in a history of `(column, content)` writes. -/
def lastWrite : List (Nat × List Nat) → Nat → Option (List Nat)
  | [], _ => none
  | (k, c) :: ops, j => (lastWrite ops j).or (if k = j then some c else none)

/-- A history of writes that fits a dataset with `n` rows and column maxima `ms`. -/
def ValidWrites (n : Nat) (ms : List Nat) (ops : List (Nat × List Nat)) : Prop :=
  ∀ op ∈ ops, op.2.length = n ∧ ∃ m, ms[op.1]? = some m ∧ ∀ x ∈ op.2, x ≤ m

/-- `m` rows, `k` columns: the shape of a matrix given by columns. -/
def IsMatrix (rows : Nat) (cols : List (List Nat)) : Prop := ∀ c ∈ cols, c.length = rows

end Verif.Spec
