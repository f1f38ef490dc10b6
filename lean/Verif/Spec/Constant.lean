import Verif.Spec.Greedy

/-! Specification of columns that carry no information. -/
namespace Verif.Spec

section
variable {N N' V : Type}

/-- Column `j` has different cells in the rows `l` of `X`. -/
def ColumnVaries (X : Dataset N V) (l : List Nat) (j : Nat) : Prop := ∃ r ∈ l, ∃ r' ∈ l, cell X r j ≠ cell X r' j

/-- The `n` rows of `X1` and `X2` have the same cells in all columns that vary on the `m` rows of `X`. -/
def SameWhereVarying (m : Nat) (X : Dataset N V) (n : Nat) (X1 X2 : Dataset N' V) : Prop :=
  ∀ i < n, ∀ j, ColumnVaries X (List.range m) j → cell X1 i j = cell X2 i j

end

end Verif.Spec
