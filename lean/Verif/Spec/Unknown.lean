import Verif.Spec.Beyond

/-! Specification of categories that do not occur in the training data. -/
namespace Verif.Spec

section
variable {V N N' : Type}

/-- The dtype of column `j` is a category dtype that lists `v`. -/
def DtypeLists (X : Dataset N V) (j : Nat) (v : V) : Prop :=
  match X with
  | .frame X => ∃ p, X[j]? = some p ∧ p.2.kind = .category ∧ v ∈ p.2.dtypeCats
  | .array _ _ => False

/-- The value `v` occurs in the `m` rows of column `j`. -/
def Occurs (X : Dataset N V) (m j : Nat) (v : V) : Prop := ∃ r < m, cell X r j = some (some v)

/-- The cell is missing, or a category that neither occurs in the `m` rows of column `j` nor is listed in its dtype. -/
def Unfamiliar (X : Dataset N V) (m j : Nat) (c : Option V) : Prop := ∀ v, c = some v → ¬Occurs X m j v ∧ ¬DtypeLists X j v

/-- No row of the training data has such a cell: it is a category that the dtype lists but no row has, or the cell is missing or an unknown category and column `j` has no
missing cell. -/
def Unseen (X : Dataset N V) (m j : Nat) (c : Option V) : Prop :=
  (∃ v, c = some v ∧ DtypeLists X j v ∧ ¬Occurs X m j v) ∨ (Unfamiliar X m j c ∧ ¬HasMissing X m j)

/-- The cells of the `n` rows of `X1` and `X2` are the same, or in a column treated as categorical, both missing or unknown, or both not in the training data `X`. -/
def SameOrUnseen (isCat : List Bool) (m : Nat) (X : Dataset N V) (n : Nat) (X1 X2 : Dataset N' V) : Prop :=
  ∀ i < n, ∀ j, cell X1 i j = cell X2 i j ∨
    ∃ c c', cell X1 i j = some c ∧ cell X2 i j = some c' ∧ isCat[j]? = some true ∧
      ((Unfamiliar X m j c ∧ Unfamiliar X m j c') ∨ (Unseen X m j c ∧ Unseen X m j c'))

end

end Verif.Spec
