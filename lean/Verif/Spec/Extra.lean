import Verif.Spec.Rename

/-! # Additional columns (C121) -/
namespace Verif.Spec

variable {N V K : Type}

/-- `X'` is `X` with one more column on the right. -/
def AddsColumn : Dataset N V → Dataset N V → Prop
  | .frame X, .frame X' => ∃ p, X' = X ++ [p]
  | .array k X, .array k' X' => k' = k ∧ ∃ c, X' = X ++ [c]
  | _, _ => False

/-- Column `j` of `X` and column `j'` of `X'` have the same dtype and the same cells. -/
def SameColumn (X : Dataset N V) (j : Nat) (X' : Dataset N V) (j' : Nat) : Prop :=
  match X, X' with
  | .frame X, .frame X' => ∃ p p', X[j]? = some p ∧ X'[j']? = some p' ∧ p'.2 = p.2
  | .array k X, .array k' X' => k' = k ∧ ∃ c, X[j]? = some c ∧ X'[j']? = some c
  | _, _ => False

/-- What `categorical_features` says about column `j`: `none` means that the type of the column is detected. -/
def declaredIn : CatFeatures → Nat → Option Bool
  | .ints (i :: l), j => some (decide ((j : Int) ∈ i :: l))
  | .bools (b :: l), j => (b :: l)[j]?
  | _, _ => none

/-- All `n` cells of column `j` have the same value, and it is not listed with other values in a category dtype. -/
def ConstantColumn (X : Dataset N V) (n j : Nat) : Prop :=
  ¬CategoryDtype X j ∧ ∃ v, ∀ i < n, cell X i j = some (some v)

/-- `X'` is `X` with one more column on the right, and `categorical_features` says the same about the other columns. -/
def Extends (X : Dataset N V) (cf : CatFeatures) (X' : Dataset N V) (cf' : CatFeatures) : Prop :=
  AddsColumn X X' ∧ ∀ f < nCols X, declaredIn cf' f = declaredIn cf f

/-- The new column is a copy of column `j`, with the same declaration. -/
def CopiesColumn (X : Dataset N V) (cf : CatFeatures) (X' : Dataset N V) (cf' : CatFeatures) (j : Nat) : Prop :=
  j < nCols X ∧ SameColumn X j X' (nCols X) ∧ declaredIn cf' (nCols X) = declaredIn cf j

end Verif.Spec
