import Verif.Spec.Estimator
import Verif.Spec.RecodeEst

/-! # Other names for the categories of categorical columns (C91) -/
namespace Verif.Spec

variable {N V K : Type}

/-- The dataset with the function `ch j` applied to every non-missing cell of column `j`, and to the categories of its dtype if it has a category dtype. -/
def rename (ch : Nat → V → V) : Dataset N V → Dataset N V
  | .frame X => .frame (X.mapIdx fun j p =>
      (p.1, { kind := p.2.kind, cells := p.2.cells.map (Option.map (ch j)), dtypeCats := p.2.dtypeCats.map (ch j) }))
  | .array kind X => .array kind (X.mapIdx fun j c => c.map (Option.map (ch j)))

/-- The cells of column `j`. -/
def cellsOf (D : Dataset N V) (j : Nat) : List (Option V) :=
  match D with
  | .frame X => ((X[j]?).map fun p => p.2.cells).getD []
  | .array _ X => (X[j]?).getD []

/-- Column `j` has a category dtype. -/
def CategoryDtype (D : Dataset N V) (j : Nat) : Prop :=
  match D with
  | .frame X => ∃ p, X[j]? = some p ∧ p.2.kind = .category
  | .array _ _ => False

/-- `f` gives new names to the values in column `j`: different values get different names; pandas lists the new categories in the order of the old ones,
unless the categories are listed in the dtype; and `astype(np.float32)` works for a new name if it works for the old one. -/
structure Renames (cv : Conv V K) (D : Dataset N V) (j : Nat) (f : V → V) : Prop where
  inj : Function.Injective f
  order : CategoryDtype D j ∨ cv.catsOf ((cellsOf D j).map (Option.map f)) = (cv.catsOf (cellsOf D j)).map f
  number : ∀ v, InColumn D j v → (cv.toFloat32 (f v)).isSome = (cv.toFloat32 v).isSome

/-- `f` gives new names to the values in column `j`, which may sort in another order: different values get different names, and `astype(np.float32)` works
for a new name if it works for the old one. -/
structure NewNames (cv : Conv V K) (D : Dataset N V) (j : Nat) (f : V → V) : Prop where
  inj : Function.Injective f
  number : ∀ v, InColumn D j v → (cv.toFloat32 (f v)).isSome = (cv.toFloat32 v).isSome

/-- A table with `n` rows that can occur: between 1 and 2^63 rows, well-formed columns, dtypes with fewer than 2^63 categories. numpy arrays have no category
dtype. -/
structure RegularTable (n : Nat) (D : Dataset N V) : Prop where
  rows : 0 < n ∧ n < 2 ^ 63
  good : GoodInput n D
  small : SmallDtypes D
  kind : ∀ k X, D = .array k X → k ≠ .category

/-- The order in which numbers are added to a sum does not matter. True for exact arithmetic, not for floats. -/
def SumOrder (F : Type) [Num F] : Prop := ∀ a b c : F, Num.add (Num.add a b) c = Num.add (Num.add a c) b

end Verif.Spec
