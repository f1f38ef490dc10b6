import Verif.Spec.Encoder

/-! Specification of the rows of a bin. -/
namespace Verif.Spec

/-- The cells of the rows whose bin is `b`. -/
def cellsIn {α : Type} (col : List α) (bins : List Nat) (b : Nat) : List α := ((col.zip bins).filter fun p => p.2 = b).map Prod.fst

/-- The numbers in the `n` rows of column `j` (`none` for missing cells). -/
def numbersOf {V K N : Type} (num : V → Option K) (D : Dataset N V) (n j : Nat) : List (Option K) :=
  (List.range n).map fun i => (cell D i j).join.bind num

/-- The rows of the encoded dataset `b` whose bin in column `j` is `k`. -/
def rowsIn (b : FBA) (n j k : Nat) : List Nat := (List.range n).filter fun i => b.getValue i j = .ok k

end Verif.Spec
