import Verif.Model.Split

/-! Specification of node splits. -/
namespace Verif.Spec

/-- An encoded dataset: bins, labels and weights. -/
structure Data (F : Type) where
  n : Nat
  d : Nat
  X : Nat → Nat → Nat
  y : Nat → F
  w : Nat → F

/-- The tree context `c` holds the dataset `D`. -/
structure Holds {F : Type} (c : Ctx F) (D : Data F) : Prop where
  n : c.fba.nSamples = D.n
  d : c.fba.nFeatures = D.d
  value : ∀ i j, i < D.n → j < D.d → c.fba.getValue i j = .ok (D.X i j)
  bound : ∀ i j, i < D.n → j < D.d → D.X i j < c.maxNBins
  y : ∀ i, i < D.n → c.y[i]? = some (D.y i)
  w : ∀ i, i < D.n → c.w[i]? = some (D.w i)
  cat : c.isCategorical.length = D.d

/-- A bin satisfies a split (goes left): set membership for categorical splits, comparison with the threshold otherwise. -/
def goesLeft {F : Type} (s : Split F) (bin : Nat) : Bool :=
  if s.isCat then decide (bin ∈ s.partition) else decide (bin ≤ s.binThreshold)

end Verif.Spec
