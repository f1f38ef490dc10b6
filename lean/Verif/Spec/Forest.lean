import Verif.Spec.Tree
import Verif.Spec.Real

/-! Specification of forests. -/
namespace Verif.Spec

variable {F : Type} [Num F]

/-- The dataset after the bootstrap: weights multiplied by multiplicities. -/
def bootData (D : Data F) (b : Boot) : Data F :=
  { D with w := fun i => match (b.train.zip b.trainCount).lookup i with
      | some m => Num.mul (D.w i) (Num.ofNat m)
      | none => D.w i }

/-- Valid input of a forest fit, without the random draws. -/
structure ForestInput (c : Ctx F) (D : Data F) (lab : F → Prop) : Prop where
  holds : Holds c D
  params : ParamsOK c D
  labels : ∀ i, i < D.n → lab (D.y i)

/-- All entries of the encoded rows to predict can be read, for the first `d` features. -/
def RowsOK (fba : FBA) (d : Nat) : Prop := ∀ i, i < fba.nSamples → ∀ j, j < d → ∃ v, fba.getValue i j = .ok v

/-- A probability vector of length `n`. -/
def Distribution (n : Nat) (p : List ℝ) : Prop := p.length = n ∧ (∀ x ∈ p, 0 ≤ x ∧ x ≤ 1) ∧ p.sum = 1

end Verif.Spec
