import Verif.Model.Estimator
import Verif.Spec.Real

/-! Rows of weight zero. -/
namespace Verif.Spec

/-- Two arrays with the same entries, except perhaps for the rows of weight zero. -/
def AgreeWeighted {α : Type} (w : List ℝ) (y y' : List α) : Prop :=
  y'.length = y.length ∧ ∀ i : Nat, (∀ v, w[i]? = some v → v ≠ 0) → y'[i]? = y[i]?

end Verif.Spec
