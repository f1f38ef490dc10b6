import Verif.Model.Estimator
import Verif.Spec.Real

/-! Other units for labels and weights. -/
namespace Verif.Spec

/-- `np.argsort` only compares: it gives the same order for numbers that compare in the same way. -/
def ArgsortByOrder (argsort : List ℝ → List Nat) : Prop := ∀ φ : ℝ → ℝ, StrictMono φ → ∀ l, argsort (l.map φ) = argsort l

end Verif.Spec
