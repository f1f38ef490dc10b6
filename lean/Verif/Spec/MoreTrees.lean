import Mathlib.Data.List.Basic

/-! Specification of one line per tree in forests of different sizes. -/
namespace Verif.Spec

/-- Among the lines of `nC` classes with `k` trees each, the lines of every class are the first ones of the same class in the lines of `nC` classes with `m` trees each. -/
def ClassLinesKept {α : Type} (nC k m : Nat) (small large : List α) : Prop := ∀ c < nC, ∀ r < k, small[c * k + r]? = large[c * m + r]?

end Verif.Spec
