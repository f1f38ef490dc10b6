import Verif.Model.Checks

/-! Specification of column typing: the documented rules. -/
namespace Verif.Spec

/-- The documented rule: declared categorical, or not declared and (category dtype, text/boolean/object dtype, or
numerical dtype with few distinct values). -/
def ShouldBeCategorical (kind : Kind) (decl : Option Bool) (nDistinct catMin : Nat) : Prop :=
  decl = some true ∨
    (decl = none ∧ (kind = .category ∨ kind = .bOSU ∨ (kind = .uif ∧ nDistinct ≤ catMin)))

/-- `mask` selects exactly the columns in `idx`. -/
def SelectsColumns (mask : List Bool) (idx : List Int) : Prop :=
  ∀ k : Nat, mask[k]? = some true ↔ (k < mask.length ∧ (k : Int) ∈ idx)

end Verif.Spec
