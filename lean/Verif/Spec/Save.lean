import Verif.Model.Save
import Verif.Spec.Life
import Verif.Spec.EndToEnd

/-! Specification of saving and loading forests. -/
namespace Verif.Spec

/-- What happens to a forest after `fit`: an assignment, or it is saved, and the file is loaded, in the same or in another process, in place of it. -/
inductive Event (A F P G : Type)
  | assign (a : A)
  | saveLoad (zeroP : P) (g : Nat → PickleGarbage) (w : Nat → Work G)

/-- The assignments among the events. -/
def Event.assigned? {A F P G : Type} : Event A F P G → Option A
  | .assign a => some a
  | .saveLoad .. => none

section
variable {L V K F P G W A : Type} [Num F]

/-- The events one after the other: what the assignments returned or raised, and the forest at the end. The outcome is an exception if saving or loading raises one. -/
def lifeOf (assign : A → Py (Est L V K F P G) Unit) (x : Nat → TreeExtra F P) (nFeatures : Nat) : List (Event A F P G) → Est L V K F P G → M (List (M Unit) × Est L V K F P G)
  | [], e => .ok ([], e)
  | .assign a :: l, e => do
    let r ← lifeOf assign x nFeatures l (assign a e).2
    return ((assign a e).1 :: r.1, r.2)
  | .saveLoad zeroP g w :: l, e => do
    let e' ← (e.save x nFeatures).load zeroP g w
    lifeOf assign x nFeatures l e'

/-- What a sequence of assignments returns or raises. -/
def replies (assign : A → Py (Est L V K F P G) Unit) : List A → Est L V K F P G → List (M Unit)
  | [], _ => []
  | a :: l, e => (assign a e).1 :: replies assign l (assign a e).2

/-- `x i` describes tree `i` of the forest: its class, the rows that its seed draws, and the other rows. -/
def TreeAttrs (lib : Lib V K F G W) (isCls : Bool) (e : Est L V K F P G) (x : Nat → TreeExtra F P) : Prop :=
  ∀ (i seed : Nat), e.seeds[i]? = some seed → (x i).isCls = isCls ∧ ∀ draws, BootstrapOf (lib.boot e.nSamples) e.nSamples seed draws →
    (x i).train = (List.range e.nSamples).filter (fun r => decide (r ∈ draws)) ∧ (x i).valid = (List.range e.nSamples).filter (fun r => decide (r ∉ draws))

end

end Verif.Spec
