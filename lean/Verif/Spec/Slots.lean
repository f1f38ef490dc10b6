import Verif.Model.Slots
import Verif.Model.Inspect

/-! Specification of the array that the threads fill. -/
namespace Verif.Spec

/-- The elements of a vector, as numpy stores it. -/
def vecSlots {α : Type} (v : List α) : List (Slot × α) := v.zipIdx.map fun p => ((p.2, 0), p.1)

/-- The elements of a matrix, row by row. -/
def matSlots {α : Type} (m : List (List α)) : List (Slot × α) := (m.zipIdx.map fun r => r.1.zipIdx.map fun p => ((r.2, p.2), p.1)).flatten

/-- The array has the vectors `rows` as its rows. -/
def HoldsVecs {α : Type} (out : Nat → Slot → α) (rows : List (List α)) : Prop :=
  ∀ i j v, (rows[i]?.bind fun r => r[j]?) = some v → out i (j, 0) = v

/-- The array has the matrices `ms` as its slices. -/
def HoldsMats {α : Type} (out : Nat → Slot → α) (ms : List (List (List α))) : Prop :=
  ∀ i j k v, ((ms[i]?.bind fun m => m[j]?).bind fun r => r[k]?) = some v → out i (j, k) = v

/-- Every task has ended. -/
def AllDone {α : Type} (trees : Nat) (s : Slots α) : Prop := ∀ i < trees, s.phase i = .done

/-- The elements of the result of each tree: tree `i` of the forest has the `i`-th result. -/
def resultsOf {α β : Type} (slots : β → List (Slot × α)) (rows : List β) (i : Nat) : List (Slot × α) := (rows[i]?.map slots).getD []

end Verif.Spec
