import Verif.Model.Accum

/-! Specification of the accumulation of predictions. -/
namespace Verif.Spec

variable {F : Type} [Num F]

/-- Add elements one after the other. -/
def applyUpd (out : Cell → F) (l : List (Cell × F)) : Cell → F :=
  l.foldl (fun out x => Function.update out x.1 (Num.add (out x.1) x.2)) out

/-- The shared memory as a two-dimensional array. -/
def matrix (rows cols : Nat) (out : Cell → F) : List (List F) :=
  (List.range rows).map fun r => (List.range cols).map fun c => out (r, c)

/-- The shared memory as a one-dimensional array. -/
def vector (rows : Nat) (out : Cell → F) : List F := (List.range rows).map fun r => out (r, 0)

/-- A complete interleaving of the threads that ends with the contents `out` of the shared array. -/
def Ends (useLock : Bool) (workers n : Nat) (upd : Nat → List (Cell × F)) (out : Cell → F) : Prop :=
  ∃ l s, AState.Run useLock workers n upd l s ∧ (∀ i, i < n → i ∈ s.finished) ∧ s.out = out

end Verif.Spec
