import Verif.Model.Forest

/-! # Accumulating the predictions of the trees in worker threads

`_accumulate_prediction`, /repo/wildwood/forest.py:124-151: every thread computes the prediction of a tree, takes the lock, adds
the prediction to the shared array `out` and releases the lock. The addition is modelled as one read and one write per
element, so that other threads can run in between. Only the numpy array `out` is shared for writing. -/
namespace Verif

variable {F : Type} [Num F]

/-- A position of the array: row and column (column 0 for one-dimensional arrays). -/
abbrev Cell := Nat × Nat

/-- What a worker is doing: nothing; it has computed the prediction of tree `i`; it is inside `out += prediction` with `j` elements
written; the same, having read the old value of element `j`. -/
inductive WState (F : Type) where
  | idle
  | ready (i : Nat)
  | adding (i j : Nat)
  | loaded (i j : Nat) (v : F)

/-- The shared array, the workers, the lock, the started and the finished trees (last finished first). -/
structure AState (F : Type) where
  out : Cell → F
  ws : Nat → WState F
  lock : Option Nat
  started : List Nat
  finished : List Nat

/-- Steps of a worker. -/
inductive AStep where
  | start (w i : Nat)
  | acquire (w : Nat)
  | read (w : Nat)
  | write (w : Nat)
  | release (w : Nat)

/-- A step, `none` when it is not possible. `upd i` is the list of the elements of the prediction of tree `i` with the positions they
are added to. With `useLock = false` the lock is ignored (this is not the code). -/
def AState.act (useLock : Bool) (workers n : Nat) (upd : Nat → List (Cell × F)) (s : AState F) : AStep → Option (AState F)
  | .start w i =>
    match s.ws w with
    | .idle => if w < workers ∧ i < n ∧ i ∉ s.started then
        some { s with ws := Function.update s.ws w (.ready i), started := i :: s.started } else none
    | _ => none
  | .acquire w =>
    match s.ws w with
    | .ready i => if useLock = true ∧ s.lock ≠ none then none
        else some { s with ws := Function.update s.ws w (.adding i 0), lock := some w }
    | _ => none
  | .read w =>
    match s.ws w with
    | .adding i j => match (upd i)[j]? with
      | some (a, _) => some { s with ws := Function.update s.ws w (.loaded i j (s.out a)) }
      | none => none
    | _ => none
  | .write w =>
    match s.ws w with
    | .loaded i j x => match (upd i)[j]? with
      | some (a, v) => some { s with out := Function.update s.out a (Num.add x v), ws := Function.update s.ws w (.adding i (j + 1)) }
      | none => none
    | _ => none
  | .release w =>
    match s.ws w with
    | .adding i j => if j = (upd i).length then
        some { s with ws := Function.update s.ws w .idle, lock := none, finished := i :: s.finished } else none
    | _ => none

/-- `out = np.zeros(...)`, forest.py:1247, 1645. -/
def AState.init : AState F :=
  { out := fun _ => Num.zero, ws := fun _ => .idle, lock := none, started := [], finished := [] }

/-- An interleaving of the steps of the workers. -/
inductive AState.Run (useLock : Bool) (workers n : Nat) (upd : Nat → List (Cell × F)) : List AStep → AState F → Prop
  | nil : AState.Run useLock workers n upd [] AState.init
  | step {l s a s'} : AState.Run useLock workers n upd l s → s.act useLock workers n upd a = some s' →
      AState.Run useLock workers n upd (l ++ [a]) s'

/-- `out += prediction`: all elements, for a two-dimensional prediction. -/
def updAll (p : List (List F)) : List (Cell × F) :=
  p.zipIdx.flatMap fun (row, r) => row.zipIdx.map fun (v, c) => ((r, c), v)

/-- The same for a one-dimensional prediction. -/
def updVec (p : List F) : List (Cell × F) := p.zipIdx.map fun (v, r) => ((r, 0), v)

/-- `out[:, col] += prediction[:, 1]`. -/
def updCol (col : Nat) (p : List (List F)) : List (Cell × F) :=
  p.zipIdx.map fun (row, r) => ((r, col), row.getD 1 Num.zero)

end Verif
