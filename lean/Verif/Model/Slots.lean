import Verif.Model.Basic

/-! # Threads that store the results of the trees (/repo/wildwood/forest.py:154-170)

`apply`, `predict_proba_trees` and `_weighted_depth` of a forest allocate an array `out` with a row per tree and run one task per tree on threads. The task
of tree `i` computes its result and stores it with `with lock: out[i] = result`. numpy copies the result element by element. -/
namespace Verif

/-- An element of a row of `out`: its position in the row. -/
abbrev Slot := Nat × Nat

/-- How far the task of a tree is: `waiting` for a thread; `ready w`: thread `w` has computed the result and waits for the lock; `storing w j`: thread `w`
has the lock and has stored the first `j` elements; `done`. -/
inductive Phase
  | waiting
  | ready (w : Nat)
  | storing (w j : Nat)
  | done
  deriving DecidableEq

/-- The thread that runs the task. -/
def Phase.thread : Phase → Option Nat
  | .ready w => some w
  | .storing w _ => some w
  | _ => none

/-- The shared state: the array, the phases of the tasks, and the tree whose task holds the lock. -/
structure Slots (α : Type) where
  out : Nat → Slot → α
  phase : Nat → Phase
  lock : Option Nat

/-- The state before the first task; `init` is what `np.empty` or `np.zeros` left in the array, forest.py:487, 1313 and 1667. -/
def Slots.init {α : Type} (init : Nat → Slot → α) : Slots α := ⟨init, fun _ => .waiting, none⟩

/-- Set the phase of tree `i`. -/
def Slots.to {α : Type} (s : Slots α) (i : Nat) (p : Phase) : Slots α := { s with phase := fun k => if k = i then p else s.phase k }

/-- One step of some thread; `vals i` is the result of tree `i`, the list of its elements with their positions; `trees` tasks, `workers` threads. -/
inductive SStep {α : Type} (workers trees : Nat) (vals : Nat → List (Slot × α)) : Slots α → Slots α → Prop
  /-- A free thread takes a task and computes the result, forest.py:155, 162 and 168. -/
  | start {s w i} : w < workers → i < trees → s.phase i = .waiting → (∀ k, (s.phase k).thread ≠ some w) → SStep workers trees vals s (s.to i (.ready w))
  /-- `with lock:`, forest.py:157, 163 and 169. -/
  | acquire {s w i} : s.phase i = .ready w → s.lock = none → SStep workers trees vals s { s.to i (.storing w 0) with lock := some i }
  /-- `out[tree_idx] = …` stores one element, forest.py:158, 164 and 170. -/
  | store {s w i j c v} : s.phase i = .storing w j → (vals i)[j]? = some (c, v) →
      SStep workers trees vals s { s.to i (.storing w (j + 1)) with out := fun k d => if k = i ∧ d = c then v else s.out k d }
  /-- The lock is released and the task ends. -/
  | release {s w i j} : s.phase i = .storing w j → (vals i).length ≤ j → SStep workers trees vals s { s.to i .done with lock := none }

/-- Runs of `n` steps. -/
inductive SRun {α : Type} (workers trees : Nat) (vals : Nat → List (Slot × α)) : Slots α → Nat → Slots α → Prop
  | nil {s} : SRun workers trees vals s 0 s
  | cons {s s' s'' n} : SRun workers trees vals s n s' → SStep workers trees vals s' s'' → SRun workers trees vals s (n + 1) s''

end Verif
