/-!
# Basic vocabulary of the model

Exceptions, memory errors and exhausted loops are values of `Err`.
numpy arrays are `List`s with *checked* reads and writes: the real code is compiled with
`boundscheck=False` (/repo/wildwood/_utils.py:9), so `Err.oob` stands for
silent memory corruption and theorems have to exclude it.
-/
namespace Verif

/-- Everything that can go wrong in a modelled function. `oob`, `underflow`, `unbound`, `nanRead` are not
Python exceptions: they mark undefined behaviour of the compiled code. `fuel` marks a `while` loop
that did not stop within the bound given by the model. The others are Python exceptions. -/
inductive Err
  | oob
  | underflow
  | unbound
  | nanRead
  | fuel
  | valueError
  | typeError
  | attributeError
  | indexError
  | keyError
  | assertionError
  | recursionError
  deriving DecidableEq, Repr

/-- The result of a modelled function. -/
abbrev M := Except Err

/-- Checked read `a[i]` of a one-dimensional array. -/
def rd {α : Type _} (a : List α) (i : Nat) : M α :=
  match a[i]? with
  | some x => .ok x
  | none => .error .oob

/-- Checked write `a[i] = x`. -/
def wr {α : Type _} (a : List α) (i : Nat) (x : α) : M (List α) :=
  if i < a.length then .ok (a.set i x) else .error .oob

/-- Checked subtraction of unsigned machine integers (`uintp`, `uint64`). -/
def usub (a b : Nat) : M Nat :=
  if b ≤ a then .ok (a - b) else .error .underflow

/-- The basic slice `a[s:e]` (clipped at the end of the array, as numpy does). -/
def slice {α : Type _} (a : List α) (s e : Nat) : List α :=
  (a.drop s).take (e - s)

/-- Slice assignment `a[s:e] = v`. numpy requires `v` to have the length of the (clipped) slice; the model
is stricter and also requires that the slice is inside the array. -/
def wrSlice {α : Type _} (a : List α) (s e : Nat) (v : List α) : M (List α) :=
  if s ≤ e ∧ e ≤ a.length ∧ v.length = e - s then .ok (a.take s ++ v ++ a.drop e) else .error .oob

/-- The float operations used by the compiled code, *without any law*. Every theorem that is stated for
an arbitrary `Num F` thus holds for float32 arithmetic with rounding, NaN, infinities and `fastmath`.

`lt`/`le` are the Python comparisons (false on NaN), `toNat` is `uintp(x)`,
`gtNegInf x` is `x > -np.inf`. `-np.inf` and `np.inf` themselves are represented by `none` in the
fields that can hold them. -/
class Num (F : Type) where
  zero : F
  one : F
  half : F
  ofNat : Nat → F
  toNat : F → Nat
  add : F → F → F
  sub : F → F → F
  mul : F → F → F
  div : F → F → F
  neg : F → F
  lt : F → F → Bool
  le : F → F → Bool
  log : F → F
  exp : F → F
  gtNegInf : F → Bool

/-- A pseudo-random generator as an abstract deterministic state machine: numba's per-thread generator
(`np.random.seed` at /repo/wildwood/_tree.py:160 and 230; `randint` at
/repo/wildwood/_utils.py:174 and /repo/wildwood/_split.py:716).
The only contract is that `randint n` draws below `n`. -/
structure Rng (G : Type) where
  seed : Nat → G
  randint : G → Nat → Nat × G
  randint_lt : ∀ g n, 0 < n → (randint g n).1 < n

end Verif
