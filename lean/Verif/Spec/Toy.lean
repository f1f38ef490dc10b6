import Verif.Spec.Task

/-! Concrete objects used only in the `example`s beside the property theorems: integers instead of floats, a counter
instead of a random generator. -/
namespace Verif.Spec

/-- Integers with the operations of `Num` (crude `log`, `exp`). -/
@[reducible] def toyNum : Num Int where
  zero := 0
  one := 1
  half := 0
  ofNat n := n
  toNat := Int.toNat
  add := (· + ·)
  sub := (· - ·)
  mul := (· * ·)
  div := (· / ·)
  neg := Neg.neg
  lt a b := decide (a < b)
  le a b := decide (a ≤ b)
  log x := x
  exp x := x
  gtNegInf _ := true

/-- A counter as random generator. -/
def toyRng : Rng Nat where
  seed s := s
  randint g n := (g % n, g + 1)
  randint_lt _ _ h := Nat.mod_lt _ h

/-- An argsort that keeps the order. -/
def toyArgsort (l : List Int) : List Nat := List.range l.length

theorem toyArgsort_perm : ArgsortPerm toyArgsort := fun _ => .refl _

/-- The dataset with the given columns, labels and weights. -/
def dataOf {F : Type} [Num F] (n : Nat) (cols : List (List Nat)) (y w : List F) : Data F where
  n := n
  d := cols.length
  X i j := (cols.getD j []).getD i 0
  y i := y.getD i Num.zero
  w i := w.getD i Num.zero

end Verif.Spec
