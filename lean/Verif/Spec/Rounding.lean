import Mathlib.Algebra.Order.Floor.Ring
import Mathlib.Data.Int.Log
import Mathlib.Analysis.SpecialFunctions.Log.Basic
import Verif.Model.Basic

/-! Specification of arithmetic with rounding.

`FloatLaws` are the properties of floating-point numbers that the theorems about rounding use. They hold for every arithmetic whose operations
give the exact result rounded by a monotone function that leaves representable numbers alone, as long as nothing overflows; in particular for
exact arithmetic. `F32` is such an arithmetic: numbers with 24 binary digits, as in float32. -/
namespace Verif.Spec

/-- Properties of an arithmetic with rounding, where the natural numbers up to `N` are represented exactly. -/
structure FloatLaws (F : Type) [LinearOrder F] [Num F] (N : Nat) : Prop where
  le : ∀ a b : F, Num.le a b = decide (a ≤ b)
  zero_lt_one : (Num.zero : F) < Num.one
  zero_add : ∀ a : F, Num.add Num.zero a = a
  add_zero : ∀ a : F, Num.add a Num.zero = a
  add_mono : ∀ a a' b b' : F, a ≤ a' → b ≤ b' → Num.add a b ≤ Num.add a' b'
  zero_mul : ∀ a : F, Num.mul Num.zero a = Num.zero
  one_mul : ∀ a : F, Num.mul Num.one a = a
  mul_one : ∀ a : F, Num.mul a Num.one = a
  mul_mono : ∀ a a' b b' : F, Num.zero ≤ a → a ≤ a' → Num.zero ≤ b → b ≤ b' → Num.mul a b ≤ Num.mul a' b'
  zero_div : ∀ a : F, Num.zero < a → Num.div Num.zero a = Num.zero
  div_self : ∀ a : F, Num.zero < a → Num.div a a = Num.one
  div_mono : ∀ a b c : F, Num.zero < c → a ≤ b → Num.div a c ≤ Num.div b c
  ofNat_zero : (Num.ofNat 0 : F) = Num.zero
  ofNat_one : (Num.ofNat 1 : F) = Num.one
  ofNat_mono : ∀ k l : Nat, k ≤ l → (Num.ofNat k : F) ≤ Num.ofNat l
  ofNat_succ : ∀ k : Nat, k < N → Num.add (Num.ofNat k : F) Num.one = Num.ofNat (k + 1)
  toNat_ofNat : ∀ k : Nat, k ≤ N → Num.toNat (Num.ofNat k : F) = k

/-- `n` numbers between 0 and 1. -/
def UnitVector {F : Type} [LinearOrder F] [Num F] (n : Nat) (p : List F) : Prop := p.length = n ∧ ∀ x ∈ p, Num.zero ≤ x ∧ x ≤ Num.one

section
variable {K : Type} [LinearOrder K] [Field K] [FloorRing K]

/-- The nearest integer, the even one when there are two. -/
def nearest (x : K) : Int :=
  if x - ⌊x⌋ < 1 / 2 then ⌊x⌋ else if 1 / 2 < x - ⌊x⌋ then ⌊x⌋ + 1 else if ⌊x⌋ % 2 = 0 then ⌊x⌋ else ⌊x⌋ + 1

/-- Exponent of the last digit of a number near `x`: numbers between `2 ^ e` and `2 ^ (e + 1)` are multiples of `2 ^ (e - 23)`, and all numbers are multiples of
`2 ^ (-149)`. -/
def lastDigit (x : K) : Int := max (Int.log 2 x) (-126) - 23

/-- Rounding of a positive number. -/
def roundPos (x : K) : ℚ := nearest (x / 2 ^ lastDigit x) * 2 ^ lastDigit x

/-- Rounding to the nearest float32 number, ties to even, with gradual underflow and without overflow: IEEE 754 binary32, except that the numbers from `2 ^ 128` on
are numbers too. -/
def round32 (x : K) : ℚ := if 0 ≤ x then roundPos x else -roundPos (-x)

end

/-- The float32 numbers, see `round32`. -/
def F32 : Type := { q : ℚ // round32 q = q }

end Verif.Spec
