import Mathlib.Analysis.SpecialFunctions.Log.Basic
import Mathlib.Analysis.SpecialFunctions.Log.NegMulLog
import Mathlib.Algebra.Order.Floor.Defs
import Verif.Model.Basic

/-! The real numbers in place of floats: exact arithmetic. Theorems stated over `ℝ` say nothing about rounding. Lean's
convention `x / 0 = 0` and `log 0 = 0` differs from floats, so these theorems assume that denominators are not zero. -/
namespace Verif.Spec

/-- Exact arithmetic. -/
noncomputable instance realNum : Num ℝ where
  zero := 0
  one := 1
  half := 1 / 2
  ofNat n := n
  toNat x := ⌊x⌋₊
  add := (· + ·)
  sub := (· - ·)
  mul := (· * ·)
  div := (· / ·)
  neg x := -x
  lt a b := decide (a < b)
  le a b := decide (a ≤ b)
  log := Real.log
  exp := Real.exp
  gtNegInf _ := true

end Verif.Spec
