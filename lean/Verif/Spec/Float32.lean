import Verif.Proofs.Rounding

/-! Arithmetic of float32 numbers: every operation gives the exact result, rounded. -/
namespace Verif.Spec

/-- The float32 number nearest to `q`. -/
def F32.of (q : ℚ) : F32 := ⟨round32 q, round32_idem q⟩

instance : LinearOrder F32 := inferInstanceAs (LinearOrder { q : ℚ // round32 q = q })

/-- Arithmetic with the given functions for exp and log. Simplification: the code computes some intermediate results (a literal or an integer combined
with a float32 number) with more digits before it rounds to float32. -/
@[reducible] def f32With (exp log : F32 → F32) : Num F32 where
  zero := F32.of 0
  one := F32.of 1
  half := F32.of (1 / 2)
  ofNat n := F32.of n
  toNat x := ⌊x.1⌋₊
  add a b := F32.of (a.1 + b.1)
  sub a b := F32.of (a.1 - b.1)
  mul a b := F32.of (a.1 * b.1)
  div a b := F32.of (a.1 / b.1)
  neg a := F32.of (-a.1)
  lt a b := decide (a.1 < b.1)
  le a b := decide (a.1 ≤ b.1)
  log := log
  exp := exp
  gtNegInf _ := true

/-- `exp`, correctly rounded. -/
noncomputable def f32Exp (x : F32) : F32 := ⟨round32 (Real.exp x.1), round32_idem _⟩

/-- `log`, correctly rounded. -/
noncomputable def f32Log (x : F32) : F32 := ⟨round32 (Real.log x.1), round32_idem _⟩

/-- float32 arithmetic. -/
noncomputable instance f32 : Num F32 := f32With f32Exp f32Log

end Verif.Spec
