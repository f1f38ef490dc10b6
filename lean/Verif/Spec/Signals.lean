import Verif.Model.Signals

/-! What the signals should be. -/
namespace Verif.Spec

/-- The positions, heights and widths of the bumps of Donoho's signal. -/
noncomputable def bumpTable : List (ℝ × ℝ × ℝ) :=
  [(0.1, 4, 0.005), (0.13, 5, 0.005), (0.15, 3, 0.006), (0.23, 4, 0.01), (0.25, 5, 0.01), (0.4, 4.2, 0.03), (0.44, 2.1, 0.01), (0.65, 4.3, 0.01), (0.76, 3.1, 0.005),
   (0.78, 5.1, 0.008), (0.81, 4.2, 0.005)]

/-- The positions and heights of the jumps of Donoho's signal. -/
noncomputable def jumpTable : List (ℝ × ℝ) :=
  [(0.1, 4), (0.13, -5), (0.15, 3), (0.23, -4), (0.25, 5), (0.4, -4.2), (0.44, 2.1), (0.65, 4.3), (0.76, -3.1), (0.78, 2.1), (0.81, -4.2)]

/-- Donoho's signals by name; any other name stands for the default `heavisine`. A jump has half of its height at its position. -/
noncomputable def donoho (s : String) (x : ℝ) : ℝ :=
  if s = "bumps" then (bumpTable.map fun b => b.2.1 * ((1 + |x - b.1| / b.2.2) ^ 4)⁻¹).sum
  else if s = "blocks" then 2 + (jumpTable.map fun b => if b.1 < x then b.2 else if b.1 = x then b.2 / 2 else 0).sum
  else if s = "doppler" then 0.5 + Real.sqrt (x * (1 - x)) * Real.sin (2.1 * Real.pi / (x + 0.05))
  else 4 * Real.sin (4 * Real.pi * x) + (if x < 0.3 then 1 else if x = 0.3 then 0 else -1) + (if x < 0.72 then -1 else if x = 0.72 then 0 else 1)

/-- The signal after a change of unit and origin that makes its least value 0 and its greatest value 1. -/
structure Rescaled (f : ℝ → ℝ) (x : List ℝ) (y : List NanR) : Prop where
  affine : ∃ a b, 0 < a ∧ y = x.map fun t => some (a * f t + b)
  range : ∀ v ∈ y, ∃ z, v = some z ∧ 0 ≤ z ∧ z ≤ 1
  least : some 0 ∈ y
  greatest : some 1 ∈ y

/-- The signal takes two values on these inputs. -/
def Varies (f : ℝ → ℝ) (x : List ℝ) : Prop := ∃ s ∈ x, ∃ t ∈ x, f s ≠ f t

/-- The value at an input does not depend on the other inputs. -/
def Pointwise (sig : List ℝ → Except Err (List NanR)) : Prop :=
  ∀ x x' y y' (i i' : Nat) (t : ℝ), sig x = .ok y → sig x' = .ok y' → x[i]? = some t → x'[i']? = some t → y'[i']? = y[i]?

/-- A sample of a regression with one feature: increasing draws of the generator, and the signal, in some unit, plus noise. -/
structure NoisySample {G : Type} (R : GlobalRng G) (n : Nat) (f : ℝ → ℝ) (noise : ℝ) (g : G) (X : List ℝ) (y : List NanR) (g' : G) : Prop where
  sorted : X.Pairwise (· ≤ ·)
  draws : X.Perm (R.uniform n g).1
  labels : Varies f X → ∃ a b, 0 < a ∧ ∀ (i : Nat) t e, X[i]? = some t → (R.randn n (R.uniform n g).2).1[i]? = some e →
    y[i]? = some (some (a * f t + b + noise * e))
  generator : g' = (R.randn n (R.uniform n g).2).2

end Verif.Spec
