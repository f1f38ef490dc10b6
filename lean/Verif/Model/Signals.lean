import Mathlib.Analysis.SpecialFunctions.Trigonometric.Basic
import Mathlib.Data.Sign.Basic
import Mathlib.Analysis.Real.Sqrt
import Mathlib.Data.List.Sort
import Mathlib.Data.List.MinMax
import Verif.Model.Basic

/-! # The signals of `wildwood.datasets`, with exact reals -/
namespace Verif

/-- `np.sign`. -/
noncomputable def signR (x : ℝ) : ℝ := (SignType.sign x : ℝ)

/-- `_heavisine`, /repo/wildwood/datasets/signals.py:16-34. -/
noncomputable def heavisine (x : ℝ) : ℝ := 4 * Real.sin (4 * Real.pi * x) - signR (x - 0.3) - signR (0.72 - x)

/-- The array `pos`, signals.py:55 and 84. -/
noncomputable def sigPos : List ℝ := [0.1, 0.13, 0.15, 0.23, 0.25, 0.4, 0.44, 0.65, 0.76, 0.78, 0.81]

/-- `_bumps`, signals.py:37-63. -/
noncomputable def bumps (x : ℝ) : ℝ :=
  let hgt : List ℝ := [4, 5, 3, 4, 5, 4.2, 2.1, 4.3, 3.1, 5.1, 4.2]
  let wth : List ℝ := [0.005, 0.005, 0.006, 0.01, 0.01, 0.03, 0.01, 0.01, 0.005, 0.008, 0.005]
  (sigPos.zip (hgt.zip wth)).foldl (fun y p => y + p.2.1 / (1 + |x - p.1| / p.2.2) ^ 4) 0

/-- `_blocks`, signals.py:66-89. -/
noncomputable def blocks (x : ℝ) : ℝ :=
  let hgt : List ℝ := [4, -5, 3, -4, 5, -4.2, 2.1, 4.3, -3.1, 2.1, -4.2]
  (sigPos.zip hgt).foldl (fun y p => y + (1 + signR (x - p.1)) * (p.2 / 2)) 2

/-- `_doppler`, signals.py:92-110. -/
noncomputable def doppler (x : ℝ) : ℝ := Real.sqrt (x * (1 - x)) * Real.sin (2 * Real.pi * 1.05 / (x + 0.05)) + 0.5

/-- The choice of the signal, signals.py:133-142. -/
noncomputable def signalOf (s : String) : ℝ → ℝ :=
  if s = "heavisine" then heavisine else if s = "bumps" then bumps else if s = "blocks" then blocks else if s = "doppler" then doppler else heavisine

/-- An entry of an array of floats that can be NaN. -/
abbrev NanR := Option ℝ

/-- `get_signal`, signals.py:113-145. ValueError for the minimum of an empty array; 0 / 0 is NaN. -/
noncomputable def getSignal (x : List ℝ) (signal : String) : Except Err (List NanR) :=
  let y := x.map (signalOf signal)
  match y.min?, y.max? with
  | some lo, some hi => .ok (y.map fun v => if hi - lo = 0 then none else some ((v - lo) / (hi - lo)))
  | _, _ => .error .valueError

/-- The global generator of numpy: `np.random.seed`, `np.random.uniform(size=n)`, `np.random.randn(n)`. -/
structure GlobalRng (G : Type) where
  seed : Int → G
  uniform : Nat → G → List ℝ × G
  randn : Nat → G → List ℝ × G

/-- `make_regression`, signals.py:148-178: the column `X`, the labels `y` and the state of the global generator afterwards. -/
noncomputable def makeRegression {G : Type} (R : GlobalRng G) (n : Nat) (signal : String) (noise : ℝ) (randomState : Option Int) (g : G) :
    Except Err ((List ℝ × List NanR) × G) :=
  let g0 := randomState.elim g R.seed
  let u := R.uniform n g0
  let X := u.1.mergeSort (fun a b => decide (a ≤ b))
  match getSignal X signal with
  | .error e => .error e
  | .ok y =>
    let z := R.randn n u.2
    .ok ((X, List.zipWith (fun v e => v.map (· + noise * e)) y z.1), z.2)

end Verif
