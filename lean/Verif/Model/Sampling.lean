import Verif.Model.Basic
import Mathlib.Algebra.Order.Floor.Semiring
import Mathlib.Data.Nat.Log
import Mathlib.Algebra.Field.Defs

/-! # Random draws and derived parameters: feature subsampling, bootstrap, max_features -/
namespace Verif

/-- `np.random.randint(n)` in compiled code: fails when `n` is 0. -/
def Rng.draw {G : Type} (R : Rng G) (g : G) (n : Nat) : M (Nat × G) :=
  if n = 0 then .error .valueError else .ok (R.randint g n)

/-- `sample_without_replacement(pool, out)`, /repo/wildwood/_utils.py:155-176. Returns the new pool, the new `out`, and the
generator. -/
def sampleWithoutReplacement {G : Type} (R : Rng G) (g : G) (pool out : List Nat) :
    M (List Nat × List Nat × G) := do
  let nSamples := out.length
  let populationSize := pool.length
  let pool ← (List.range populationSize).foldlM (fun (p : List Nat) i => wr p i i) pool
  (List.range nSamples).foldlM
    (fun (s : List Nat × List Nat × G) i => do
      let (pool, out, g) := s
      let (j, g) ← R.draw g (← usub populationSize i)
      let out ← wr out i (← rd pool j)
      let last ← usub (← usub populationSize i) 1
      let pool ← wr pool j (← rd pool last)
      return (pool, out, g))
    (pool, out, g)

/-- Result of the bootstrap: train indices, validation indices, multiplicities of the train indices. -/
structure Boot where
  train : List Nat
  valid : List Nat
  trainCount : List Nat
  deriving DecidableEq, Repr

/-- `_generate_train_valid_samples`, /repo/wildwood/forest.py:43-78. `draw s` is
`RandomState(s).randint(0, n_samples, n_samples)`. The first argument is the number of stack frames that Python
grants to the recursion; when none is left Python raises RecursionError. -/
def generateTrainValid (draw : Nat → List Nat) (n : Nat) : Nat → Nat → M Boot
  | 0, _ => .error .recursionError
  | depth + 1, seed =>
    let sampleIndices := draw seed
    let counts := (List.range n).map fun i => sampleIndices.count i
    let validMask := counts.map fun c => decide (c = 0)
    if validMask.count true = 0 then generateTrainValid draw n depth ((seed + 1) % (2 ^ 32 - 1))
    else
      let sel (mask : List Bool) (l : List Nat) : List Nat :=
        (l.zip mask).filterMap fun p => if p.2 then some p.1 else none
      let trainMask := validMask.map not
      .ok { train := sel trainMask (List.range n)
            valid := sel validMask (List.range n)
            trainCount := sel trainMask counts }

/-- `sample_weight[train_indices] *= train_indices_count` on the copy of the weights,
/repo/wildwood/forest.py:109-118. -/
def bootWeights {F : Type} [Num F] (b : Boot) (w : List F) : M (List F) :=
  (b.train.zip b.trainCount).foldlM
    (fun w p => do
      let x ← rd w p.1
      wr w p.1 (Num.mul x (Num.ofNat p.2))) w

/-- The Python values that can be given for `max_features`: `float none` is NaN, `other` is any object that is neither
None, str, int (or bool) nor float. Floats are modelled by elements of an ordered field. -/
inductive MaxFeatures (K : Type)
  | none
  | str (s : String)
  | int (i : Int)
  | float (x : Option K)
  | other

section
variable {K : Type} [Field K] [LinearOrder K] [FloorSemiring K]

/-- The setter of `max_features`, /repo/wildwood/forest.py:776-802. -/
def setMaxFeatures : MaxFeatures K → M (MaxFeatures K)
  | .none => .ok .none
  | .str s => if s = "sqrt" ∨ s = "log2" ∨ s = "auto" then .ok (.str s) else .error .valueError
  | .int i => if i < 1 then .error .valueError else .ok (.int i)
  | .float Option.none => .ok (.float Option.none)
  | .float (some x) => if 1 < x ∨ x ≤ 0 then .error .valueError else .ok (.float (some x))
  | .other => .error .valueError

/-- `_get_max_features_`, /repo/wildwood/forest.py:804-834. `int(np.sqrt(n))` is `Nat.sqrt`, `int(np.log2(n))` is
`Nat.log 2` (exact for the sizes that float64 represents). `int(nan)` raises ValueError. -/
def getMaxFeatures (mf : MaxFeatures K) (nFeatures : Nat) : M Nat :=
  match mf with
  | .str s =>
    if s = "auto" then .ok (max 1 nFeatures.sqrt)
    else if s = "sqrt" then .ok (max 1 nFeatures.sqrt)
    else if s = "log2" then .ok (max 1 (Nat.log 2 nFeatures))
    else .error .valueError
  | .none => .ok nFeatures
  | .int i => if (nFeatures : Int) < i then .error .valueError else .ok i.toNat
  | .float Option.none => .error .valueError
  | .float (some x) => if 1 < x ∨ x ≤ 0 then .error .valueError else .ok (max 1 ⌊x * nFeatures⌋₊)
  | .other => .error .valueError

end

end Verif
