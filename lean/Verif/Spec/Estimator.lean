import Verif.Model.Estimator
import Verif.Spec.Encoder
import Verif.Spec.Forest

/-! Specification of the estimators. -/
namespace Verif.Spec

section
variable {L V K F Y P G W N : Type} [LinearOrder L] [DecidableEq V] [DecidableEq N] [LinearOrder K] [Field K] [FloorSemiring K] [Num F]

/-- The columns can be fitted: known dtypes; the cells of numerical columns are numbers; in an array of objects each column contains only
numbers, or contains something else and is not declared numerical. -/
def Fittable (cv : Conv V K) (ic : Option (List Bool)) : Dataset N V → Prop
  | .frame X => ∀ p ∈ X, p.2.kind ≠ .other ∧ (p.2.kind = .uif → ∀ v, some v ∈ p.2.cells → (cv.toFloat v).isSome)
  | .array .uif X => ∀ c ∈ X, ∀ v, some v ∈ c → (cv.toFloat v).isSome
  | .array .bOSU X => ∀ (j : Nat) c, X[j]? = some c →
      (∀ v, some v ∈ c → (cv.toFloat v).isSome ∧ (cv.toFloat32 v).isSome) ∨
      ((∃ v, some v ∈ c ∧ cv.toFloat32 v = none) ∧ ∀ m, ic = some m → m[j]? ≠ some false)
  | .array _ _ => False

/-- The dtypes of a dataframe have fewer than 2^63 categories. -/
def SmallDtypes : Dataset N V → Prop
  | .frame X => ∀ p ∈ X, p.2.dtypeCats.length < 2 ^ 63
  | .array _ _ => True

/-- Contracts of the external code for `n` rows: the sampled numbers have the right size and range, argsort sorts indices, the bootstrap finds a
sample with validation rows within the stack (see C15). -/
structure LibOK (lib : Lib V K F G W) (n : Nat) : Prop where
  seeded : ∀ s k, (lib.seeded s k).length = k
  seededGlobal : ∀ w k, (lib.seededGlobal w k).1.length = k
  choice : ∀ w k, k ≤ n → IsSample n k (lib.choice w n k).1
  boot : DrawsOK n (lib.boot n)
  returns : ∀ s, ∃ b, generateTrainValid (lib.boot n) n lib.frames s = .ok b
  argsort : ArgsortPerm lib.argsort

/-- Parameters that the constructor and, for `d` features, `fit` accept. -/
structure ParamsValid (e : Est L V K F P G) (d : Nat) : Prop where
  estimators : 1 ≤ e.nEstimators
  bins : 3 ≤ e.maxBins ∧ e.maxBins < 2 ^ 63
  accepted : setMaxFeatures e.maxFeatures = .ok e.maxFeatures
  inRange : (∀ i : Int, e.maxFeatures = .int i → i ≤ d) ∧ e.maxFeatures ≠ .float none
  minSplit : 1 ≤ e.minSplit
  state : ∃ r, e.randomState = some r
  encoding : (∀ k, e.subsample = some k → 50000 ≤ k) ∧ ∀ k, e.catMin = .int k → 3 < k

/-- Valid data with `a.nRows` rows and as many labels. -/
structure DataValid (cv : Conv V K) (a : FitArgs N V) (s : World L V K F P G W) (nLabels : Nat) : Prop where
  rows : 0 < a.nRows ∧ a.nRows < 2 ^ 63
  labels : nLabels = a.nRows
  columns : 1 ≤ nCols a.X
  weights : a.weights ≠ none → s.weights.length = a.nRows
  good : GoodInput a.nRows a.X
  small : SmallDtypes a.X
  fittable : ∃ ic, getIsCategorical a.categorical (nCols a.X) = .ok ic ∧ Fittable cv ic a.X

/-- The fitted estimator can encode `X`, see `Acceptable`. -/
def AcceptedBy (lib : Lib V K F G W) (e : Est L V K F P G) (X : Dataset N V) : Prop :=
  ∃ cfg enc, e.encoder = some (cfg, enc) ∧ Acceptable lib.conv cfg enc X

/-- Two runs end in the same way, up to the state of the global generator. -/
def SameButGenerator (r r' : M Unit × World L V K F P G W) : Prop :=
  r.1 = r'.1 ∧ r.2.self = r'.2.self ∧ r.2.weights = r'.2.weights

end

/-- In one-versus-rest mode tree `c * nE + r` is tree number `r` of class `c`: it uses seed number `r`. -/
def SeedsShared (nE nC : Nat) (base seeds : List Nat) : Prop :=
  ∀ c, c < nC → ∀ r, r < nE → seeds[c * nE + r]? = base[r]?

/-- The user asks for column `j` to be categorical. -/
def Selects : CatFeatures → Nat → Prop
  | .ints l, j => (j : Int) ∈ l
  | .bools l, j => l[j]? = some true
  | _, _ => False

/-- The values that should be accepted for `random_state`, and what should be read back. -/
def validState : PyState → Option (Option Nat)
  | .none => some none
  | .int n => if 0 ≤ n then some (some n.toNat) else none
  | .other => none

end Verif.Spec
