import Verif.Model.EncoderObj
import Verif.Spec.Params

/-! # The encoder as an object: documented hyperparameters, and what may happen to a fitted encoder -/
namespace Verif.Spec

section
variable {V K : Type} [Field K] [LinearOrder K]

/-- The documented values, encoder.py:50-90 and the messages of the exceptions. -/
def Documented : EncSetting K → Prop
  | .maxBins v => ∃ i, IsInt v i ∧ 3 ≤ i
  | .subsample v => v = .none ∨ (∃ i, IsInt v i ∧ 50000 ≤ i) ∨ ∃ x, v = .float (some x) ∧ 50000 ≤ x
  | .catMin v => v = .str "log" ∨ v = .str "sqrt" ∨ ∃ i, IsInt v i ∧ 3 < i
  | .isCategorical v => v = .none ∨ ∃ l, v = .flat l
  | .handleUnknown v => v = .str "error" ∨ v = .str "consider_missing"

/-- The value is neither an integer nor a string, and is given for `cat_min_categories`. -/
def StrangeCatMin (s : EncSetting K) : Prop := ∃ v, s = .catMin v ∧ (∀ i, ¬ IsInt v i) ∧ ∀ t, v ≠ .str t

/-- The object holds the value that was assigned; of a float for `subsample` it holds the integer part. -/
def HoldsValue (o : EncObj V K) : EncSetting K → Prop
  | .maxBins v => IsInt v o.maxBins
  | .subsample v => (v = .none ∧ o.subsample = none) ∨
      ∃ k, o.subsample = some k ∧ (IsInt v k ∨ ∃ x, v = .float (some x) ∧ (k : K) ≤ x ∧ x < k + 1)
  | .catMin v => (v = .str "log" ∧ o.catMin = some .log) ∨ (v = .str "sqrt" ∧ o.catMin = some .sqrt) ∨
      ∃ k : Nat, o.catMin = some (.int k) ∧ IsInt v k
  | .isCategorical v => (v = .none ∧ o.isCategorical = none) ∨ ∃ l, v = .flat l ∧ o.isCategorical = some l
  | .handleUnknown v => (v = .str "error" ∧ o.handleUnknownError = true) ∨ (v = .str "consider_missing" ∧ o.handleUnknownError = false)

/-- The second object differs from the first one at most in this hyperparameter. -/
def SameExcept (s : EncSetting K) (o o' : EncObj V K) : Prop :=
  ((∃ v, s = .maxBins v) ∨ o'.maxBins = o.maxBins) ∧ ((∃ v, s = .subsample v) ∨ o'.subsample = o.subsample) ∧
  ((∃ v, s = .catMin v) ∨ o'.catMin = o.catMin) ∧ ((∃ v, s = .isCategorical v) ∨ o'.isCategorical = o.isCategorical) ∧
  ((∃ v, s = .handleUnknown v) ∨ o'.handleUnknownError = o.handleUnknownError) ∧
  o'.fitted = o.fitted ∧ o'.nSamples = o.nSamples ∧ o'.nFeatures = o.nFeatures ∧ o'.catMin_ = o.catMin_ ∧ o'.cols = o.cols

/-- The same hyperparameters. -/
def SameSettings (o o' : EncObj V K) : Prop :=
  o'.maxBins = o.maxBins ∧ o'.subsample = o.subsample ∧ o'.catMin = o.catMin ∧ o'.isCategorical = o.isCategorical ∧
  o'.handleUnknownError = o.handleUnknownError

/-- Data that an encoder with this `is_categorical` looks at: the dtype of an array is supported, and the mask has one entry for each column. -/
def Looks {N : Type} (mask : Option (List Bool)) (X : Dataset N V) : Prop :=
  (∀ kind cols, X = .array kind cols → kind ≠ .other) ∧ ∀ m, mask = some m → m.length = X.nFeatures

/-- The rows that `fit` looks at: all, or `k` of them drawn by `choose` when there are more than `subsample = k` rows. -/
def RowsFor (choose : Nat → Nat → M (List Nat)) (subsample : Option Nat) (n : Nat) (subset : Option (List Nat)) : Prop :=
  (subset = none ∧ ∀ k, subsample = some k → n ≤ k) ∨ ∃ k l, subsample = some k ∧ k < n ∧ choose n k = .ok l ∧ subset = some l

end

section
variable {V K F G W : Type} [DecidableEq V] [LinearOrder K] [Field K] [FloorSemiring K]

/-- What may happen to a fitted encoder until the next `fit` that succeeds: assignments to hyperparameters, with or without exceptions, and calls
of `fit` that fail. Of the latter only those on data with the same number of columns `d`, or on data which are rejected at once. -/
inductive Later (lib : Lib V K F G W) (d : Nat) (o : EncObj V K) : EncObj V K → Prop
  | refl : Later lib d o o
  | assign {o' : EncObj V K} (s : EncSetting K) : Later lib d o o' → Later lib d o (o'.assign s).2
  | fitFails {N : Type} {o' : EncObj V K} {e : Err} (choose : Nat → Nat → M (List Nat)) (n : Nat) (X : Dataset N V) : Later lib d o o' →
      (o'.fit lib choose n X).1 = .error e → (n = 0 ∨ X.nFeatures = 0 ∨ X.nFeatures = d ∨ ¬ Looks o'.isCategorical X) →
      Later lib d o (o'.fit lib choose n X).2

/-- The encoders that a program can have: constructed, then any assignments and calls of `fit`, each of which may raise. -/
inductive EncReach (lib : Lib V K F G W) : EncObj V K → Prop
  | new {a b c d : PyVal K} {m : MaskArg} {o : EncObj V K} : EncObj.construct a b c m d = .ok o → EncReach lib o
  | assign {o : EncObj V K} (s : EncSetting K) : EncReach lib o → EncReach lib (o.assign s).2
  | fit {N : Type} {o : EncObj V K} (choose : Nat → Nat → M (List Nat)) (n : Nat) (X : Dataset N V) : EncReach lib o →
      EncReach lib (o.fit lib choose n X).2

end

end Verif.Spec
