import Verif.Spec.ForestColumns

/-! Specification of more settings of the estimators that are equivalent. -/
namespace Verif.Spec

section
variable {L V K F P G W N : Type}

/-- The same estimator with other values of `max_features`, `subsample` and `cat_min_categories`. -/
def withSpelling (mf : MaxFeatures K) (sub : Option Nat) (cm : CatMin) (e : Est L V K F P G) : Est L V K F P G :=
  { e with maxFeatures := mf, subsample := sub, catMin := cm }

/-- `subsample` keeps all `n` rows: it is missing, or an accepted number that is at least `n`. -/
def KeepsAll (n : Nat) (sub : Option Nat) : Prop := ∀ k, sub = some k → 50000 ≤ k ∧ n ≤ k

/-- `cat_min_categories` is accepted: "log", "sqrt" or an integer above 3. -/
def CatMinAccepted (cm : CatMin) : Prop := ∀ k, cm = .int k → 3 < k

/-- The same estimator with another value of `cat_split_strategy`. -/
def withStrategy (st : CatStrategy) (e : Est L V K F P G) : Est L V K F P G := { e with strategy := st }

/-- The same estimator with another value of `max_bins`, which is also stored in its encoder. -/
def withMaxBins (b : Nat) (e : Est L V K F P G) : Est L V K F P G :=
  { e with maxBins := b, encoder := e.encoder.map fun p => ({ p.1 with maxBins := b }, p.2) }

/-- The same estimator with another value of `cat_min_categories`; its encoder stores the number `m` computed from it. -/
def withCatMin (cm : CatMin) (m : Nat) (e : Est L V K F P G) : Est L V K F P G :=
  { e with catMin := cm, encoder := e.encoder.map fun p => ({ p.1 with catMin := m }, p.2) }

/-- The same estimator with another value of `class_weight` (`true`: "balanced"). -/
def withBalanced (b : Bool) (e : Est L V K F P G) : Est L V K F P G := { e with balanced := b }

/-- The cells of column `j`. -/
def columnOf : Dataset N V → Nat → Option (List (Option V))
  | .frame X, j => (X[j]?).map fun p => p.2.cells
  | .array _ X, j => X[j]?

/-- Every column that is treated as numerical has at most `b` different values, missing ones not counted. -/
def FewValues [DecidableEq V] (X : Dataset N V) (isCat : List Bool) (b : Nat) : Prop :=
  ∀ j cells, isCat[j]? = some false → columnOf X j = some cells → (cells.filterMap id).dedup.length ≤ b

/-- The argument `categorical_features` says which columns are categorical. -/
def Declares : CatFeatures → Prop
  | .ints l => l ≠ []
  | .bools l => l ≠ []
  | _ => False

end

end Verif.Spec
