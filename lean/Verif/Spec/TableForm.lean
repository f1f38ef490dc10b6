import Verif.Spec.Estimator

/-! Specification: the same numerical table as a dataframe and as an array. -/
namespace Verif.Spec

variable {V K N : Type}

/-- A dataframe with columns of a numerical dtype. -/
def tableFrame (names : List N) (cols : List (List (Option V))) : Dataset N V :=
  .frame ((names.zip cols).map fun p => (p.1, { kind := .uif, cells := p.2 }))

/-- An array with a numerical dtype. -/
def tableArray (cols : List (List (Option V))) : Dataset N V := .array .uif cols

/-- The columns have distinct names and contain numbers (and missing cells). -/
structure IsTable (num : V → Option K) (names : List N) (cols : List (List (Option V))) : Prop where
  distinct : names.Nodup
  columns : names.length = cols.length
  numbers : ∀ c ∈ cols, ∀ v, some v ∈ c → (num v).isSome

/-- The user declares which columns are categorical. -/
def DeclaresColumns : CatFeatures → Prop
  | .ints l => l ≠ []
  | .bools l => l ≠ []
  | _ => False

/-- No column with missing cells has exactly `k` distinct values. -/
def NoneAtLimit [DecidableEq V] (k : Nat) (cols : List (List (Option V))) : Prop :=
  ∀ c ∈ cols, none ∈ c → (c.filterMap id).dedup.length ≠ k

end Verif.Spec
