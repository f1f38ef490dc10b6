import Verif.Spec.Recode
import Verif.Spec.Estimator

/-! # Transforming the numerical columns before `fit` and `predict` (C64, C65) -/
namespace Verif.Spec

variable {L V K F P G W N : Type}

/-- No random subset of the rows is drawn to find the thresholds. -/
def UsesAllRows (e : Est L V K F P G) (n : Nat) : Prop := ∀ k, e.subsample = some k → n ≤ k

/-- The columns of a dataframe have different names. -/
def DistinctNames : Dataset N V → Prop
  | .frame X => (X.map Prod.fst).Nodup
  | .array _ _ => True

/-- The estimator with another encoder. -/
def withEncoder (e : Est L V K F P G) (enc : Option (EncCfg K × List (FitCol V K))) : Est L V K F P G := { e with encoder := enc }

/-- Every changed column is numerical, with numbers changed by an increasing function. -/
def OrderKept [LinearOrder K] (lib : Lib V K F G W) (X : Dataset N V) (ch : Nat → V → V) : Prop :=
  ∀ j, ch j = id ∨ ∃ φ, Increasing lib.conv lib.cap X j (ch j) φ

/-- The changed columns of `E` contain numbers that occur in the same column of `X`. -/
def ValuesFrom {N' : Type} (X : Dataset N V) (ch : Nat → V → V) (E : Dataset N' V) : Prop :=
  ∀ j, ch j ≠ id → NumericDtype E j ∧ ∀ v, InColumn E j v → InColumn X j v

/-- Columns the encoder treats as categorical are not changed. -/
def CategoricalKept (e : Est L V K F P G) (ch : Nat → V → V) : Prop := ∀ j, ch j ≠ id → e.isCategorical_[j]? ≠ some true

end Verif.Spec
