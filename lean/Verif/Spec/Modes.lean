import Verif.Model.Estimator

/-! Specification of settings of the estimators that are equivalent, and of an estimator without its history. -/
namespace Verif.Spec

section
variable {L V K F P G W N N' : Type}

/-- The same state with another value of `multiclass` ("ovr" or "multinomial"). -/
def withMode (ovr : Bool) (s : World L V K F P G W) : World L V K F P G W := { s with self := { s.self with ovr := ovr } }

/-- The same state with another array `sample_weight` of the caller. -/
def withWeights (w : List F) (s : World L V K F P G W) : World L V K F P G W := { s with weights := w }

/-- A classifier that was never fitted, with the same hyperparameters. -/
def unfittedClassifier (e : Est L V K F P G) : Est L V K F P G :=
  { e with fitted := false, classes := [], nClasses := 0, nTrees := 0, nClassesPerTree := 0, maxFeatures_ := 0, seeds := [], isCategorical_ := [],
           encoder := none, trees := [], nSamples := 0, nFeatures := 0 }

/-- A regressor that was never fitted, with the same hyperparameters. A regressor has no classes. -/
def unfittedRegressor (e : Est L V K F P G) : Est L V K F P G :=
  { e with fitted := false, maxFeatures_ := 0, seeds := [], isCategorical_ := [], encoder := none, trees := [], nSamples := 0, nFeatures := 0 }

/-- The estimator with another value of `handle_unknown` (`true`: "error"), which is also stored in its encoder. -/
def withUnknown (b : Bool) (e : Est L V K F P G) : Est L V K F P G :=
  { e with handleUnknownError := b, encoder := e.encoder.map fun p => ({ p.1 with handleUnknownError := b }, p.2) }

/-- Two tables with the same columns in the same order; each has different names for its columns. -/
inductive ColumnsAgree : Dataset N V → Dataset N' V → Prop
  | frame {X : List (N × Series V)} {X' : List (N' × Series V)} : (X.map Prod.fst).Nodup → (X'.map Prod.fst).Nodup →
      X.map Prod.snd = X'.map Prod.snd → ColumnsAgree (.frame X) (.frame X')
  | array (k : Kind) (X : List (List (Option V))) : ColumnsAgree (.array k X) (.array k X)

/-- Every category that a column of the table has (for a category dtype: lists) was known to `fit`, in the columns treated as categorical. -/
def AllKnown (enc : List (FitCol V K)) : Dataset N V → Prop
  | .frame X => ∀ p ∈ enc.zip X, ∀ cats, p.1 = .cat cats →
      ∀ v, (if p.2.2.kind = .category then v ∈ p.2.2.dtypeCats else some v ∈ p.2.2.cells) → v ∈ cats
  | .array _ X => ∀ p ∈ enc.zip X, ∀ cats, p.1 = .cat cats → ∀ v, some v ∈ p.2 → v ∈ cats

end

end Verif.Spec
