import Verif.Spec.Encoder

/-! # Which columns need a bin beyond the ones learnt by `fit` (C05) -/
namespace Verif.Spec

/-- The values column `j` may take in the dataset: the categories of a category dtype (even unused ones), otherwise
the non-missing values present. -/
def MayTake {N V : Type} (D : Dataset N V) (j : Nat) (v : V) : Prop :=
  match D with
  | .frame X => ∃ p, X[j]? = some p ∧
      if p.2.kind = .category then v ∈ p.2.dtypeCats else some v ∈ p.2.cells
  | .array _ X => ∃ c, X[j]? = some c ∧ some v ∈ c

/-- Column `j` contains a missing cell, or it is categorical and may take a value unknown to the encoder. -/
def NeedsExtraBin {N V K : Type} (D : Dataset N V) (j : Nat) (fc : FitCol V K) : Prop :=
  (∃ i, cell D i j = some none) ∨ ∃ cs v, fc = .cat cs ∧ MayTake D j v ∧ v ∉ cs

end Verif.Spec
