import Verif.Model.Describe
import Verif.Spec.Datasets

/-! What a line of `describe_datasets` should say. -/
namespace Verif.Spec

section
variable {N C K : Type} [DecidableEq N] [LinearOrder C] [Field K] [DecidableEq K]

/-- The number of columns other than the label that satisfy `q`. -/
def countFeatures (df : DFrame N C) (label : N) (q : DCol C → Bool) : Nat := df.countP fun p => decide (p.1 ≠ label) && q p.2

/-- The line describes the dataset of this loader: the dataset alone, loaded and extracted with one-hot encoding and standardization. -/
def Describes (loader : M (LoadedDataset N C K)) (row : DescribeRow K) : Prop :=
  ∃ d r s tr te, loader = .ok d ∧ extract d.lib { d.cfg with oneHot := true, standardize := true } d.df d.n = .ok r ∧
    d.lib.split d.n s = .ok (tr, te) ∧
    row.name = d.name ∧ row.regression = d.cfg.regression ∧ row.nSamples = some d.n ∧ row.nTrain = some tr.length ∧ row.nTest = some te.length ∧ tr.length + te.length = d.n ∧ 0 < tr.length ∧ 0 < te.length ∧
    row.nCategorical = some (countFeatures d.df d.cfg.label fun c => c.category) ∧ row.nContinuous = some (countFeatures d.df d.cfg.label fun c => !c.category) ∧
    row.nFeatures = some (countFeatures d.df d.cfg.label fun _ => true) ∧ row.nColumns = r.xTrain.length ∧
    row.nClasses = r.classes.map List.length ∧ (d.cfg.regression = false → row.scaledGini = some r.scaledGini) ∧ (d.cfg.regression = true → row.nClasses = none ∧ row.scaledGini = none)

end

end Verif.Spec
