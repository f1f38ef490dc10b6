import Verif.Model.RawData
import Verif.Spec.Datasets

/-! # What the argument `raw` of a dataset loader should do (C129) -/
namespace Verif.Spec

variable {C : Type}

/-- The loader gives with `raw=True` the features and labels of the `Dataset` that it gives without: `raw=True` raises exactly if loading the `Dataset` raises, with the same error, or its frame has no label column; otherwise the frame of the `Dataset` has all the columns of the file except the dropped ones, `y` is its label column,
and `X` has exactly its features, in the same order, with the same dtypes and cells; the features that `extract` treats as categorical and as numerical are those with these dtypes in `X`. -/
def SameRaw (l : RawLoader) : Prop := ∀ df : DFrame PName C,
  (∀ e, l.raw df = .error e → l.dataset df = .error e ∨ ∃ d, l.dataset df = .ok (l.label, d) ∧ d.lookup l.label = none) ∧
  ∀ X y, l.raw df = .ok (X, y) → ∃ d, l.dataset df = .ok (l.label, d) ∧ d = df.filter (fun p => decide (p.1 ∉ l.drop)) ∧ (∃ c, d.lookup l.label = some c ∧ c.cells = y) ∧
    X = d.filter (fun p => decide (p.1 ≠ l.label)) ∧
    (∀ n row, cellOf X n row = if n = l.label ∨ n ∈ l.drop then none else cellOf df n row) ∧
    ∀ b, featureNames d l.label b = (X.filter fun p => p.2.category == b).map Prod.fst

end Verif.Spec
