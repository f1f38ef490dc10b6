import Mathlib.Algebra.BigOperators.Group.Finset.Basic
import Verif.Spec.Real
import Verif.Spec.Tree

/-! Specification of impurities, information gain and candidate splits, over the real numbers and in terms of samples (not of
histograms). -/
namespace Verif.Spec

variable {Y P G : Type}

/-- Total weight of the samples `l`. -/
noncomputable def totalW (D : Data ℝ) (l : List Nat) : ℝ := (l.map D.w).sum

/-- Total weight of the samples of class `k`; labels are class numbers stored as floats. -/
noncomputable def classW (D : Data ℝ) (l : List Nat) (k : Nat) : ℝ :=
  ((l.filter fun i => decide (⌊D.y i⌋₊ = k)).map D.w).sum

/-- Gini impurity and entropy of the weighted class frequencies. -/
noncomputable def classImpurity (nClasses : Nat) : Criterion → Data ℝ → List Nat → ℝ
  | .gini, D, l => 1 - ∑ k ∈ Finset.range nClasses, (classW D l k / totalW D l) ^ 2
  | .entropy, D, l => ∑ k ∈ Finset.range nClasses, Real.negMulLog (classW D l k / totalW D l)

/-- Weighted mean of the labels. -/
noncomputable def mean (D : Data ℝ) (l : List Nat) : ℝ := (l.map fun i => D.w i * D.y i).sum / totalW D l

/-- Weighted variance of the labels. -/
noncomputable def variance (D : Data ℝ) (l : List Nat) : ℝ :=
  (l.map fun i => D.w i * (D.y i - mean D l) ^ 2).sum / totalW D l

/-- Information gain of the split of the samples `l` by a test, for the impurity `I`. -/
noncomputable def infoGain (I : Data ℝ → List Nat → ℝ) (D : Data ℝ) (l : List Nat) (goes : Nat → Bool) : ℝ :=
  I D l - totalW D (l.filter goes) / totalW D l * I D (l.filter goes) -
    totalW D (l.filter fun i => !goes i) / totalW D l * I D (l.filter fun i => !goes i)

/-- Contract of `np.argsort`: a permutation of the indices that sorts the values. -/
def ArgsortSorts (argsort : List ℝ → List Nat) : Prop :=
  ArgsortPerm argsort ∧ ∀ l, (argsort l).Pairwise fun a b => l.getD a 0 ≤ l.getD b 0

/-- A quantity by which the bins of a categorical feature are sorted, from the samples in the bin. -/
abbrev Key := Data ℝ → List Nat → ℝ

/-- Frequency of class `k` in the bin. -/
noncomputable def classKey (k : Nat) : Key := fun D l => classW D l k / totalW D l

/-- Sum of the labels in the bin. -/
noncomputable def sumKey : Key := fun D l => (l.map fun i => D.w i * D.y i).sum

/-- The keys used by each strategy: one of the lists is chosen and all its keys are used. -/
noncomputable def strategyKeys (nClasses : Nat) : CatStrategy → List (List Key)
  | .all => [(List.range nClasses).map classKey]
  | .binary => [[classKey 1]]
  | .random => (List.range nClasses).map fun k => [classKey k]

/-- The two kinds of trees with their impurity and their keys for categorical features. -/
inductive RealTask : {Y P : Type} → Task ℝ Y P G → (ℝ → Prop) → (Data ℝ → List Nat → ℝ) → List (List Key) → Prop
  | classifier (R : Rng G) {argsort : List ℝ → List Nat} (nClasses : Nat) (dirichlet : ℝ) (cr : Criterion)
      {s : CatStrategy} : ArgsortSorts argsort → StrategyOK nClasses s →
      RealTask (classifierTask R argsort nClasses dirichlet cr s) (ClassLabel nClasses) (classImpurity nClasses cr)
        (strategyKeys nClasses s)
  | regressor {argsort : List ℝ → List Nat} : ArgsortSorts argsort →
      RealTask (regressorTask argsort) (fun _ => True) variance [[sumKey]]

/-- The test leaves enough training samples (and validation samples, with aggregation) on both sides. -/
def Admissible (c : Ctx ℝ) (goes : Nat → Bool) (train valid : List Nat) : Prop :=
  c.minLeaf ≤ (train.filter goes).length ∧ c.minLeaf ≤ (train.filter fun i => !goes i).length ∧
  (c.aggregation = true → c.minLeaf ≤ (valid.filter goes).length ∧ c.minLeaf ≤ (valid.filter fun i => !goes i).length)

/-- `o` is an order of the bins of feature `j` found in the samples `train`, sorted by a key. -/
structure SortedBins (D : Data ℝ) (j : Nat) (train : List Nat) (key : Key) (o : List Nat) : Prop where
  nodup : o.Nodup
  mem : ∀ b, b ∈ o ↔ ∃ i ∈ train, D.X i j = b
  sorted : o.Pairwise fun a b => key D (inBin D j a train) ≤ key D (inBin D j b train)

/-- All admissible candidate splits on the features `feats` satisfy `Q`. For a numerical feature, candidates compare with
a threshold that is the bin of a training sample, for which some training sample is larger. For a categorical feature,
candidates test membership in a proper prefix of an order of the bins sorted by a key. -/
def AllCandidates (c : Ctx ℝ) (D : Data ℝ) (Ks : List (List Key)) (feats train valid : List Nat) (Q : (Nat → Bool) → Prop) :
    Prop :=
  ∀ j ∈ feats,
    (c.isCategorical[j]? = some false → ∀ b, (∃ i ∈ train, D.X i j = b) → (∃ i ∈ train, b < D.X i j) →
      Admissible c (fun i => decide (D.X i j ≤ b)) train valid → Q fun i => decide (D.X i j ≤ b)) ∧
    (c.isCategorical[j]? = some true → ∃ keys ∈ Ks, ∀ key ∈ keys, ∃ o, SortedBins D j train key o ∧
      ∀ S S', o = S ++ S' → S ≠ [] → S' ≠ [] → Admissible c (fun i => decide (D.X i j ∈ S)) train valid →
        Q fun i => decide (D.X i j ∈ S))

/-- `goes` is a candidate on feature `j`, one of `feats` (admissible or not). -/
def IsCandidate (c : Ctx ℝ) (D : Data ℝ) (Ks : List (List Key)) (feats train : List Nat) (j : Nat) (goes : Nat → Bool) :
    Prop :=
  j ∈ feats ∧
    ((c.isCategorical[j]? = some false ∧ ∃ b, (∃ i ∈ train, D.X i j = b) ∧ (∃ i ∈ train, b < D.X i j) ∧
      goes = fun i => decide (D.X i j ≤ b)) ∨
    (c.isCategorical[j]? = some true ∧ ∃ keys ∈ Ks, ∃ key ∈ keys, ∃ o, SortedBins D j train key o ∧
      ∃ S S', o = S ++ S' ∧ S ≠ [] ∧ S' ≠ [] ∧ goes = fun i => decide (D.X i j ∈ S)))

/-- `min_samples_leaf` excludes no split of the categories of feature `j`: every category found in the training samples has
enough samples. -/
def LeafFree (c : Ctx ℝ) (D : Data ℝ) (j : Nat) (train valid : List Nat) : Prop :=
  ∀ b, (∃ i ∈ train, D.X i j = b) → c.minLeaf ≤ (inBin D j b train).length ∧
    (c.aggregation = true → c.minLeaf ≤ (inBin D j b valid).length)

open Classical in
/-- The test of node `n` on feature `f`, on rows. -/
noncomputable def nodeTest (arr : TreeArr ℝ P) (D : Data ℝ) (n : Node ℝ) (f i : Nat) : Bool :=
  decide (TestLeft arr n (D.X i f))

end Verif.Spec
