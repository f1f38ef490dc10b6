import Verif.Spec.Greedy

/-! Specification of trees that are grown without limits. -/
namespace Verif.Spec

section
variable {L V K F P G W N : Type}

/-- The hyperparameters set no limit: no aggregation, no depth, the smallest values for `min_samples_split` and `min_samples_leaf`, all features are tried. -/
structure NoLimits (e : Est L V K F P G) (a : FitArgs N V) : Prop where
  aggregation : e.aggregation = false
  depth : e.maxDepth = none ∧ a.randomizedDepth = false
  minSplit : e.minSplit = 2
  minLeaf : e.minLeaf = 1
  features : e.maxFeatures = .none

end

/-- The rows of `l` that have the same bins as row `i` in the `d` columns have the same label. -/
def Consistent {α : Type} (d : Nat) (X : Nat → Nat → Nat) (lab : Nat → α) (l : List Nat) (i : Nat) : Prop :=
  ∀ r ∈ l, (∀ j < d, X r j = X i j) → lab r = lab i

/-- Number of the trees among the first `T` whose bootstrap `draws` contains row `i`. -/
def timesInBag (T : Nat) (draws : Nat → List Nat) (i : Nat) : Nat := ((List.range T).filter fun t => decide (i ∈ draws t)).length

end Verif.Spec
