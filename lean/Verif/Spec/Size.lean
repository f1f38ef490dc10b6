import Verif.Spec.Greedy

/-! Specification of the size of a tree. -/
namespace Verif.Spec

section
variable {L V K F P G W N : Type} [LinearOrder L] [DecidableEq V] [DecidableEq N] [LinearOrder K] [Field K] [FloorSemiring K] [Num F]

/-- Rows `i` and `i'` of `X` differ in some cell. -/
def RowsDiffer (X : Dataset N V) (i i' : Nat) : Prop := ∃ j, cell X i j ≠ cell X i' j

/-- The size of a tree is bounded, if it has more than one node:
* each leaf takes at least `minLeaf` of the drawn rows `tr`, and with aggregation of the other rows `va`;
* there are at most `2 ^ m` leaves if the depth is limited to `m`;
* beyond the first `minSplit` rows there is at most one more leaf for each row;
* there are as many drawn rows as leaves that differ from each other. -/
structure SizeBounds (minSplit minLeaf : Nat) (lim : Option Nat) (aggregation : Bool) (tr va : List Nat) (differ : Nat → Nat → Prop) (arr : TreeArr F P) : Prop where
  nodes : arr.nodeCount + 1 = 2 * leafCount arr
  minLeaf : leafCount arr = 1 ∨ leafCount arr * minLeaf ≤ tr.length ∧ (aggregation = true → leafCount arr * minLeaf ≤ va.length)
  minSplit : leafCount arr = 1 ∨ leafCount arr + max 2 minSplit ≤ tr.length + 2
  depth : ∀ m, lim = some m → leafCount arr ≤ 2 ^ m
  distinct : ∃ rows : List Nat, rows.length = leafCount arr ∧ (∀ i ∈ rows, i ∈ tr) ∧ rows.Pairwise differ

/-- The sizes of the trees of a forest `e'` that was fitted with the hyperparameters of `e` are bounded. -/
def ForestSize (lib : Lib V K F G W) (e e' : Est L V K F P G) (a : FitArgs N V) : Prop :=
  ∀ (t : Nat) (o : TreeObj F P G), e'.trees[t]? = some o → ∃ seed draws lim, e'.seeds[t]? = some seed ∧ BootstrapOf (lib.boot a.nRows) a.nRows seed draws ∧
    DepthLimit lib a.randomizedDepth e.maxDepth lim ∧
    SizeBounds e.minSplit e.minLeaf lim e.aggregation (drawnRows a.nRows draws) (leftOutRows a.nRows draws) (RowsDiffer a.X) o.arr

end

end Verif.Spec
