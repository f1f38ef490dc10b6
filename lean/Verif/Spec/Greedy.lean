import Verif.Spec.Gain
import Verif.Spec.EndToEnd
import Verif.Spec.Estimator

/-! Specification of the trees of a fitted forest in terms of its hyperparameters. -/
namespace Verif.Spec

section
variable {F P : Type} [Num F]

/-- The rows drawn by the bootstrap, and the others. -/
def drawnRows (n : Nat) (draws : List Nat) : List Nat := (List.range n).filter fun i => decide (i ∈ draws)
/-- The rows that were not drawn. -/
def leftOutRows (n : Nat) (draws : List Nat) : List Nat := (List.range n).filter fun i => decide (i ∉ draws)

/-- The limits set by `min_samples_split`, `min_samples_leaf`, `max_depth` (none: no limit) and `aggregation` for the drawn rows `tr` and the other rows
`va` that visit node `n` with number `k`. -/
def WithinLimits (minSplit minLeaf : Nat) (maxDepth : Option Nat) (aggregation : Bool) (k : Nat) (n : Node F) (tr va : List Nat) : Prop :=
  (∀ m, maxDepth = some m → n.depth ≤ m) ∧
  (k ≠ 0 → minLeaf ≤ tr.length ∧ (aggregation = true → minLeaf ≤ va.length)) ∧
  (n.isLeaf = false → minSplit ≤ tr.length ∧ (aggregation = true → minSplit ≤ va.length) ∧ ∀ m, maxDepth = some m → n.depth < m)

/-- All nodes of a tree are within the limits; `X` are the bins of the `n` training rows. -/
def TreeLimits (minSplit minLeaf : Nat) (maxDepth : Option Nat) (aggregation : Bool) (n : Nat) (X : Nat → Nat → Nat) (draws : List Nat)
    (arr : TreeArr F P) : Prop :=
  open Classical in
  WellFormed arr ∧ ∀ k node, NodeAt arr k node →
    let tr := (drawnRows n draws).filter fun i => decide (Visits arr (X i) k)
    let va := (leftOutRows n draws).filter fun i => decide (Visits arr (X i) k)
    node.nTrain = tr.length ∧ node.nValid = va.length ∧ WithinLimits minSplit minLeaf maxDepth aggregation k node tr va

end

/-- The data that a tree learns from: bins, labels and weights of the `n` rows, where the weight of a drawn row is multiplied by the number of times it
was drawn. -/
structure TreeData (D : Data ℝ) (n d : Nat) (X : Nat → Nat → Nat) (y w : Nat → ℝ) (draws : List Nat) : Prop where
  rows : D.n = n
  cols : D.d = d
  bins : D.X = X
  labels : ∀ i < n, D.y i = y i
  weights : ∀ i < n, D.w i = if i ∈ draws then w i * draws.count i else w i

section
variable {L V K F P G W N : Type} [LinearOrder L] [DecidableEq V] [DecidableEq N] [LinearOrder K] [Field K] [FloorSemiring K] [Num F]

/-- The settings of a tree are the hyperparameters of the estimator `e` and what `fit` computed from them in `e'`. -/
structure TreeSettings (c : Ctx F) (e e' : Est L V K F P G) : Prop where
  minSplit : c.minSplit = e.minSplit
  minLeaf : c.minLeaf = e.minLeaf
  aggregation : c.aggregation = e.aggregation
  maxFeatures : c.maxFeatures = e'.maxFeatures_
  isCategorical : c.isCategorical = e'.isCategorical_

/-- The limit for the depth of a tree: `max_depth`, or a random number with `randomized_depth`. -/
def DepthLimit (lib : Lib V K F G W) (randomized : Bool) (maxDepth lim : Option Nat) : Prop :=
  if randomized then ∃ np, lim = some (lib.depth np).1 else lim = maxDepth

/-- The documented number of features tried per split, for `d` features: the square root, the logarithm to base 2, the given number, the given share or
all of them, rounded down but at least one. -/
def FeaturesTried (mf : MaxFeatures K) (d k : Nat) : Prop :=
  match mf with
  | .none => k = d
  | .str s => if s = "log2" then 2 ^ k ≤ d ∧ d < 2 ^ (k + 1) ∨ k = 1 ∧ d < 2 else k * k ≤ d ∧ d < (k + 1) * (k + 1)
  | .int i => (k : Int) = i
  | .float f => ∃ x, f = some x ∧ ((k : K) ≤ x * d ∧ x * d < k + 1 ∧ 1 ≤ k ∨ k = 1 ∧ x * d < 1)
  | .other => False

end

/-- The tree is grown greedily for the impurity `I`, with the keys `Ks` for categorical features, on the rows `train`, with the rows `valid` for
aggregation: a node is split exactly when no stopping rule applies and an admissible candidate exists on the sampled features; its test is a candidate
with the largest information gain. -/
structure Greedy {P : Type} (I : Data ℝ → List Nat → ℝ) (Ks : List (List Key)) (c : Ctx ℝ) (lim : Option Nat) (D : Data ℝ) (train valid : List Nat)
    (arr : TreeArr ℝ P) : Prop where
  wellFormed : WellFormed arr
  limits : ∀ k n, NodeAt arr k n → WithinLimits c.minSplit c.minLeaf lim c.aggregation k n (routed arr D train k) (routed arr D valid k)
  split : ∀ k n, NodeAt arr k n → n.isLeaf = false → (k ≠ 0 → 0 < I D (routed arr D train k)) ∧
    ∃ feats f, IsSample D.d c.maxFeatures feats ∧ n.feature = some f ∧ IsCandidate c D Ks feats (routed arr D train k) f (nodeTest arr D n f) ∧
      Admissible c (nodeTest arr D n f) (routed arr D train k) (routed arr D valid k) ∧
      AllCandidates c D Ks feats (routed arr D train k) (routed arr D valid k) fun goes =>
        infoGain I D (routed arr D train k) goes ≤ infoGain I D (routed arr D train k) (nodeTest arr D n f)
  leaf : ∀ k n, NodeAt arr k n → n.isLeaf = true →
    ((routed arr D train k).length < c.minSplit ∨ (c.aggregation = true ∧ (routed arr D valid k).length < c.minSplit) ∨
      (∃ m, lim = some m ∧ m ≤ n.depth) ∨ (k ≠ 0 ∧ I D (routed arr D train k) ≤ 0)) ∨
    ∃ feats, IsSample D.d c.maxFeatures feats ∧ AllCandidates c D Ks feats (routed arr D train k) (routed arr D valid k) fun _ => False

section
variable {L V K F P G W N : Type} [LinearOrder L] [DecidableEq V] [DecidableEq N] [LinearOrder K] [Field K] [FloorSemiring K] [Num F]

/-- `fit` of the estimator `e` gave `e'` with `count` trees: its attributes describe the data, the number of features tried per split is the documented
one, and the trees respect `min_samples_split`, `min_samples_leaf`, `max_depth` and `aggregation` on the rows that the seeds of the trees draw. -/
def ForestLimits (lib : Lib V K F G W) (e e' : Est L V K F P G) (a : FitArgs N V) (count : Nat) : Prop :=
  e'.trees.length = count ∧ e'.nSamples = a.nRows ∧ e'.nFeatures = nCols a.X ∧ FeaturesTried e.maxFeatures (nCols a.X) e'.maxFeatures_ ∧
  ∃ train, e'.encode lib a.nRows a.X = .ok train ∧ ∀ (t : Nat) (ob : TreeObj F P G), e'.trees[t]? = some ob → ∃ seed draws lim,
    e'.seeds[t]? = some seed ∧ BootstrapOf (lib.boot a.nRows) a.nRows seed draws ∧ DepthLimit lib a.randomizedDepth e.maxDepth lim ∧
    TreeLimits e.minSplit e.minLeaf lim e.aggregation a.nRows (binsOf train) draws ob.arr

/-- The trees of `e'` are grown greedily for the impurity `I` and the keys `Ks`; `y t` and `w t` are the labels and weights of the rows for tree `t`. -/
def ForestGreedy (lib : Lib V K ℝ G W) (e e' : Est L V K ℝ P G) (a : FitArgs N V) (I : Data ℝ → List Nat → ℝ) (Ks : List (List Key))
    (y w : Nat → Nat → ℝ) : Prop :=
  ∃ train, e'.encode lib a.nRows a.X = .ok train ∧ ∀ (t : Nat) (ob : TreeObj ℝ P G), e'.trees[t]? = some ob → ∃ c D seed draws lim,
    TreeSettings c e e' ∧ DepthLimit lib a.randomizedDepth e.maxDepth lim ∧ e'.seeds[t]? = some seed ∧
    BootstrapOf (lib.boot a.nRows) a.nRows seed draws ∧ TreeData D a.nRows (nCols a.X) (binsOf train) (y t) (w t) draws ∧
    Greedy I Ks c lim D (drawnRows a.nRows draws) (leftOutRows a.nRows draws) ob.arr

end

end Verif.Spec
