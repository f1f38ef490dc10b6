import Verif.Model.Impurity
import Verif.Model.Sampling

/-! # What differs between classification and regression trees

The classifier and regressor versions of `compute_node_context` and `find_best_split_along_feature` are two copies of
the same loops, with different label statistics. The model has the loops once, parameterised by a `Task`, and the
two tasks `classifierTask` and `regressorTask` below. -/
namespace Verif

/-- Label statistics of a tree. `Y` is the type of the sums kept for each bin, `P` the type of node predictions and
`G` the state of the random generator. -/
structure Task (F Y P G : Type) where
  /-- `y_sum[f, bin] = 0` -/
  zeroY : Y
  /-- adds a training sample with the given weight and label to the sums of its bin -/
  addY : Y → F → F → M Y
  /-- `y_sum_left += y_sum_in_bins[bin]` -/
  plusY : Y → Y → Y
  /-- `y_sum_right -= y_sum_in_bins[bin]` -/
  minusY : Y → Y → Y
  /-- `y_pred = 0` -/
  zeroP : P
  /-- adds a training sample with the given weight and label to the prediction -/
  addP : P → F → F → M P
  /-- final division of the prediction, given the total training weight -/
  endP : P → F → M P
  /-- `addLoss pred loss weight label`: adds a validation sample to the loss -/
  addLoss : P → F → F → F → M F
  /-- impurities of the children from weights and sums on both sides -/
  childs : F → F → Y → Y → M (F × F)
  /-- orders of the non-empty bins that are tried on a categorical feature -/
  orders : List Nat → List Y → G → M (List (List Nat) × G)

/-- `cat_split_strategy`, /repo/wildwood/_utils.py:12-21. -/
inductive CatStrategy
  | binary
  | all
  | random
  deriving DecidableEq, Repr

variable {F G : Type} [Num F]

/-- `y[k] += w` for the class `k = uintp(label)`: /repo/wildwood/_node.py:643 and 656 (`y_pred[label] += sample_weight`,
`y_sum[f, bin, label] += sample_weight`). -/
def addClass (y : List F) (w label : F) : M (List F) := do
  let v ← rd y (Num.toNat label)
  wr y (Num.toNat label) (Num.add v w)

/-- `y_pred[k] = (y_pred[k] + dirichlet) / (w_samples_train + n_classes * dirichlet)` for all `k`,
/repo/wildwood/_node.py:663-667. -/
def finishClassPred (nClasses : Nat) (dirichlet : F) (p : List F) (w : F) : M (List F) :=
  (List.range nClasses).foldlM
    (fun (p : List F) k => do
      let v ← rd p k
      wr p k (Num.div (Num.add v dirichlet) (Num.add w (Num.mul (Num.ofNat nClasses) dirichlet)))) p

/-- `loss_valid -= sample_weight * log(y_pred[label])`, /repo/wildwood/_node.py:681. -/
def addClassLoss (p : List F) (loss w label : F) : M F := do
  let v ← rd p (Num.toNat label)
  return Num.sub loss (Num.mul w (Num.log v))

/-- One order of the bins of a categorical feature, /repo/wildwood/_split.py:690-692 with `mod` the column that is
sorted: `bins_train[:] = non_empty_bins_train[np.argsort(y_sum_positives[:, mod])]`. `argsort` is
`np.argsort`. `ySum` has one row per bin and the rows are divided by their sums (lines 684-686). -/
def classOrder (argsort : List F → List Nat) (bins : List Nat) (ySum : List (List F)) (mod : Nat) :
    M (List Nat) := do
  let rows ← bins.mapM (rd ySum)
  let positives := rows.map fun r => r.map fun x => Num.div x (r.foldl Num.add Num.zero)
  let col ← positives.mapM fun r => rd r mod
  (argsort col).mapM (rd bins)

/-- Orders tried on a categorical feature for classification, /repo/wildwood/_split.py:679-724. -/
def classOrders (R : Rng G) (argsort : List F → List Nat) (nClasses : Nat) (s : CatStrategy) (bins : List Nat)
    (ySum : List (List F)) (g : G) : M (List (List Nat) × G) :=
  match s with
  | .all => do
    let os ← (List.range nClasses).mapM (classOrder argsort bins ySum)
    return (os, g)
  | .binary => do
    let o ← classOrder argsort bins ySum 1
    return ([o], g)
  | .random => do
    let (mod, g) ← R.draw g nClasses
    let o ← classOrder argsort bins ySum mod
    return ([o], g)

/-- The classification task: `compute_node_classifier_context` (/repo/wildwood/_node.py:539-700) and
`find_best_split_classifier_along_feature` (/repo/wildwood/_split.py:618-764). -/
def classifierTask (R : Rng G) (argsort : List F → List Nat) (nClasses : Nat) (dirichlet : F) (c : Criterion)
    (s : CatStrategy) : Task F (List F) (List F) G where
  zeroY := List.replicate nClasses Num.zero
  addY := addClass
  plusY := List.zipWith Num.add
  minusY := List.zipWith Num.sub
  zeroP := List.replicate nClasses Num.zero
  addP := addClass
  endP := finishClassPred nClasses dirichlet
  addLoss := addClassLoss
  childs := childsImpurityClf c nClasses
  orders := classOrders R argsort nClasses s

/-- Order of the bins of a categorical feature for regression, /repo/wildwood/_split.py:887-889:
`bins_train[:] = non_empty_bins_train[np.argsort(y_sum_in_bins[non_empty_bins_train])]`. -/
def regOrder (argsort : List F → List Nat) (bins : List Nat) (ySum : List (F × F)) : M (List Nat) := do
  let rows ← bins.mapM (rd ySum)
  (argsort (rows.map Prod.fst)).mapM (rd bins)

/-- The regression task: `compute_node_regressor_context` (/repo/wildwood/_node.py:744-902) and
`find_best_split_regressor_along_feature` (/repo/wildwood/_split.py:819-977). The sums of a bin are `y_sum` and
`y_sq_sum`. -/
def regressorTask (argsort : List F → List Nat) : Task F (F × F) F G where
  zeroY := (Num.zero, Num.zero)
  addY y w label := .ok (Num.add y.1 (Num.mul w label), Num.add y.2 (Num.mul (Num.mul w label) label))
  plusY a b := (Num.add a.1 b.1, Num.add a.2 b.2)
  minusY a b := (Num.sub a.1 b.1, Num.sub a.2 b.2)
  zeroP := Num.zero
  addP p w label := .ok (Num.add p (Num.mul w label))
  endP p w := .ok (Num.div p w)
  addLoss p loss w label := .ok (Num.add loss (Num.mul (Num.mul w (Num.sub label p)) (Num.sub label p)))
  childs wL wR yL yR := .ok (mseChilds wL wR yL.1 yR.1 yL.2 yR.2)
  orders bins ySum g := do
    let o ← regOrder argsort bins ySum
    return ([o], g)

end Verif
