import Verif.Model.Setters
import Verif.Model.Inspect

/-! # Assignments to the attributes of an estimator (/repo/wildwood/forest.py:664-911 and 1333-1454) -/
namespace Verif

/-- An assignment to an attribute that both estimators have, with a value of a type that the setter expects. (Other types are rejected with ValueError before
anything changes.) `handleUnknown e`: the value "error" when `e`, otherwise "consider_missing". -/
inductive Assign (F K : Type)
  | nEstimators (n : Int)
  | step (v : F)
  | aggregation (b : Bool)
  | maxDepth (d : Option Int)
  | minSplit (n : Int)
  | minLeaf (n : Int)
  | maxBins (n : Int)
  | categoricalFeatures (c : CatFeatures)
  | maxFeatures (m : MaxFeatures K)
  | subsample (k : Option Nat)
  | catMin (c : CatMin)
  | handleUnknown (e : Bool)
  | randomState (v : PyState)

/-- An assignment to an attribute of a classifier. `classWeight b`: "balanced" when `b`, otherwise None; `multiclass b`: "ovr" when `b`, otherwise "multinomial";
`classes` and `nClasses`: any value. -/
inductive ClsAssign (F K : Type)
  | base (a : Assign F K)
  | criterion (c : Criterion)
  | dirichlet (v : F)
  | classWeight (b : Bool)
  | multiclass (b : Bool)
  | catSplitStrategy (s : CatStrategy)
  | classes
  | nClasses

section
variable {L V K F P G W : Type} [LinearOrder K] [Field K] [FloorSemiring K] [Num F]

/-- A setter that raises ValueError unless the value passes its checks. -/
def Est.setIf (ok : Bool) (f : Est L V K F P G → Est L V K F P G) : Py (Est L V K F P G) Unit := fun e => if ok then (.ok (), f e) else (.error .valueError, e)

/-- Setters of `ForestBase`, forest.py:664-870. `categorical_features`, `subsample`, `cat_min_categories` and
`handle_unknown` are plain attributes. Simplification: when the setter of a tree fails inside the loop of `step`, the trees before it keep their new value in the
code and have the old value here; the theorems show that no setter of a tree fails. -/
def Est.assign : Assign F K → Py (Est L V K F P G) Unit
  | .nEstimators n => fun e => Est.setIf (!e.fitted && decide (1 ≤ n)) (fun e => { e with nEstimators := n.toNat }) e
  | .step v => fun e =>
    if Num.le v Num.zero then (.error .valueError, e)
    else if e.fitted then
      match e.trees.mapM (TreeObj.setStep v) with
      | .error x => (.error x, { e with step := v })
      | .ok ts => (.ok (), { e with step := v, trees := ts })
    else (.ok (), { e with step := v })
  | .aggregation b => Est.setIf true fun e => { e with aggregation := b }
  | .maxDepth none => Est.setIf true fun e => { e with maxDepth := none }
  | .maxDepth (some d) => Est.setIf (decide (2 ≤ d)) fun e => { e with maxDepth := some d.toNat }
  | .minSplit n => Est.setIf (decide (2 ≤ n)) fun e => { e with minSplit := n.toNat }
  | .minLeaf n => Est.setIf (decide (1 ≤ n)) fun e => { e with minLeaf := n.toNat }
  | .maxBins n => Est.setIf (decide (3 ≤ n)) fun e => { e with maxBins := n.toNat }
  | .categoricalFeatures c => Est.setIf true fun e => { e with categoricalFeatures := c }
  | .maxFeatures m => fun e =>
    match setMaxFeatures m with
    | .error x => (.error x, e)
    | .ok m => (.ok (), { e with maxFeatures := m })
  | .subsample k => Est.setIf true fun e => { e with subsample := k }
  | .catMin c => Est.setIf true fun e => { e with catMin := c }
  | .handleUnknown b => Est.setIf true fun e => { e with handleUnknownError := b }
  | .randomState v => fun e =>
    match e.setRandomState v with
    | .error x => (.error x, e)
    | .ok e' => (.ok (), e')

/-- Setters of `ForestClassifier`, forest.py:1347-1454. The setter of `dirichlet` of a tree (tree.py:323-334) recomputes the predictions with the number of classes of
the trees; it does not read the criterion and the strategy. The simplification of `Est.assign` for a failure inside the loop over the trees holds here too. -/
def Est.assignCls (lib : Lib V K F G W) : ClsAssign F K → Py (Est L V K F (List F) G) Unit
  | .base a => Est.assign a
  | .criterion c => Est.setIf true fun e => { e with criterion := c }
  | .dirichlet v => fun e =>
    if Num.lt v Num.zero then (.error .valueError, e)
    else if e.fitted && neF e.dirichlet v then
      match e.trees.mapM (TreeObj.setDirichlet (fun d => classifierTask lib.rng lib.argsort e.nClassesPerTree d e.criterion e.strategy) v) with
      | .error x => (.error x, { e with dirichlet := v })
      | .ok ts => (.ok (), { e with dirichlet := v, trees := ts })
    else (.ok (), { e with dirichlet := v })
  | .classWeight b => Est.setIf true fun e => { e with balanced := b }
  | .multiclass b => fun e => if e.fitted then (.error .attributeError, e) else (.ok (), { e with ovr := b })
  | .catSplitStrategy s => fun e => if e.fitted then (.error .attributeError, e) else (.ok (), { e with strategy := s })
  | .classes => Est.setIf false id
  | .nClasses => Est.setIf false id

/-- Reading `n_samples_in_`, forest.py:884-889. -/
def Est.getNSamplesIn (e : Est L V K F P G) : M Nat := if e.fitted then .ok e.nSamples else .error .valueError

/-- Reading `n_features_in_`, forest.py:898-903. -/
def Est.getNFeaturesIn (e : Est L V K F P G) : M Nat := if e.fitted then .ok e.nFeatures else .error .valueError

/-- Setter of `n_features_in_`, forest.py:905-911, for an integer. -/
def Est.setNFeaturesIn (n : Int) : Py (Est L V K F P G) Unit := Est.setIf (decide (1 ≤ n)) fun e => { e with nFeatures := n.toNat }

/-- Reading `classes_`, forest.py:1378-1383. -/
def Est.getClasses (e : Est L V K F P G) : M (List L) := if e.fitted then .ok e.classes else .error .valueError

/-- Reading `n_classes_`, forest.py:1389-1394. -/
def Est.getNClasses (e : Est L V K F P G) : M Nat := if e.fitted then .ok e.nClasses else .error .valueError

end

end Verif
