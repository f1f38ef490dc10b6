import Verif.Model.Life
import Verif.Model.Pickle

/-! # Methods of estimators that may not be fitted

`Est.trees = []` stands for `self.trees is None`: the constructor assigns None (/repo/wildwood/forest.py:210), and a forest with trees has at least one. The
methods of `Model/Estimator.lean` and `Model/Inspect.lean` leave out `len(self.trees)` in `_predict_helper`, which raises TypeError for None; here it is added. -/
namespace Verif

section
variable {L V K F P G W N : Type} [LinearOrder L] [DecidableEq V] [DecidableEq N] [LinearOrder K] [Field K] [FloorSemiring K] [Num F]

/-- `_predict_helper`, forest.py:640-648: `_encoder.transform`, then `len(self.trees)`. -/
def Est.predictHelper (lib : Lib V K F G W) (e : Est L V K F P G) (n : Nat) (X : Dataset N V) : M FBA := do
  let fba ← e.encode lib n X
  if e.trees.isEmpty then .error .typeError else .ok fba

/-- `ForestClassifier.predict_proba`, forest.py:1226-1277. -/
def Est.callPredictProba (lib : Lib V K F G W) (eps : F) (e : Est L V K F (List F) G) (n : Nat) (X : Dataset N V) : M (List (List F)) := do
  let _ ← e.predictHelper lib n X
  e.predictProba lib eps n X

/-- `ForestClassifier.predict`, forest.py:1205-1224: `classes_` is read after `predict_proba`. -/
def Est.callPredict (lib : Lib V K F G W) (eps : F) (e : Est L V K F (List F) G) (n : Nat) (X : Dataset N V) : M (List L) := do
  let p ← e.callPredictProba lib eps n X
  let classes ← e.getClasses
  predictLabels classes p

/-- `ForestRegressor.predict`, forest.py:1628-1657. -/
def Est.callPredictReg (lib : Lib V K F G W) (e : Est L V K F F G) (n : Nat) (X : Dataset N V) : M (List F) := do
  let _ ← e.predictHelper lib n X
  e.predictReg lib n X

/-- `ForestBase.apply`, forest.py:472-501. -/
def Est.callApply (lib : Lib V K F G W) (e : Est L V K F P G) (n : Nat) (X : Dataset N V) : M (List (List Nat)) := do
  let _ ← e.predictHelper lib n X
  e.apply lib n X

/-- `ForestRegressor._weighted_depth`, forest.py:1659-1677. -/
def Est.callWeightedDepth (lib : Lib V K F G W) (e : Est L V K F F G) (n : Nat) (X : Dataset N V) : M (List (List F)) := do
  let _ ← e.predictHelper lib n X
  e.weightedDepth lib n X

/-- `self.trees[tree_idx]` for an index of any sign: TypeError for None, IndexError outside of `-len … len-1`. -/
def Est.treeAt (e : Est L V K F P G) (i : Int) : M (TreeObj F P G) :=
  if e.trees.isEmpty then .error .typeError
  else if 0 ≤ i then pyRd e.trees i.toNat
  else if -i ≤ e.trees.length then pyRd e.trees (e.trees.length - (-i).toNat) else .error .indexError

/-- `ForestBase.get_nodes`, forest.py:655-656. -/
def Est.callGetNodes (e : Est L V K F P G) (i : Int) : M (List ((Node F × PartitionCell) × P)) := do
  let o ← e.treeAt i
  getNodesPred o.arr

/-- `ForestBase.lighten`, forest.py:650-653: the constructor assigns None to `trees`, so that `hasattr` is always true and the loop over None raises TypeError. -/
def Est.callLighten : Py (Est L V K F P G) Unit := fun e =>
  if e.trees.isEmpty then (.error .typeError, e) else (.ok (), { e with trees := e.trees.map TreeObj.lighten })

end

end Verif
