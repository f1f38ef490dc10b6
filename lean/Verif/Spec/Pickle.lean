import Verif.Model.Pickle
import Verif.Spec.Setters

/-! Specification of pickling and `lighten`. -/
namespace Verif.Spec

variable {F Y P G : Type} [Num F]

/-- The trees that exist in a fitted forest: made by `fit` on the samples `train` and `valid` of a dataset `fba`, and then changed by any
sequence of successful assignments to `step` and `dirichlet`. -/
inductive Reached (R : Rng G) (T : F → Task F Y P G) (fba : FBA) (train valid : List Nat) : TreeObj F P G → Prop where
  | fit {c : Ctx F} {gb : Garbage F} {seed : Nat} {d : F} {o : TreeObj F P G} : c.fba = fba → TreeObj.fit R T c gb seed d train valid = .ok o →
      Reached R T fba train valid o
  | step {v : F} {o o' : TreeObj F P G} : Reached R T fba train valid o → o.setStep v = .ok o' → Reached R T fba train valid o'
  | dirichlet {v : F} {o o' : TreeObj F P G} : Reached R T fba train valid o → o.setDirichlet T v = .ok o' → Reached R T fba train valid o'

/-- The arrays of a dataset have the lengths that `FeaturesBitArray.__init__` gives them. -/
structure FBALayout (b : FBA) : Prop where
  nBits : b.nBits.length = b.maxValues.length
  offsets : b.offsets.length = b.maxValues.length + 1
  values : b.nValuesInWords.length = b.maxValues.length
  masks : b.bitmasks.length = b.maxValues.length
  words : b.bitarray.length = (mkOffsets b.nSamples 0 b.maxValues).getLastD 0

/-- What the methods of a tree object see in its `__dict__`: `predict`, `step`, `dirichlet`, `get_nodes`. The generator and the arrays of the
node context are not attributes of the tree; they are taken from `w`. A regressor has no `dirichlet`. -/
def treeOf (w : Work G) (d0 : F) (d : TreeDict F P) : M (TreeObj F P G) := do
  let isCls ← (match ← d.attr "is_classifier" with | .val (.bool b) => .ok b | _ => .error .typeError : M Bool)
  let arr ← (match ← d.attr (if isCls then "_tree_classifier" else "_tree_regressor") with | .tree t => .ok t.arr | _ => .error .attributeError : M (TreeArr F P))
  let ctx ← (match ← d.attr (if isCls then "_tree_classifier_context" else "_tree_regressor_context") with
    | .ctx c => .ok (some c) | .val .none => .ok none | _ => .error .typeError : M (Option (CtxJit F)))
  let step ← (match ← d.attr "_step" with | .val (.flt b) => .ok b | _ => .error .typeError : M F)
  let aggregation ← (match ← d.attr "aggregation" with | .val (.bool b) => .ok b | _ => .error .typeError : M Bool)
  let dirichlet ← (if isCls then (do match ← d.attr "_dirichlet" with | .val (.flt b) => .ok b | _ => .error .typeError) else .ok d0 : M F)
  return { arr := arr, aggregation := aggregation, step := step, dirichlet := dirichlet, ctx := ctx.map CtxJit.c
           work := match ctx with
             | some c => { w with partTrain := c.partTrain, partValid := c.partValid, leftBuf := c.leftBuf, rightBuf := c.rightBuf }
             | none => w }

/-- Trees that agree on all attributes: everything but the generator and the arrays of the node context. -/
structure SameAttrs (o o' : TreeObj F P G) : Prop where
  arr : o.arr = o'.arr
  aggregation : o.aggregation = o'.aggregation
  step : o.step = o'.step
  dirichlet : o.dirichlet = o'.dirichlet
  ctx : o.ctx = o'.ctx
  partTrain : o.work.partTrain = o'.work.partTrain
  partValid : o.work.partValid = o'.work.partValid
  leftBuf : o.work.leftBuf = o'.work.leftBuf
  rightBuf : o.work.rightBuf = o'.work.rightBuf

end Verif.Spec
