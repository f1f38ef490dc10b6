import Verif.Model.Forest

/-! # Parameters that can be changed after `fit` -/
namespace Verif

variable {F Y P G : Type} [Num F]

/-- `a != b` on floats. A NaN differs from everything. -/
def neF (a b : F) : Bool := !(Num.le a b && Num.le b a)

/-- Setter of `TreeBase.step`, /repo/wildwood/tree.py:153-175. After `lighten` the attribute with the context exists and is
None, so that the assignment `context.step = val` raises AttributeError. -/
def TreeObj.setStep (v : F) (o : TreeObj F P G) : M (TreeObj F P G) :=
  if neF o.step v then
    match o.ctx with
    | none => .error .attributeError
    | some c =>
      if c.aggregation then do
        let nodes ← computeTreeWeights o.arr.nodes o.arr.nodeCount v
        return { o with step := v, ctx := some { c with step := v }, arr := { o.arr with nodes := nodes } }
      else .ok { o with step := v, ctx := some { c with step := v } }
  else .ok o

/-- Setter of `TreeClassifier.dirichlet`, tree.py:323-334. -/
def TreeObj.setDirichlet (T : F → Task F Y P G) (v : F) (o : TreeObj F P G) : M (TreeObj F P G) :=
  if neF v o.dirichlet then
    match o.ctx with
    | none => .error .attributeError
    | some c => do
      let arr ← recomputePredictions (T v) c o.work o.arr
      return { o with dirichlet := v, arr := arr }
  else .ok o

/-- The attributes of a `ForestClassifier` that matter here, /repo/wildwood/forest.py; `trees = none` before `fit`
(`_fitted = False`). -/
structure ForestObj (F P G : Type) where
  step : F
  dirichlet : F
  aggregation : Bool
  trees : Option (List (TreeObj F P G))

/-- Setter of `ForestBase.step`, forest.py:683-694, for a float. -/
def ForestObj.setStep (v : F) (f : ForestObj F P G) : M (ForestObj F P G) :=
  if Num.le v Num.zero then .error .valueError
  else match f.trees with
    | none => .ok { f with step := v }
    | some ts => do
      let ts ← ts.mapM (TreeObj.setStep v)
      return { f with step := v, trees := some ts }

/-- Setter of `ForestClassifier.dirichlet`, forest.py:1366-1377, for a float. -/
def ForestObj.setDirichlet (T : F → Task F Y P G) (v : F) (f : ForestObj F P G) : M (ForestObj F P G) :=
  if Num.lt v Num.zero then .error .valueError
  else match f.trees with
    | none => .ok { f with dirichlet := v }
    | some ts =>
      if neF f.dirichlet v then do
        let ts ← ts.mapM (TreeObj.setDirichlet T v)
        return { f with dirichlet := v, trees := some ts }
      else .ok { f with dirichlet := v }

/-- Setter of `ForestBase.aggregation`, forest.py:700-705: the trees are left as they are. -/
def ForestObj.setAggregation (b : Bool) (f : ForestObj F P G) : ForestObj F P G := { f with aggregation := b }

/-- `ForestClassifier.fit` with the parameters of the object, in multinomial mode: forest.py:309-470. `c` holds the data and
the other parameters. -/
def ForestObj.fit (R : Rng G) (T : F → Task F Y P G) (draw : Nat → List Nat) (depth : Nat) (c : Ctx F) (gb : Nat → Garbage F)
    (seeds : List Nat) (f : ForestObj F P G) : M (ForestObj F P G) :=
  if f.aggregation && !neF f.dirichlet Num.zero then .error .valueError
  else do
    let ts ← fitForest R T draw depth { c with step := f.step, aggregation := f.aggregation } gb f.dirichlet seeds
    return { f with trees := some ts }

/-- The same in one-versus-rest mode, with the one-hot labels and the weights of each class. -/
def ForestObj.fitOvr (R : Rng G) (T : F → Task F Y P G) (draw : Nat → List Nat) (depth : Nat) (c : Ctx F) (gb : Nat → Garbage F)
    (nEstimators : Nat) (ys ws : List (List F)) (seeds : List Nat) (f : ForestObj F P G) : M (ForestObj F P G) :=
  if f.aggregation && !neF f.dirichlet Num.zero then .error .valueError
  else do
    let ts ← Verif.fitOvr R T draw depth { c with step := f.step, aggregation := f.aggregation } gb f.dirichlet nEstimators ys ws seeds
    return { f with trees := some ts }

end Verif
