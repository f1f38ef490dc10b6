import Verif.Model.Grow
import Verif.Model.Sampling

/-! # Forests: fit of all trees, predictions -/
namespace Verif

variable {F Y P G : Type} [Num F]

/-- A fitted `TreeClassifier` or `TreeRegressor`, /repo/wildwood/tree.py: the node table, the attributes that `predict` reads,
the tree context (`none` after `lighten`) and the arrays of the contexts that growing modifies. The copy of `dirichlet` in
the context is left out: it is always equal to the attribute and never read. -/
structure TreeObj (F P G : Type) where
  arr : TreeArr F P
  aggregation : Bool
  step : F
  dirichlet : F
  ctx : Option (Ctx F)
  work : Work G

/-- `TreeClassifier.fit` and `TreeRegressor.fit`, tree.py:241-300 and 374-425; `T d` is the task for the value `d` of
`dirichlet` (the regressor has none and ignores it). -/
def TreeObj.fit (R : Rng G) (T : F → Task F Y P G) (c : Ctx F) (gb : Garbage F) (seed : Nat) (d : F)
    (train valid : List Nat) : M (TreeObj F P G) := do
  let (arr, w) ← fitTree R (T d) c gb seed train valid
  return { arr := arr, aggregation := c.aggregation, step := c.step, dirichlet := d, ctx := some c, work := w }

/-- `_parallel_build_trees`, /repo/wildwood/forest.py:81-121: bootstrap, weights, fit. The bootstrap and the tree get the same
seed (`_random_states_bootstrap` and `_random_states_trees` are the same array, forest.py:256-257). -/
def buildTree (R : Rng G) (T : F → Task F Y P G) (draw : Nat → List Nat) (depth : Nat) (c : Ctx F) (gb : Garbage F) (d : F)
    (seed : Nat) : M (TreeObj F P G) := do
  let b ← generateTrainValid draw c.fba.nSamples depth seed
  let w ← bootWeights b c.w
  TreeObj.fit R T { c with w := w } gb seed d b.train b.valid

/-- The trees of `ForestBase.fit`, forest.py:384-470, for regression and multinomial classification; `gb i` is the content of
uninitialised memory during the fit of tree `i`. The trees are fitted one after the other here. -/
def fitForest (R : Rng G) (T : F → Task F Y P G) (draw : Nat → List Nat) (depth : Nat) (c : Ctx F) (gb : Nat → Garbage F) (d : F)
    (seeds : List Nat) : M (List (TreeObj F P G)) :=
  seeds.zipIdx.mapM fun (s, i) => buildTree R T draw depth c (gb i) d s

/-- The trees of `ForestBase.fit` in one-versus-rest mode: tree `i` gets the labels and weights number `i // n_estimators`,
forest.py:430-465. -/
def fitOvr (R : Rng G) (T : F → Task F Y P G) (draw : Nat → List Nat) (depth : Nat) (c : Ctx F) (gb : Nat → Garbage F) (d : F)
    (nEstimators : Nat) (ys ws : List (List F)) (seeds : List Nat) : M (List (TreeObj F P G)) :=
  seeds.zipIdx.mapM fun (s, i) => do
    let y ← rd ys (i / nEstimators)
    let w ← rd ws (i / nEstimators)
    buildTree R T draw depth { c with y := y, w := w } (gb i) d s

/-- `TreeClassifier.predict_proba` and `TreeRegressor.predict`, tree.py:302-311 and 427-436. -/
def TreeObj.predict (mix : F → P → P → P) (o : TreeObj F P G) (fba : FBA) : M (List P) :=
  treePredict mix o.arr fba o.aggregation o.step

/-- `out += prediction` for arrays of the same shape; numpy raises ValueError when shapes differ. -/
def addRows {α : Type} (add : α → α → α) (out p : List α) : M (List α) :=
  if out.length = p.length then .ok (List.zipWith add out p) else .error .valueError

/-- `ForestRegressor.predict`, forest.py:1628-1657 with `_accumulate_prediction`, forest.py:124-151, one tree after the
other. -/
def forestPredict (trees : List (TreeObj F F G)) (fba : FBA) : M (List F) := do
  let out ← trees.foldlM (fun out o => do
    let p ← o.predict mixF fba
    addRows Num.add out p) (List.replicate fba.nSamples Num.zero)
  return out.map fun v => Num.div v (Num.ofNat trees.length)

/-- `out += prediction` for two-dimensional arrays with the same number of rows: numpy repeats a prediction with one column, and raises ValueError for
other shapes. (A prediction with one row would be repeated too; the predictions always have one row per sample.) -/
def addMat (out p : List (List F)) : M (List (List F)) :=
  if out.map List.length = p.map List.length then .ok (List.zipWith (List.zipWith Num.add) out p)
  else if p.map List.length = List.replicate out.length 1 then
    .ok (List.zipWith (fun row q => row.map fun v => Num.add v (q.headD Num.zero)) out p)
  else .error .valueError

/-- The accumulation of `ForestClassifier.predict_proba` in multinomial mode, forest.py:1226-1277. -/
def accumulateProba (nClasses : Nat) (trees : List (TreeObj F (List F) G)) (fba : FBA) : M (List (List F)) :=
  trees.foldlM (fun out o => do
    let p ← o.predict mixV fba
    addMat out p) (List.replicate fba.nSamples (List.replicate nClasses Num.zero))

/-- `ForestClassifier.predict_proba` in multinomial mode. -/
def predictProba (nClasses : Nat) (trees : List (TreeObj F (List F) G)) (fba : FBA) : M (List (List F)) := do
  let out ← accumulateProba nClasses trees fba
  return out.map fun row => row.map fun v => Num.div v (Num.ofNat trees.length)

/-- `out[:, col] += prediction[:, 1]` for one row, forest.py:149-151. -/
def addCol (col : Nat) (row p : List F) : M (List F) := do
  let v ← rd p 1
  let x ← rd row col
  wr row col (Num.add x v)

/-- Normalisation of a row in one-versus-rest mode, forest.py:1269-1273. -/
def normRow (eps : F) (nClasses : Nat) (row : List F) : List F :=
  let s := row.foldl Num.add Num.zero
  if Num.le s eps then row.map fun _ => Num.div Num.one (Num.ofNat nClasses) else row.map fun v => Num.div v s

/-- `ForestClassifier.predict_proba` in one-versus-rest mode; `eps` is the float32 machine epsilon. -/
def predictProbaOvr (eps : F) (nClasses nEstimators : Nat) (trees : List (TreeObj F (List F) G)) (fba : FBA) :
    M (List (List F)) := do
  let out ← trees.zipIdx.foldlM (fun out (o, i) => do
    let p ← o.predict mixV fba
    if out.length = p.length then (out.zip p).mapM fun (row, q) => addCol (i / nEstimators) row q
    else .error .valueError) (List.replicate fba.nSamples (List.replicate nClasses Num.zero))
  return out.map (normRow eps nClasses)

/-- `np.argmax`: the first index of a maximal entry; fails on an empty row. -/
def argmax (row : List F) : M Nat :=
  match row with
  | [] => .error .valueError
  | a :: _ => .ok (row.zipIdx.foldl (fun (b : F × Nat) (x : F × Nat) => if Num.lt b.1 x.1 then x else b) (a, 0)).2

/-- `ForestClassifier.predict`, forest.py:1205-1224, from the rows of `predict_proba`. -/
def predictLabels {L : Type} (classes : List L) (proba : List (List F)) : M (List L) :=
  proba.mapM fun row => do
    let k ← argmax row
    rd classes k

end Verif
