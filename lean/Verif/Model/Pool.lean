import Verif.Model.Forest

/-! # Fitting trees in worker threads

`ForestBase.fit` runs `_parallel_build_trees` in the threads of joblib. Threads share the packed features, the labels and the
weights, which they only read (the weights are copied, /repo/wildwood/forest.py:104). Each thread has its own numba random
generator; constructing a `_TreeClassifier` seeds the one of the current thread (/repo/wildwood/_tree.py:160, 230). -/
namespace Verif

variable {F Y P G : Type} [Num F]

/-- What one call of `tree.fit` receives. -/
structure Prep (F : Type) where
  c : Ctx F
  gb : Garbage F
  seed : Nat
  train : List Nat
  valid : List Nat

/-- `_parallel_build_trees` before `tree.fit`, forest.py:103-117. -/
def prepare (draw : Nat → List Nat) (depth : Nat) (c : Ctx F) (gb : Garbage F) (seed : Nat) : M (Prep F) := do
  let b ← generateTrainValid draw c.fba.nSamples depth seed
  let w ← bootWeights b c.w
  return { c := { c with w := w }, gb := gb, seed := seed, train := b.train, valid := b.valid }

/-- The same in one-versus-rest mode for tree `i`. -/
def prepareOvr (draw : Nat → List Nat) (depth : Nat) (c : Ctx F) (gb : Garbage F) (nEstimators : Nat) (ys ws : List (List F))
    (i seed : Nat) : M (Prep F) := do
  let y ← rd ys (i / nEstimators)
  let w ← rd ws (i / nEstimators)
  prepare draw depth { c with y := y, w := w } gb seed

/-- The beginning of `tree.fit` and of `grow`: contexts, seed, root record (tree.py:241-290, _grow.py:295-325). -/
def startTree (R : Rng G) (T : Task F Y P G) (p : Prep F) : M (GState F P G) := do
  let k := initWork R p.c p.gb p.seed p.train p.valid
  let t ← resizeTree T.zeroP TreeArr.empty (some 2047)
  let recs ← (Records.init p.gb 10).push p.gb
    { parent := none, depth := 0, isLeft := false, impurity := none
      sT := 0, eT := k.partTrain.length, sV := 0, eV := k.partValid.length }
  return { tree := t, recs := recs, work := k }

/-- The end of `grow` and of `tree.fit` (_grow.py:516-522, tree.py:296-300). -/
def finishTree (p : Prep F) (d : F) (s : GState F P G) : M (TreeObj F P G) := do
  let arr ← (if p.c.aggregation then (do
      let nodes ← computeTreeWeights s.tree.nodes s.tree.nodeCount p.c.step
      return { s.tree with nodes := nodes })
    else .ok s.tree : M (TreeArr F P))
  return { arr := arr, aggregation := p.c.aggregation, step := p.c.step, dirichlet := d, ctx := some p.c, work := s.work }

/-- The state of the pool: the generator of each worker, what each worker is doing, the trees that were started and the
finished ones. The generator inside the state of a job is not used: a thread uses its own. -/
structure Pool (F P G : Type) where
  gen : Nat → G
  job : Nat → Option (Nat × Prep F × GState F P G)
  started : List Nat
  done : Nat → Option (TreeObj F P G)

/-- An action of a worker. -/
inductive Action where
  | start (w i : Nat)
  | advance (w : Nat)

/-- Use the generator `g`. -/
def GState.withRng (s : GState F P G) (g : G) : GState F P G := { s with work := { s.work with rng := g } }

/-- One atomic action: a worker that has nothing to do starts a tree that nobody has started, or a worker executes one
iteration of the loop of `grow`, or ends its tree. `none` when the action is not possible. -/
def Pool.act (R : Rng G) (T : F → Task F Y P G) (d : F) (workers n : Nat) (prep : Nat → M (Prep F)) (s : Pool F P G) :
    Action → Option (M (Pool F P G))
  | .start w i =>
    if w < workers ∧ i < n ∧ (s.job w).isNone ∧ i ∉ s.started then some (do
      let p ← prep i
      let st ← startTree R (T d) p
      return { s with gen := Function.update s.gen w st.work.rng
                      job := Function.update s.job w (some (i, p, st))
                      started := i :: s.started })
    else none
  | .advance w =>
    match s.job w with
    | none => none
    | some (i, p, st) =>
      some (if st.recs.nonEmpty then (do
          let st ← growStep R (T d) p.c p.gb (st.withRng (s.gen w))
          return { s with gen := Function.update s.gen w st.work.rng, job := Function.update s.job w (some (i, p, st)) })
        else (do
          let o ← finishTree p d (st.withRng (s.gen w))
          return { s with job := Function.update s.job w none, done := Function.update s.done i (some o) }))

/-- The pool before the first action; the generators are in any state. -/
def Pool.init (gen : Nat → G) : Pool F P G := { gen := gen, job := fun _ => none, started := [], done := fun _ => none }

/-- A run: a list of possible actions, all of which succeed. -/
inductive Pool.Run (R : Rng G) (T : F → Task F Y P G) (d : F) (workers n : Nat) (prep : Nat → M (Prep F)) (s0 : Pool F P G) :
    List Action → Pool F P G → Prop
  | nil : Pool.Run R T d workers n prep s0 [] s0
  | step {l s a s'} : Pool.Run R T d workers n prep s0 l s → s.act R T d workers n prep a = some (.ok s') →
      Pool.Run R T d workers n prep s0 (l ++ [a]) s'

end Verif
