import Verif.Model.Setters

/-! Two fitted trees that can differ only in memory that was never initialised. -/
namespace Verif.Spec

variable {F P G : Type}

/-- The trees agree on everything but the scratch buffers and the entries of `bin_partitions` beyond the last stored set of
categories. -/
structure SameButScratch (o o' : TreeObj F P G) : Prop where
  nodes : o.arr.nodes = o'.arr.nodes
  yPred : o.arr.yPred = o'.arr.yPred
  nodeCount : o.arr.nodeCount = o'.arr.nodeCount
  capacity : o.arr.capacity = o'.arr.capacity
  bpCapacity : o.arr.bpCapacity = o'.arr.bpCapacity
  bpEnd : o.arr.bpEnd = o'.arr.bpEnd
  bpLength : o.arr.binParts.length = o'.arr.binParts.length
  binParts : ∀ j, j < o.arr.bpEnd → o.arr.binParts[j]? = o'.arr.binParts[j]?
  aggregation : o.aggregation = o'.aggregation
  step : o.step = o'.step
  dirichlet : o.dirichlet = o'.dirichlet
  ctx : o.ctx = o'.ctx
  partTrain : o.work.partTrain = o'.work.partTrain
  partValid : o.work.partValid = o'.work.partValid
  pool : o.work.pool = o'.work.pool
  sampled : o.work.sampled = o'.work.sampled
  rng : o.work.rng = o'.work.rng

/-- Two results: both computations succeed with related values, or both fail in the same way. -/
def SameResult {α β : Type} (S : α → β → Prop) : M α → M β → Prop
  | .ok x, .ok y => S x y
  | .error e, .error e' => e = e'
  | _, _ => False

end Verif.Spec
