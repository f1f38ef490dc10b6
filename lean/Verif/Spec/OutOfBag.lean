import Verif.Model.Forest

/-! Two fitted trees that differ only in what the rows left out by the bootstrap determine. -/
namespace Verif.Spec

variable {F P G : Type} [Num F]

/-- Two arrays agree on the rows `B`. -/
def AgreeOn {α : Type} (B : List Nat) (a a' : List α) : Prop := ∀ i ∈ B, a[i]? = a'[i]?

/-- A node without the three entries about the rows that were left out: their loss, their weight, and the aggregation weight computed from the losses. -/
def noValid (n : Node F) : Node F := { n with loss := Num.zero, wValid := Num.zero, logW := none }

/-- The trees have the same nodes with the same tests, children, counts, impurities and predictions; they may differ in the entries of the nodes that
`noValid` removes. Without aggregation they do not differ there either. -/
structure SameGrowth (o o' : TreeObj F P G) : Prop where
  nodes : o'.arr.nodes.map noValid = o.arr.nodes.map noValid
  yPred : o'.arr.yPred = o.arr.yPred
  nodeCount : o'.arr.nodeCount = o.arr.nodeCount
  binParts : o'.arr.binParts = o.arr.binParts
  bpEnd : o'.arr.bpEnd = o.arr.bpEnd
  partTrain : o'.work.partTrain = o.work.partTrain
  partValid : o'.work.partValid = o.work.partValid
  aggregation : o'.aggregation = o.aggregation
  step : o'.step = o.step
  dirichlet : o'.dirichlet = o.dirichlet
  whole : o.aggregation = false → o'.arr = o.arr

end Verif.Spec
