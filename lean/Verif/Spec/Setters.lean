import Verif.Model.Setters
import Verif.Spec.Forest

/-! Specification of changes of parameters after `fit`. -/
namespace Verif.Spec

variable {F Y P G : Type} [Num F]

/-- A node without its loss. -/
def noLoss (n : Node F) : Node F := { n with loss := Num.zero }

/-- Two trees are equal; without aggregation the losses of their nodes, which nothing reads then, may differ. -/
structure SameTree (o o' : TreeObj F P G) : Prop where
  rest : { o with arr := { o.arr with nodes := o'.arr.nodes } } = o'
  nodes : o.arr.nodes.map noLoss = o'.arr.nodes.map noLoss
  unused : ∀ j : Nat, o.arr.nodeCount ≤ j → o.arr.nodes[j]? = o'.arr.nodes[j]?
  agg : o.aggregation = true → o = o'

/-- Two forests with equal parameters and trees that are equal in the sense of `SameTree`. -/
structure SameForest (f f' : ForestObj F P G) : Prop where
  step : f.step = f'.step
  dirichlet : f.dirichlet = f'.dirichlet
  aggregation : f.aggregation = f'.aggregation
  trees : ∃ ts ts', f.trees = some ts ∧ f'.trees = some ts' ∧ List.Forall₂ SameTree ts ts'

/-- Floats that compare equal are equal, apart from zeros of both signs. (A NaN does not compare equal to anything.) -/
def CompareOK (F : Type) [Num F] : Prop := ∀ a b : F, Num.le a Num.zero = false → neF a b = false → a = b

/-- A change of a parameter after `fit`. -/
inductive Change (F : Type) where
  | step (v : F)
  | dirichlet (v : F)

/-- The change passes the checks of the setters. -/
def Change.Valid : Change F → Prop
  | .step v => Num.le v Num.zero = false
  | .dirichlet v => Num.lt v Num.zero = false

/-- Apply a change to a forest. -/
def Change.apply (T : F → Task F Y P G) (f : ForestObj F P G) : Change F → M (ForestObj F P G)
  | .step v => f.setStep v
  | .dirichlet v => f.setDirichlet T v

/-- The value of `step` after a history of changes. -/
def lastStep (v : F) : List (Change F) → F
  | [] => v
  | .step x :: l => lastStep x l
  | .dirichlet _ :: l => lastStep v l

/-- The value of `dirichlet` after a history of changes. -/
def lastDirichlet (v : F) : List (Change F) → F
  | [] => v
  | .step _ :: l => lastDirichlet v l
  | .dirichlet x :: l => lastDirichlet x l

/-- A call on a forest. -/
inductive Call (F P G : Type) where
  | setStep (v : F)
  | setDirichlet (v : F)
  | setAggregation (b : Bool)
  | fit (run : ForestObj F P G → M (ForestObj F P G))

/-- Run a call. -/
def Call.run (T : F → Task F Y P G) (f : ForestObj F P G) : Call F P G → M (ForestObj F P G)
  | .setStep v => f.setStep v
  | .setDirichlet v => f.setDirichlet T v
  | .setAggregation b => .ok (f.setAggregation b)
  | .fit run => run f

end Verif.Spec
