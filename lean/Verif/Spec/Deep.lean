import Verif.Spec.Tree
import Verif.Model.Forest

/-! Trees that stay below a limit of the depth. -/
namespace Verif.Spec

variable {F P G : Type}

/-- No node of the trees is as deep as the limit (`none`: there is no limit). -/
def DepthBelow (m : Option Nat) (trees : List (TreeObj F P G)) : Prop :=
  ∀ x, m = some x → ∀ t ∈ trees, ∀ k n, NodeAt t.arr k n → n.depth < x

/-- The trees without their copies of the parameters: all nodes with all their numbers, predictions and categories, the aggregation settings,
the sets of drawn and left-out rows and the state of the random generator stay. -/
def NoContext (trees : List (TreeObj F P G)) : List (TreeObj F P G) := trees.map fun t => { t with ctx := none }

end Verif.Spec
