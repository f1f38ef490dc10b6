import Verif.Spec.Node

/-! Assumptions on the two tasks. -/
namespace Verif.Spec

/-- Contract of `np.argsort`: it returns a permutation of the indices. -/
def ArgsortPerm {F : Type} (argsort : List F → List Nat) : Prop := ∀ l, (argsort l).Perm (List.range l.length)

/-- Numbers of classes for which a strategy reads existing columns. -/
def StrategyOK (nClasses : Nat) : CatStrategy → Prop
  | .all => True
  | .random => 1 ≤ nClasses
  | .binary => 2 ≤ nClasses

/-- The label is one of the classes. -/
def ClassLabel {F : Type} [Num F] (nClasses : Nat) (l : F) : Prop := Num.toNat l < nClasses

end Verif.Spec
