/-! Specification of rows that end in the same leaves. -/
namespace Verif.Spec

/-- Two results of `apply`, with one line per tree, have the same leaves for row `i` of the first and row `j` of the second. -/
def SameLeaves (A A' : List (List Nat)) (i j : Nat) : Prop :=
  ∀ (t : Nat) (l l' : List Nat), A[t]? = some l → A'[t]? = some l' → ∃ leaf, l[i]? = some leaf ∧ l'[j]? = some leaf

end Verif.Spec
