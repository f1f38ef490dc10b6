import Verif.Spec.Gain

/-! Specification of datasets with repeated rows. -/
namespace Verif.Spec

/-- The rows `l'` of the dataset `D'` are copies of the rows `l` of the dataset `D`: row `i'` of `D'` is a copy of row `src i'`
of `D`, with unit weight; the rows `l'` contain, in any order, `m i` copies of each row `i` of `l`; and the weight of row
`i` in `D` is `m i`. -/
structure Repeated (D D' : Data ℝ) (m : Nat → Nat) (src : Nat → Nat) (l l' : List Nat) : Prop where
  perm : (l'.map src).Perm (l.flatMap fun i => List.replicate (m i) i)
  weight : ∀ i ∈ l, D.w i = m i
  unit : ∀ i' ∈ l', D'.w i' = 1
  label : ∀ i' ∈ l', D'.y i' = D.y (src i')
  bins : ∀ i' ∈ l', ∀ j, D'.X i' j = D.X (src i') j

end Verif.Spec
