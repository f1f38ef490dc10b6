import Verif.Model.Estimator
import Verif.Spec.Real

/-! Specification of the renaming of labels and of balanced class weights. -/
namespace Verif.Spec

section
variable {L L' V K F P G W N : Type}

/-- The same estimator with other names for the classes. -/
def renameEst (f : L → L') (e : Est L V K F P G) : Est L' V K F P G := { e with classes := e.classes.map f }

/-- The same state with other names for the classes. -/
def renameWorld (f : L → L') (s : World L V K F P G W) : World L' V K F P G W := { s with self := renameEst f s.self }

/-- The weights that the caller asks for: the array, or ones. -/
noncomputable def givenWeights (a : FitArgs N V) (s : World L V K ℝ P G W) : List ℝ :=
  match a.weights with
  | none => List.replicate a.nRows 1
  | some _ => s.weights

/-- Each weight multiplied by the number of rows, divided by the number of classes and by the number of rows of its class. -/
noncomputable def balancedOf [DecidableEq L] (y : List L) (w : List ℝ) : List ℝ :=
  List.zipWith (fun l x => x * ((y.length : ℝ) / (y.dedup.length * y.count l))) y w

/-- Total weight of a class. -/
noncomputable def weightOfClass [DecidableEq L] (y : List L) (w : List ℝ) (l : L) : ℝ :=
  (((y.zip w).filter fun p => decide (p.1 = l)).map Prod.snd).sum

/-- Without class weights, with the given weights instead. -/
def unbalanced (w : List F) (s : World L V K F P G W) : World L V K F P G W :=
  { s with self := { s.self with balanced := false }, weights := w }

end

end Verif.Spec
