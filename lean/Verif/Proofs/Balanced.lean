import Verif.Proofs.Labels

/-! Balanced class weights. -/
set_option linter.unusedSectionVars false
namespace Verif

open Spec

section
variable {L V K F Y P G W N : Type} [LinearOrder L] [DecidableEq V] [DecidableEq N] [LinearOrder K] [Field K] [FloorSemiring K] [Num F]

open Py

theorem generateSeeds_unbalanced (w : List F) (lib : Lib V K F G W) :
    Comm (unbalanced w) (generateSeeds (L := L) (P := P) lib) (generateSeeds lib) := by
  unfold generateSeeds
  refine .bindRead fun s => ?_
  refine Comm.bind (r := unbalanced w) (.lift _) (fun rs => ?_) s
  cases rs with
  | some n =>
    refine .bind ?_ fun _ => .ite Iff.rfl ?_ (.pure _)
    · exact .modify fun _ => rfl
    · exact .modify fun _ => rfl
  | none =>
    refine .bind ?_ fun _ => .ite Iff.rfl ?_ (.pure _)
    · exact .modify fun _ => rfl
    · exact .modify fun _ => rfl

theorem fitRest_unbalanced (w : List F) (lib : Lib V K F G W) (a : FitArgs N V) (p : FitData F Y P G) :
    Comm (unbalanced w) (fitRest (L := L) lib a p) (fitRest lib a p) := by
  unfold fitRest
  refine .bindRead fun s => ?_
  refine Comm.bind (r := unbalanced w) (.lift _) (fun mf => .bind ?_ fun _ => .bind (generateSeeds_unbalanced w lib) fun _ =>
    .bind (.lift _) fun ic => .bind ?_ fun sub => .bind (.lift _) fun enc => .bind ?_ fun _ => .bind (.lift _) fun fba =>
    .bind ?_ fun _ => .bind ?_ fun seeds => .bind ?_ fun depths => .bind (.lift _) fun trees => ?_) s
  · exact .modify fun _ => rfl
  · intro t; rw [encoderSubset_eq, encoderSubset_eq]; rfl
  · exact .modify fun _ => rfl
  · exact .modify fun _ => rfl
  · exact .read fun _ => rfl
  · intro t; rw [treeDepths_eq, treeDepths_eq]; rfl
  · exact .modify fun _ => rfl

end

section
variable {L V K G W N : Type} [LinearOrder L] [DecidableEq V] [DecidableEq N] [LinearOrder K] [Field K] [FloorSemiring K]

theorem zipWith_balanced (y : List L) (w : List ℝ) :
    List.zipWith Num.mul w (balancedWeights (labelCodes (sortedUnique y) y)) = balancedOf y w := by
  rw [balancedWeights_labels, List.zipWith_map_right, List.zipWith_comm]
  rfl

theorem balancedOf_length {y : List L} {w : List ℝ} (h : w.length = y.length) : (balancedOf y w).length = y.length := by
  unfold balancedOf; simp [h]

theorem weightOfClass_map (y : List L) (g : L → ℝ) (l : L) : weightOfClass y (y.map g) l = y.count l * g l := by
  unfold weightOfClass
  have : ∀ y : List L, (((y.zip (y.map g)).filter fun p => decide (p.1 = l)).map Prod.snd).sum = y.count l * g l := by
    intro y
    induction y with
    | nil => simp
    | cons a y ih =>
      rw [List.map_cons, List.zip_cons_cons, List.filter_cons, List.count_cons]
      by_cases h : a = l
      · subst h; simp [ih]; ring
      · simp [h, ih]
  exact this y

end

end Verif
