import Verif.Proofs.Comm
import Verif.Proofs.EstClass
import Verif.Spec.Labels

/-! Renaming the labels. -/
set_option linter.unusedSectionVars false
namespace Verif

open Spec

section
variable {L L' V K F Y P G W N : Type} [LinearOrder L] [LinearOrder L'] [DecidableEq V] [DecidableEq N] [LinearOrder K] [Field K] [FloorSemiring K]
  [Num F] {f : L → L'}

theorem sortedUnique_map (hf : StrictMono f) (y : List L) : sortedUnique (y.map f) = (sortedUnique y).map f := by
  unfold sortedUnique
  rw [List.dedup_map_of_injective hf.injective]
  exact (List.map_insertionSort (r := (· ≤ ·)) (s := (· ≤ ·)) f _ fun a _ b _ => hf.le_iff_le.symm).symm

theorem idxOf_map_inj (hf : Function.Injective f) (l : List L) (a : L) : (l.map f).idxOf (f a) = l.idxOf a := by
  induction l with
  | nil => rfl
  | cons b l ih =>
    rw [List.map_cons, List.idxOf_cons, List.idxOf_cons, ih]
    by_cases h : b = a
    · subst h; simp
    · have : f b ≠ f a := fun h' => h (hf h')
      rw [beq_eq_false_iff_ne.2 h, beq_eq_false_iff_ne.2 this]

theorem labelCodes_map (hf : Function.Injective f) (c y : List L) : labelCodes (c.map f) (y.map f) = labelCodes c y := by
  unfold labelCodes
  rw [List.map_map]
  exact List.map_congr_left fun a _ => idxOf_map_inj hf c a

theorem oneHot_map (hf : Function.Injective f) (c y : List L) (k : Nat) : oneHot (c.map f) (y.map f) k = oneHot c y k := by
  unfold oneHot
  rw [List.map_map]
  exact List.map_congr_left fun a _ => by simp only [Function.comp, idxOf_map_inj hf c a]

open Py

theorem fitChecks_rename (f : L → L') (a : FitArgs N V) (k : Nat) :
    Comm (renameWorld f) (fitChecks (L := L) (K := K) (F := F) (P := P) (G := G) (W := W) a k) (fitChecks a k) := by
  unfold fitChecks
  refine .bind ?_ fun _ => .bind (.raiseIf _ _) fun _ => ?_
  · unfold keepCategorical
    split
    · exact .pure _
    · exact .modify fun _ => rfl
  · split
    · exact .pure _
    · exact .bind (.read fun _ => rfl) fun w => .bind (.raiseIf _ _) fun _ => .pure _

theorem encodeY_rename (hf : StrictMono f) (y : List L) (t : Bool) :
    Comm (renameWorld f) (encodeY (V := V) (K := K) (F := F) (P := P) (G := G) (W := W) y t) (encodeY (y.map f) t) := by
  unfold encodeY
  refine .bind (.read fun _ => rfl) fun ovr => .bind (.raiseIf _ _) fun _ => .bind ?_ fun _ => ?_
  · rw [show (y.map f).isEmpty = y.isEmpty by cases y <;> rfl]
    exact .raiseIf _ _
  · simp only [sortedUnique_map hf, List.length_map, labelCodes_map hf.injective]
    refine .bind (.modify fun _ => rfl) fun _ => ?_
    split
    · split
      · refine .bind ?_ fun _ => .pure _
        unfold setMulticlass
        exact .bind (.read fun _ => rfl) fun b => .bind (.raiseIf _ _) fun _ => .modify fun _ => rfl
      · rw [show List.map (oneHot ((sortedUnique y).map f) (y.map f)) (List.range (sortedUnique y).length) =
            List.map (oneHot (sortedUnique y) y) (List.range (sortedUnique y).length) from
          List.map_congr_left fun k _ => oneHot_map hf.injective _ _ k]
        exact .pure _
    · exact .pure _

theorem prepClassifier_rename (hf : StrictMono f) (lib : Lib V K F G W) (a : FitArgs N V) (y : List L) (sw : List F) :
    Comm (renameWorld f) (prepClassifier lib a y sw) (prepClassifier lib a (y.map f) sw) := by
  unfold prepClassifier
  refine .bind (encodeY_rename hf y _) fun ys => .bindRead fun s => ?_
  refine Comm.bind (r := renameWorld f) (.raiseIf _ _) (fun _ => .bind (.modify fun _ => rfl) fun _ => .bind ?_ fun _ => .pure _) s
  exact .ite Iff.rfl (.modify fun _ => rfl) (.pure _)

theorem generateSeeds_rename (f : L → L') (lib : Lib V K F G W) :
    Comm (renameWorld f) (generateSeeds (L := L) (P := P) lib) (generateSeeds lib) := by
  unfold generateSeeds
  refine .bindRead fun s => ?_
  refine Comm.bind (r := renameWorld f) (.lift _) (fun rs => ?_) s
  cases rs with
  | some n =>
    refine .bind (.modify fun _ => rfl) fun _ => .ite Iff.rfl (.modify fun _ => rfl) (.pure _)
  | none =>
    refine .bind (.modify fun _ => rfl) fun _ => .ite Iff.rfl (.modify fun _ => rfl) (.pure _)

theorem fitRest_rename (f : L → L') (lib : Lib V K F G W) (a : FitArgs N V) (p : FitData F Y P G) :
    Comm (renameWorld f) (fitRest (L := L) lib a p) (fitRest lib a p) := by
  unfold fitRest
  refine .bindRead fun s => ?_
  refine Comm.bind (r := renameWorld f) (.lift _) (fun mf => .bind (.modify fun _ => rfl) fun _ => .bind (generateSeeds_rename f lib) fun _ =>
    .bind (.lift _) fun ic => .bind ?_ fun sub => .bind (.lift _) fun enc => .bind (.modify fun _ => rfl) fun _ => .bind (.lift _) fun fba =>
    .bind (.modify fun _ => rfl) fun _ => .bind (.read fun _ => rfl) fun seeds => .bind ?_ fun depths => .bind (.lift _) fun trees =>
    .modify fun _ => rfl) s
  · intro t; rw [encoderSubset_eq, encoderSubset_eq]; rfl
  · intro t; rw [treeDepths_eq, treeDepths_eq]; rfl

theorem fitClassifier_rename (hf : StrictMono f) (lib : Lib V K F G W) (a : FitArgs N V) (y : List L) :
    Comm (renameWorld f) (fitClassifier lib a y) (fitClassifier lib a (y.map f)) := by
  unfold fitClassifier
  rw [List.length_map]
  exact .bind (fitChecks_rename f a _) fun sw => .bind (prepClassifier_rename hf lib a y sw) fun p => fitRest_rename f lib a p

theorem predictProba_rename (f : L → L') (lib : Lib V K F G W) (eps : F) (e : Est L V K F (List F) G) (n : Nat) (X : Dataset N V) :
    (renameEst f e).predictProba lib eps n X = e.predictProba lib eps n X := rfl

theorem rd_map {α β : Type} (f : α → β) (l : List α) (i : Nat) : rd (l.map f) i = (rd l i).map f := by
  unfold rd
  rw [List.getElem?_map]
  cases l[i]? <;> rfl

theorem predictLabels_map (f : L → L') (c : List L) (p : List (List F)) :
    predictLabels (c.map f) p = (predictLabels c p).map (List.map f) := by
  unfold predictLabels
  induction p with
  | nil => rfl
  | cons row p ih =>
    rw [List.mapM_cons, List.mapM_cons, ih]
    cases argmax row with
    | error e => rfl
    | ok k =>
      rw [bind_ok, bind_ok, rd_map]
      cases rd c k with
      | error e => rfl
      | ok l =>
        cases List.mapM (fun row => do let k ← argmax row; rd c k) p <;> rfl

end

end Verif
