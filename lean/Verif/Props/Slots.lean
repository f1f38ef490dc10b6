import Verif.Proofs.Slots
import Verif.Proofs.Estimator

/-! Threads that store the results of the trees (C107). -/
set_option linter.unusedSectionVars false
namespace Verif

open Spec

/-- **C107** Whatever the interleaving of the threads, the order in which they take the tasks, the results of the trees and the old contents of the array:
at any time the rows of the trees whose tasks have ended are the results of these trees, the rows of the tasks that have not begun to store are
untouched, and so is every element that is not part of a result; at most one thread stores at a time. -/
theorem C107_rows {α : Type} {workers trees n : Nat} {vals : Nat → List (Slot × α)} {ini : Nat → Slot → α} {s : Slots α}
    (hd : ∀ i, ((vals i).map Prod.fst).Nodup) (r : SRun workers trees vals (Slots.init ini) n s) :
    (∀ i, s.phase i = .done → ∀ c v, (c, v) ∈ vals i → s.out i c = v) ∧
    (∀ i, s.phase i = .waiting ∨ (∃ w, s.phase i = .ready w) → ∀ c, s.out i c = ini i c) ∧
    (∀ i c, (∀ v, (c, v) ∉ vals i) → s.out i c = ini i c) ∧
    ∀ i i' w w' j j', s.phase i = .storing w j → s.phase i' = .storing w' j' → i = i' := by
  have h := SInv.run hd r
  refine ⟨fun i hi c v hv => ?_, h.before, h.other, fun i i' w w' j j' hi hi' => ?_⟩
  · obtain ⟨k, hk⟩ := List.mem_iff_getElem?.1 hv
    exact h.done i hi k c v hk
  · have h1 := (h.lock i).2 ⟨_, _, hi⟩
    have h2 := (h.lock i').2 ⟨_, _, hi'⟩
    rw [h1] at h2
    exact Option.some.inj h2

/-- **C107** Every run ends: with at least one thread some thread can go on as long as a task has not ended, and no run has more than three steps per tree
plus one per element. -/
theorem C107_terminates {α : Type} {workers trees n : Nat} {vals : Nat → List (Slot × α)} {ini : Nat → Slot → α} {s : Slots α} (hw : 0 < workers)
    (hd : ∀ i, ((vals i).map Prod.fst).Nodup) (r : SRun workers trees vals (Slots.init ini) n s) :
    n ≤ ∑ i ∈ Finset.range trees, ((vals i).length + 3) ∧
    ((∀ s', ¬SStep workers trees vals s s') ↔ AllDone trees s) := by
  refine ⟨by have := r.left hd; omega, fun h => ?_, fun h s' st => ?_⟩
  · by_contra hn
    obtain ⟨s', hs⟩ := (SInv.run hd r).progress hw hn
    exact h s' hs
  · have inv := SInv.run hd r
    cases st with
    | start _ hi hp _ => rw [h _ hi] at hp; cases hp
    | acquire hp _ => rw [h _ (inv.range _ (by rw [hp]; simp))] at hp; cases hp
    | store hp _ => rw [h _ (inv.range _ (by rw [hp]; simp))] at hp; cases hp
    | release hp _ => rw [h _ (inv.range _ (by rw [hp]; simp))] at hp; cases hp

section
variable {L V K F P G W N : Type} [LinearOrder L] [DecidableEq V] [DecidableEq N] [LinearOrder K] [Field K] [FloorSemiring K] [Num F]

/-- **C107** `apply`, `predict_proba_trees` and the weighted depths do not depend on the scheduling: when no thread can go on, the array has the rows that
the trees give one after the other. -/
theorem C107_deterministic (lib : Lib V K F G W) (n : Nat) (X : Dataset N V) {workers steps : Nat} (hw : 0 < workers) :
    (∀ (e : Est L V K F P G) rows ini s, e.apply lib n X = .ok rows →
      SRun workers e.trees.length (resultsOf vecSlots rows) (Slots.init ini) steps s → (∀ s', ¬SStep workers e.trees.length (resultsOf vecSlots rows) s s') →
      HoldsVecs s.out rows) ∧
    (∀ (e : Est L V K F F G) rows ini s, e.weightedDepth lib n X = .ok rows →
      SRun workers e.trees.length (resultsOf vecSlots rows) (Slots.init ini) steps s → (∀ s', ¬SStep workers e.trees.length (resultsOf vecSlots rows) s s') →
      HoldsVecs s.out rows) ∧
    (∀ (e : Est L V K F (List F) G) ms ini s, e.predictProbaTrees lib n X = .ok ms →
      SRun workers e.trees.length (resultsOf matSlots ms) (Slots.init ini) steps s → (∀ s', ¬SStep workers e.trees.length (resultsOf matSlots ms) s s') →
      HoldsMats s.out ms) := by
  have vec : ∀ {α : Type} {k : Nat} {rows : List (List α)} {ini : Nat → Slot → α} {s}, rows.length = k → SRun workers k (resultsOf vecSlots rows) (Slots.init ini) steps s →
      (∀ s', ¬SStep workers k (resultsOf vecSlots rows) s s') → HoldsVecs s.out rows := by
    intro α k rows ini s hl r hs i j v hv
    have hd := resultsOf_nodup (fun b : List α => vecSlots_nodup b) rows
    have hall := (C107_terminates hw hd r).2.1 hs
    cases hr : rows[i]? with
    | none => rw [hr] at hv; cases hv
    | some row =>
      rw [hr] at hv
      have hi : i < k := by
        by_contra hn; rw [List.getElem?_eq_none (by omega)] at hr; cases hr
      refine (C107_rows hd r).1 i (hall i hi) (j, 0) v ?_
      unfold resultsOf
      rw [hr]
      refine List.mem_of_getElem? (i := j) ?_
      show (vecSlots row)[j]? = _
      rw [vecSlots_getElem?, show row[j]? = some v from hv]
      rfl
  refine ⟨fun e rows ini s h r hs => ?_, fun e rows ini s h r hs => ?_, fun e ms ini s h r hs => ?_⟩
  · unfold Est.apply at h
    rw [bind_eq_ok] at h
    obtain ⟨fba, -, h⟩ := h
    exact vec (mapM_eq_ok.1 h).length_eq.symm r hs
  · unfold Est.weightedDepth at h
    rw [bind_eq_ok] at h
    obtain ⟨fba, -, h⟩ := h
    exact vec (mapM_eq_ok.1 h).length_eq.symm r hs
  · unfold Est.predictProbaTrees at h
    rw [bind_eq_ok] at h
    obtain ⟨_, -, h⟩ := h
    rw [bind_eq_ok] at h
    obtain ⟨fba, -, h⟩ := h
    have hl := (mapM_eq_ok.1 h).length_eq
    intro i j k v hv
    have hd := resultsOf_nodup (fun b : List (List F) => matSlots_nodup b) ms
    have hall := (C107_terminates hw hd r).2.1 hs
    cases hr : ms[i]? with
    | none => rw [hr] at hv; cases hv
    | some m =>
      rw [hr] at hv
      have hi : i < e.trees.length := by
        by_contra hn; rw [List.getElem?_eq_none (by omega)] at hr; cases hr
      refine (C107_rows hd r).1 i (hall i hi) (j, k) v ?_
      unfold resultsOf
      rw [hr]
      exact mem_matSlots.2 hv

end

/-- `C107`: two threads and two trees; thread 1 takes the second tree first and gets the lock first, the array held other numbers before. -/
example : ∃ s : Slots Nat, SRun 2 2 (resultsOf vecSlots [[3, 4], [5, 6]]) (Slots.init fun _ _ => 77) 10 s ∧ HoldsVecs s.out [[3, 4], [5, 6]] ∧ s.out 0 (2, 0) = 77 := by
  refine ⟨_, .cons (.cons (.cons (.cons (.cons (.cons (.cons (.cons (.cons (.cons .nil
    (.start (w := 1) (i := 1) (by omega) (by omega) rfl ?_)) (.start (w := 0) (i := 0) (by omega) (by omega) rfl ?_))
    (.acquire (w := 1) (i := 1) rfl rfl)) (.store (w := 1) (i := 1) rfl rfl)) (.store (w := 1) (i := 1) rfl rfl)) (.release (w := 1) (i := 1) rfl (by decide)))
    (.acquire (w := 0) (i := 0) rfl rfl)) (.store (w := 0) (i := 0) rfl rfl)) (.store (w := 0) (i := 0) rfl rfl)) (.release (w := 0) (i := 0) rfl (by decide)), ?_, rfl⟩
  · intro k; simp [Slots.init, Phase.thread]
  · intro k
    simp only [Slots.init, to_phase]
    split <;> simp [Phase.thread]
  · intro i j v h
    match i, j with
    | 0, 0 => cases h; rfl
    | 0, 1 => cases h; rfl
    | 1, 0 => cases h; rfl
    | 1, 1 => cases h; rfl
    | 0, j + 2 => simp at h
    | 1, j + 2 => simp at h
    | i + 2, j => simp at h

end Verif
