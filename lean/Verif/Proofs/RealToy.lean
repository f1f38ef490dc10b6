import Mathlib.Data.List.Sort
import Mathlib.Tactic.IntervalCases
import Verif.Proofs.Holds
import Verif.Proofs.RealTree

/-! Trees fitted over the real numbers, used only in the `example`s beside the property theorems. -/
namespace Verif

open Spec

/-- `np.argsort` over the reals. -/
noncomputable def realArgsort (l : List ℝ) : List Nat :=
  (List.range l.length).insertionSort fun a b => l.getD a 0 ≤ l.getD b 0

theorem realArgsort_sorts : ArgsortSorts realArgsort := by
  refine ⟨fun l => List.perm_insertionSort _ _, fun l => ?_⟩
  have : Std.Total fun a b => l.getD a 0 ≤ l.getD b 0 := ⟨fun a b => le_total _ _⟩
  have : IsTrans Nat fun a b => l.getD a 0 ≤ l.getD b 0 := ⟨fun a b c h1 h2 => le_trans h1 h2⟩
  exact List.pairwise_insertionSort _ _

/-- Contents of uninitialised arrays. -/
noncomputable def realGarbage : Garbage ℝ := ⟨fun _ => ⟨none, 0, false, none, 0, 0, 0, 0⟩, fun _ => 77, fun _ => 99⟩

/-- Two columns, numerical and categorical. -/
def realCols : List (List Nat) := [[0, 0, 1, 1, 0, 1], [2, 0, 1, 2, 1, 0]]

/-- Labels: those of a binary classification; used for regression too. -/
noncomputable def realY : List ℝ := [0, 0, 1, 1, 0, 1]

/-- Weights. -/
noncomputable def realW : List ℝ := [1, 2, 1, 3, 1, 1]

/-- Training rows. -/
def realTrain : List Nat := [0, 1, 2, 3]

/-- Validation rows. -/
def realValid : List Nat := [4, 5]

/-- The dataset. -/
noncomputable def realData : Data ℝ := dataOf 6 realCols realY realW

/-- The context. -/
noncomputable def realCtx (fba : FBA) : Ctx ℝ :=
  { fba := fba, y := realY, w := realW, maxFeatures := 2, minSplit := 2, minLeaf := 1, maxDepth := 10
    aggregation := true, step := 1, isCategorical := [false, true] }

theorem real_label : ∀ i ∈ realTrain ++ realValid, i < 6 ∧ ClassLabel 2 (realData.y i) := by
  intro i hi
  simp only [realTrain, realValid, List.cons_append, List.nil_append, List.mem_cons, List.not_mem_nil, or_false] at hi
  rcases hi with rfl | rfl | rfl | rfl | rfl | rfl <;>
    simp [ClassLabel, realData, dataOf, realY, Num.toNat]

theorem real_weight : ∀ i, i < 6 → 0 < realData.w i := by
  intro i hi
  interval_cases i <;> simp [realData, dataOf, realW]

theorem real_input_matrix (lab : ℝ → Prop) (hl : ∀ y, ClassLabel 2 y → lab y) :
    ∃ fba, arrayToBitarray (fun _ => 0) 6 realCols = .ok fba ∧ FitInput (realCtx fba) realData lab realTrain realValid := by
  obtain ⟨fba, h1, h2⟩ := holds_of_matrix (F := ℝ) (fun _ => 0) 6 realCols realY realW (by norm_num) (by decide) (by decide)
    rfl rfl [false, true] rfl
  refine ⟨fba, h1, h2 _ rfl rfl rfl rfl, ⟨⟨by norm_num [realCtx], by simp [realCtx, realData, dataOf, realCols]⟩,
    by norm_num [realCtx]⟩, fun i hi => ?_, fun i hi => ?_, by decide, by decide, by decide⟩
  · have := real_label i (List.mem_append_left _ hi); exact ⟨this.1, hl _ this.2⟩
  · have := real_label i (List.mem_append_right _ hi); exact ⟨this.1, hl _ this.2⟩

theorem real_input (lab : ℝ → Prop) (hl : ∀ y, ClassLabel 2 y → lab y) :
    ∃ fba, FitInput (realCtx fba) realData lab realTrain realValid :=
  let ⟨fba, _, h⟩ := real_input_matrix lab hl
  ⟨fba, h⟩

/-- Dataset of `C50_regression_violated`: one categorical feature with three categories, of mean label 0, 10 and 4, and sum of
labels 0, 10 and 16. -/
noncomputable def sumData : Data ℝ := dataOf 6 [[0, 1, 2, 2, 2, 2]] [0, 10, 4, 4, 4, 4] [1, 1, 1, 1, 1, 1]

/-- See `sumData`. -/
noncomputable def sumCtx (fba : FBA) : Ctx ℝ :=
  { fba := fba, y := [0, 10, 4, 4, 4, 4], w := [1, 1, 1, 1, 1, 1], maxFeatures := 1, minSplit := 2, minLeaf := 1
    maxDepth := 10, aggregation := false, step := 1, isCategorical := [true] }

/-- See `sumData`. -/
def sumTrain : List Nat := [0, 1, 2, 3, 4, 5]

theorem sum_order {o : List Nat} (h : SortedBins sumData 0 sumTrain sumKey o) : o = [0, 1, 2] := by
  have hp : o.Perm [0, 1, 2] := by
    rw [List.perm_ext_iff_of_nodup h.nodup (by decide)]
    intro b
    rw [h.mem]
    simp only [sumTrain, sumData, dataOf]
    constructor
    · rintro ⟨i, hi, rfl⟩
      simp only [List.mem_cons, List.not_mem_nil, or_false] at hi
      rcases hi with rfl | rfl | rfl | rfl | rfl | rfl <;> simp
    · intro hb
      simp only [List.mem_cons, List.not_mem_nil, or_false] at hb
      rcases hb with rfl | rfl | rfl
      · exact ⟨0, by simp, by simp⟩
      · exact ⟨1, by simp, by simp⟩
      · exact ⟨2, by simp, by simp⟩
  have k0 : sumKey sumData (inBin sumData 0 0 sumTrain) = 0 := by
    rw [show inBin sumData 0 0 sumTrain = [0] by decide]; simp [sumKey, sumData, dataOf]
  have k1 : sumKey sumData (inBin sumData 0 1 sumTrain) = 10 := by
    rw [show inBin sumData 0 1 sumTrain = [1] by decide]; simp [sumKey, sumData, dataOf]
  have k2 : sumKey sumData (inBin sumData 0 2 sumTrain) = 16 := by
    rw [show inBin sumData 0 2 sumTrain = [2, 3, 4, 5] by decide]; simp [sumKey, sumData, dataOf]; norm_num
  have hs := h.sorted
  have hm : o ∈ [0, 1, 2].permutations' := List.mem_permutations'.2 hp
  simp [List.permutations'] at hm
  rcases hm with rfl | rfl | rfl | rfl | rfl | rfl
  all_goals first | rfl | (exfalso; simp [k0, k1, k2] at hs; try norm_num at hs)

end Verif
