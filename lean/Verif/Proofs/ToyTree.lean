import Verif.Proofs.Holds
import Verif.Proofs.TreeFacts

/-! A concrete fitted tree, used only in the `example`s beside the property theorems. -/
namespace Verif

open Spec

attribute [local instance] toyNum

/-- Contents of uninitialised arrays. -/
def toyGarbage : Garbage Int := ⟨fun _ => ⟨none, 0, false, none, 0, 0, 0, 0⟩, fun _ => 77, fun _ => 99⟩

/-- A numerical and a categorical column. -/
def toyCols : List (List Nat) := [[0, 0, 0, 0, 1, 1, 1, 1, 0, 0, 1, 1], [2, 0, 1, 0, 2, 1, 0, 1, 2, 1, 0, 2]]

/-- Labels. -/
def toyY : List Int := [0, 50, 0, 50, 1000, 1000, 500, 1000, 0, 0, 500, 1000]

/-- Weights. -/
def toyW : List Int := [1, 1, 1, 1, 1, 1, 1, 1, 1, 1, 1, 1]

/-- Context of the toy tree. -/
def toyCtx (fba : FBA) : Ctx Int :=
  { fba := fba, y := toyY, w := toyW, maxFeatures := 2, minSplit := 2, minLeaf := 1, maxDepth := 10, aggregation := true
    step := 1, isCategorical := [false, true] }

/-- The dataset of the toy tree. -/
def toyData : Data Int := dataOf 12 toyCols toyY toyW

/-- Training and validation rows. -/
def toyTrain : List Nat := [0, 1, 2, 3, 4, 5, 6, 7]

/-- See `toyTrain`. -/
def toyValid : List Nat := [8, 9, 10, 11]

/-- What the example tree looks like: seven nodes, the root has a numerical split, node 1 a categorical one. -/
def toyCheck (t : TreeArr Int Int) : Bool :=
  t.nodeCount == 7 && (match t.nodes[0]?, t.nodes[1]?, t.nodes[4]? with
    | some n, some m, some l => !n.isLeaf && !n.isCat && n.left == some 4 && n.right == some 1 && n.nTrain == 8 &&
      n.feature == some 0 && m.parent == some 0 && !m.isLeaf && m.isCat && m.left == some 3 && m.feature == some 1 && !l.isLeaf
    | _, _, _ => false)

theorem toy_run : (do
    let fba ← arrayToBitarray (fun _ => 0) 12 toyCols
    let (t, _) ← fitTree toyRng (regressorTask toyArgsort) (toyCtx fba) toyGarbage 3 toyTrain toyValid
    return toyCheck t : M Bool) = .ok true := by decide +kernel

/-- A fitted tree that meets the hypotheses of the theorems about fitted trees. -/
theorem toy_fit : ∃ (c : Ctx Int) (arr : TreeArr Int Int) (w : Work Nat),
    ValidTask (G := Nat) (regressorTask toyArgsort) (fun _ : Int => True) ∧
    FitInput c toyData (fun _ => True) toyTrain toyValid ∧
    fitTree toyRng (regressorTask toyArgsort) c toyGarbage 3 toyTrain toyValid = .ok (arr, w) ∧ toyCheck arr = true ∧
    c.aggregation = true ∧ c.minLeaf = 1 ∧ c.minSplit = 2 := by
  obtain ⟨fba, h1, h2⟩ := holds_of_matrix (F := Int) (fun _ => 0) 12 toyCols toyY toyW (by norm_num) (by decide) (by decide)
    rfl rfl [false, true] rfl
  have hrun := toy_run
  rw [h1, bind_ok] at hrun
  cases hfit : fitTree toyRng (regressorTask toyArgsort) (toyCtx fba) toyGarbage 3 toyTrain toyValid with
  | error e => rw [hfit] at hrun; exact absurd hrun (by simp)
  | ok r =>
    obtain ⟨arr, w⟩ := r
    rw [hfit] at hrun
    refine ⟨toyCtx fba, arr, w, .regressor toyArgsort_perm, ?_, hfit, by simpa using hrun, rfl, rfl, rfl⟩
    exact ⟨h2 _ rfl rfl rfl rfl, ⟨⟨by norm_num [toyCtx], by simp [toyCtx, toyData, dataOf, toyCols]⟩, by norm_num [toyCtx]⟩, by simp only [and_true]; decide, by simp only [and_true]; decide,
      by decide, by decide, by decide⟩

/-- What the hypotheses of the theorems about fitted trees ask for, on the example: the tree, its root `n`, the categorical
split node `m` at index 1, and the left child `l` of the root at index 4. -/
theorem toy_tree : ∃ (c : Ctx Int) (D : Data Int) (arr : TreeArr Int Int) (w : Work Nat) (n m l : Node Int),
    (ValidTask (G := Nat) (regressorTask toyArgsort) (fun _ : Int => True) ∧
      FitInput c D (fun _ => True) toyTrain toyValid ∧
      fitTree toyRng (regressorTask toyArgsort) c toyGarbage 3 toyTrain toyValid = .ok (arr, w)) ∧
    (NodeAt arr 0 n ∧ n.isLeaf = false ∧ n.left = some 4) ∧
    (NodeAt arr 1 m ∧ m.isLeaf = false ∧ m.isCat = true ∧ m.parent = some 0) ∧
    (NodeAt arr 4 l ∧ l.isLeaf = false) ∧ 9 < D.n := by
  obtain ⟨c, arr, w, h1, h2, h3, h4, _⟩ := toy_fit
  unfold toyCheck at h4
  simp only [Bool.and_eq_true, beq_iff_eq] at h4
  obtain ⟨h5, h6⟩ := h4
  split at h6
  · rename_i n m l e1 e2 e3
    simp only [Bool.and_eq_true, Bool.not_eq_true', beq_iff_eq] at h6
    exact ⟨c, toyData, arr, w, n, m, l, ⟨h1, h2, h3⟩, ⟨⟨by omega, e1⟩, by tauto, by tauto⟩,
      ⟨⟨by omega, e2⟩, by tauto, by tauto, by tauto⟩, ⟨⟨by omega, e3⟩, by tauto⟩, by decide⟩
  · exact absurd h6 (by simp)

end Verif
