import Verif.Proofs.ZeroWeight
import Verif.Proofs.OutOfBagEst
import Verif.Proofs.EstToy

/-! # C89: the labels of rows with weight zero. Floats are real numbers here. -/
set_option linter.unusedSectionVars false
namespace Verif

open Spec

section
variable {L V K G W N : Type} [LinearOrder L] [DecidableEq V] [DecidableEq N] [LinearOrder K] [Field K] [IsStrictOrderedRing K]
  [FloorSemiring K]

/-- **C89** Regression: fits with labels that only differ in rows of weight zero both succeed, with the same predictions and the same leaves for all
data. -/
theorem C89_regressor {lib : Lib V K ℝ G W} {a : FitArgs N V} {y y' : List ℝ} {s : World L V K ℝ ℝ G W}
    (hlib : LibOK lib a.nRows) (hp : ParamsValid s.self (nCols a.X)) (hd : DataValid lib.conv a s y.length) (ho : s.self.ovr = false)
    (hgiven : a.weights ≠ none) (hy : AgreeWeighted s.weights y y') :
    ∃ t t', fitRegressor lib a y s = (.ok (), t) ∧ fitRegressor lib a y' s = (.ok (), t') ∧
      ∀ n (E : Dataset N V), t'.self.predictReg lib n E = t.self.predictReg lib n E ∧ t'.self.apply lib n E = t.self.apply lib n E := by
  refine reg_zero hlib hp hd ho ?_
  unfold weightsOf
  cases h : a.weights with
  | none => exact absurd h hgiven
  | some b => exact hy

/-- **C89** Classification, multinomial or one-versus-rest, without class weights: fits with labels that only differ in rows of weight zero, and have the
same classes, both succeed, with the same predictions and the same leaves for all data. -/
theorem C89_classifier {lib : Lib V K ℝ G W} {a : FitArgs N V} {y y' : List L} {s : World L V K ℝ (List ℝ) G W}
    (hlib : LibOK lib a.nRows) (hp : ParamsValid s.self (nCols a.X)) (hd : DataValid lib.conv a s y.length) (ht : a.targetsOK = true)
    (hrefit : s.self.ovr = true → s.self.fitted = true → 2 < y.dedup.length)
    (hst : StrategyOK y.dedup.length s.self.strategy) (hagg : s.self.aggregation = true → s.self.dirichlet ≠ 0) (hbal : s.self.balanced = false)
    (hgiven : a.weights ≠ none) (hy : AgreeWeighted s.weights y y') (hcl : ∀ l, l ∈ y' ↔ l ∈ y) :
    ∃ t t', fitClassifier lib a y s = (.ok (), t) ∧ fitClassifier lib a y' s = (.ok (), t') ∧
      ∀ eps n (E : Dataset N V), t'.self.predictProba lib eps n E = t.self.predictProba lib eps n E ∧
        t'.self.predict lib eps n E = t.self.predict lib eps n E ∧ t'.self.apply lib n E = t.self.apply lib n E := by
  rw [← sortedUnique_length] at hst hrefit
  refine class_zero hlib hp hd ht hrefit hagg hst hbal ?_ (sortedUnique_congr hcl)
  unfold weightsOf
  cases h : a.weights with
  | none => exact absurd h hgiven
  | some b => exact hy

end

/-! ### Examples -/

/-- The rows 1 and 4 have weight zero. -/
noncomputable def zeroW : List ℝ := [1, 0, 2, 3, 0, 1]

theorem zeroData_valid {P : Type} (e : Est Nat Nat ℚ ℝ P Nat) : DataValid estLib.conv (estArgs (some true) false) ⟨e, zeroW, 0⟩ 6 :=
  have h := estData_valid (P := P) (ovr := false) (balanced := false) (cf := .none) (np := 0) (some true) false
  ⟨h.1, h.2, h.3, fun _ => by simp [zeroW, estArgs], h.5, h.6, h.7⟩

example : ∃ t t', fitRegressor estLib (estArgs (some true) false) [1, 50, 3, 4, -70, 6] ⟨estToy ℝ false false .none none, zeroW, 0⟩ = (.ok (), t) ∧
    fitRegressor estLib (estArgs (some true) false) [1, 2, 3, 4, 5, 6] ⟨estToy ℝ false false .none none, zeroW, 0⟩ = (.ok (), t') ∧
    t'.self.predictReg estLib 6 estX = t.self.predictReg estLib 6 estX := by
  obtain ⟨t, t', h1, h2, h3⟩ := C89_regressor (lib := estLib) (a := estArgs (some true) false) (y := [1, 50, 3, 4, -70, 6]) (y' := [1, 2, 3, 4, 5, 6])
    (s := ⟨estToy ℝ false false .none none, zeroW, 0⟩) (estLib_ok (n := 6) (by norm_num)) (estToy_valid _) (zeroData_valid _) rfl (by simp [estArgs])
    ⟨rfl, by
      intro i hi
      match i with
      | 0 | 2 | 3 | 5 => rfl
      | 1 => exact absurd rfl (hi 0 rfl)
      | 4 => exact absurd rfl (hi 0 rfl)
      | i + 6 => rfl⟩
  exact ⟨t, t', h1, h2, (h3 6 estX).1⟩

example : ∃ t t', fitClassifier estLib (estArgs (some true) false) [3, 8, 5, 8, 3, 3] ⟨estToy _ true false .none none, zeroW, 0⟩ = (.ok (), t) ∧
    fitClassifier estLib (estArgs (some true) false) [3, 5, 5, 8, 8, 3] ⟨estToy _ true false .none none, zeroW, 0⟩ = (.ok (), t') ∧
    t'.self.predictProba estLib 0 6 estX = t.self.predictProba estLib 0 6 estX := by
  obtain ⟨t, t', h1, h2, h3⟩ := C89_classifier (lib := estLib) (a := estArgs (some true) false) (y := [3, 8, 5, 8, 3, 3]) (y' := [3, 5, 5, 8, 8, 3])
    (s := ⟨estToy _ true false .none none, zeroW, 0⟩) (estLib_ok (n := 6) (by norm_num)) (estToy_valid _) (zeroData_valid _) rfl (fun _ h => by cases h)
    est_strategy (fun _ => by norm_num [estToy]) rfl (by simp [estArgs])
    ⟨rfl, by
      intro i hi
      match i with
      | 0 | 2 | 3 | 5 => rfl
      | 1 => exact absurd rfl (hi 0 rfl)
      | 4 => exact absurd rfl (hi 0 rfl)
      | i + 6 => rfl⟩
    (by simp; tauto)
  exact ⟨t, t', h1, h2, (h3 0 6 estX).1⟩

end Verif
