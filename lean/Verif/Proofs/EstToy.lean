import Verif.Proofs.EstClass
import Verif.Props.Encoder

/-! A concrete estimator with data, for the examples. -/
namespace Verif

open Spec

/-- External code. -/
noncomputable def estLib : Lib Nat ℚ ℝ Nat Nat where
  seeded s k := (List.range k).map (· + s)
  seededGlobal w k := ((List.range k).map (· + w), w + 1)
  choice w n k := if w = 0 then (List.range k, 1) else ((List.range k).map (n - 1 - ·), w + 1)
  depth w := (w + 3, w + 1)
  boot n s := if n = 6 then realDraw s else List.replicate n 0
  frames := 1
  flog n := Nat.log 3 n
  fsqrt n := Nat.sqrt n
  cap := 1000
  words _ := 0
  garbage _ := realGarbage
  rng := toyRng
  argsort := realArgsort
  conv := exConv

theorem estLib_ok {n : Nat} (hn : 2 ≤ n) : LibOK estLib n where
  seeded s k := by simp [estLib]
  seededGlobal w k := by simp [estLib]
  choice w k hk := by
    unfold IsSample
    simp only [estLib]
    split
    · refine ⟨by simp, List.nodup_range, fun x hx => ?_⟩
      have := List.mem_range.1 hx; omega
    · refine ⟨by simp, List.Nodup.map_on ?_ List.nodup_range, fun x hx => ?_⟩
      · intro i hi j hj h
        have := List.mem_range.1 hi
        have := List.mem_range.1 hj
        omega
      · obtain ⟨i, _, rfl⟩ := List.mem_map.1 hx; omega
  boot := by
    simp only [estLib]
    split
    · rename_i h; rw [h]; exact realDraw_ok
    · intro s; simp; omega
  returns s := by
    simp only [estLib]
    split
    · rename_i h; rw [h]; exact realDraw_tv s
    · rw [C15_returns_iff]
      exact ⟨0, by omega, 1, by omega, by simp⟩
  argsort := realArgsort_sorts.1

theorem estLib_boot_one : DrawsOK 1 (estLib.boot 1) := by
  intro s; simp [estLib]

/-- An estimator that is not fitted. -/
noncomputable def estToy (P : Type) (ovr balanced : Bool) (cf : CatFeatures) (sub : Option Nat) : Est Nat Nat ℚ ℝ P Nat :=
  { fitted := false, nEstimators := 2, criterion := .gini, step := 1, dirichlet := 1 / 2, aggregation := true, maxDepth := none, minSplit := 2,
    minLeaf := 1, maxBins := 5, categoricalFeatures := cf, maxFeatures := .none, subsample := sub, catMin := .int 4, handleUnknownError := false,
    randomState := some (some 7), balanced := balanced, ovr := ovr, strategy := .all, classes := [], nClasses := 0, nTrees := 0,
    nClassesPerTree := 0, maxFeatures_ := 0, seeds := [], isCategorical_ := [], encoder := none, trees := [], nSamples := 0, nFeatures := 0 }

theorem estToy_valid {P : Type} {ovr balanced : Bool} {cf : CatFeatures} {sub : Option Nat} (d : Nat)
    (hsub : ∀ k, sub = some k → 50000 ≤ k := by simp) : ParamsValid (estToy P ovr balanced cf sub) d :=
  ⟨by simp [estToy], by simp [estToy], rfl, by simp [estToy], by simp [estToy], ⟨_, rfl⟩, hsub, by simp [estToy]⟩

/-- A numerical and a categorical column. -/
def estX : Dataset String Nat :=
  .frame [("a", { kind := .uif, cells := [some 0, some 1, some 2, some 3, some 4, some 5] }),
          ("b", { kind := .bOSU, cells := [some 2, some 0, some 1, some 2, none, some 0] })]

/-- The arguments of `fit`. -/
def estArgs (w : Option Bool) (rd : Bool) : FitArgs String Nat := ⟨estX, 6, w, .none, rd, true⟩

/-- The state before `fit`. -/
noncomputable def estWorld (P : Type) (ovr balanced : Bool) (cf : CatFeatures) (np : Nat) : World Nat Nat ℚ ℝ P Nat Nat :=
  ⟨estToy P ovr balanced cf none, realW, np⟩

theorem estX_good : GoodInput 6 estX := by
  refine ⟨by decide, ?_⟩
  intro p hp
  simp at hp
  rcases hp with rfl | rfl <;> simp [GoodSeries]

theorem estData_valid {P : Type} {ovr balanced : Bool} {cf : CatFeatures} {np : Nat} (w : Option Bool) (r : Bool) :
    DataValid estLib.conv (estArgs w r) (estWorld P ovr balanced cf np) 6 where
  rows := by simp [estArgs]
  labels := rfl
  columns := by simp [estArgs, estX, nCols]
  weights _ := by simp [estWorld, realW, estArgs]
  good := estX_good
  small := by
    intro p hp
    simp at hp
    rcases hp with rfl | rfl <;> simp
  fittable := by
    refine ⟨none, rfl, ?_⟩
    intro p hp
    simp at hp
    rcases hp with rfl | rfl <;> simp [estLib, exConv]

/-- The same in any state, when no weights are given. -/
theorem estData_valid_any {P : Type} (s : World Nat Nat ℚ ℝ P Nat Nat) (r : Bool) : DataValid estLib.conv (estArgs none r) s 6 :=
  have h := estData_valid (P := P) (ovr := false) (balanced := false) (cf := .none) (np := 0) none r
  ⟨h.1, h.2, h.3, fun h => absurd rfl h, h.5, h.6, h.7⟩

/-- One row. -/
def estOne : Dataset String Nat := .frame [("a", { kind := .uif, cells := [some 9] }), ("b", { kind := .bOSU, cells := [some 9] })]

/-- The arguments of `fit` with one row. -/
def estArgsOne : FitArgs String Nat := ⟨estOne, 1, none, .none, false, true⟩

theorem estDataOne_valid {P : Type} (s : World Nat Nat ℚ ℝ P Nat Nat) : DataValid estLib.conv estArgsOne s 1 where
  rows := by simp [estArgsOne]
  labels := rfl
  columns := by simp [estArgsOne, estOne, nCols]
  weights h := absurd rfl h
  good := by
    refine ⟨by decide, ?_⟩
    intro p hp
    simp at hp
    rcases hp with rfl | rfl <;> simp [GoodSeries, estArgsOne]
  small := by
    intro p hp
    simp at hp
    rcases hp with rfl | rfl <;> simp
  fittable := by
    refine ⟨none, rfl, ?_⟩
    intro p hp
    simp at hp
    rcases hp with rfl | rfl <;> simp [estLib, exConv]

/-- One column. -/
def estArgsNarrow : FitArgs String Nat := ⟨.frame [("a", { kind := .uif, cells := [some 9, some 8, some 7] })], 3, none, .none, false, true⟩

theorem realW_pos : ∀ w ∈ realW, 0 < w := by
  intro w hw
  simp only [realW, List.mem_cons, List.not_mem_nil, or_false] at hw
  rcases hw with rfl | rfl | rfl | rfl | rfl | rfl <;> norm_num

theorem est_strategy {n : Nat} : StrategyOK n .all := by unfold StrategyOK; trivial

end Verif
