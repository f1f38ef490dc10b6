import Verif.Proofs.RangeF32
import Verif.Props.Float32Fit

/-! # C116: the range of the predictions of regressors in single precision -/
set_option linter.unusedSectionVars false
namespace Verif

open Spec

section
variable {L V K G W N : Type} [LinearOrder L] [DecidableEq V] [DecidableEq N] [LinearOrder K] [Field K] [IsStrictOrderedRing K] [FloorSemiring K]

/-- **C116**, partial: in float32 arithmetic the predictions of a regressor without aggregation lie between any two bounds `lo * 2 ^ e` and `hi * 2 ^ e` of the
training labels that have few digits: the number of rows times the largest weight, and the number of trees, times `lo` and `hi` are at most 2^24. The labels are
arbitrary numbers between the bounds, the weights are positive integers. Missing: bounds with more digits, see `C116_violated`, and aggregation. -/
theorem C116_partial {lib : Lib V K F32 G W} {a : FitArgs N V} {y : List F32} {s : World L V K F32 F32 G W} {lo hi e : ℤ} {wmax : Nat}
    (hlib : LibOK lib a.nRows) (hp : ParamsValid s.self (nCols a.X)) (hd : DataValid lib.conv a s y.length) (ho : s.self.ovr = false)
    (hagg : s.self.aggregation = false) (hw : ∀ v ∈ s.weights, ∃ z : Nat, v.1 = z ∧ 1 ≤ z ∧ z ≤ wmax) (hmax : 1 ≤ wmax)
    (hy : ∀ v ∈ y, (lo : ℚ) * 2 ^ e ≤ v.1 ∧ v.1 ≤ hi * 2 ^ e) (he : -149 ≤ e)
    (hR : ((a.nRows * wmax : Nat) : ℤ) * max 1 (max |lo| |hi|) ≤ 2 ^ 24) (hE : (s.self.nEstimators : ℤ) * max 1 (max |lo| |hi|) ≤ 2 ^ 24) :
    ∃ s', fitRegressor lib a y s = (.ok (), s') ∧ AcceptedBy lib s'.self a.X ∧
      ∀ (N' : Type) [DecidableEq N'] (n : Nat) (X : Dataset N' V), 0 < n → GoodInput n X → AcceptedBy lib s'.self X →
        ∃ out, s'.self.predictReg lib n X = .ok out ∧ out.length = n ∧ ∀ v ∈ out, (lo : ℚ) * 2 ^ e ≤ v.1 ∧ v.1 ≤ hi * 2 ^ e := by
  obtain ⟨e0, o, he0, hfit, hfacts⟩ := fitRegressor_ok hlib hp hd
  subst he0
  have hnt : o.est.trees.length = s.self.nEstimators := by
    have := hfacts.nTrees
    rwa [show (withCategorical a.categorical s.self).ovr = s.self.ovr from rfl, ho, if_neg (by simp)] at this
  obtain ⟨cfg, enc, henc, -, -, -, -, -, hA⟩ := hfacts.encoder
  refine ⟨_, hfit, ⟨cfg, enc, henc, hA⟩, fun N' _ n X hn hX hA => ?_⟩
  obtain ⟨cfg', enc', he', hA'⟩ := hA
  obtain ⟨fba, hb, hrows, hx⟩ := hfacts.encode hn hX (fun c e h => by
    have := h.symm.trans he'
    injection this with this
    obtain ⟨rfl, rfl⟩ := Prod.mk.inj this
    exact hA')
  have hw' : ∀ v ∈ weightsOf a s, ∃ z : Nat, v.1 = z ∧ 1 ≤ z ∧ z ≤ wmax := by
    unfold weightsOf
    cases a.weights with
    | none =>
      intro v hv
      rw [List.eq_of_mem_replicate hv]
      exact ⟨1, by rw [Nat.cast_one]; exact F32.one_val, le_rfl, hmax⟩
    | some _ => exact hw
  have hm : ∀ {A : ℤ}, 0 ≤ A → A * max 1 (max |lo| |hi|) ≤ 2 ^ 24 → A * |lo| ≤ 2 ^ 24 ∧ A * |hi| ≤ 2 ^ 24 ∧ A ≤ 2 ^ 24 := fun h0 h => by
    refine ⟨le_trans (mul_le_mul_of_nonneg_left ?_ h0) h, le_trans (mul_le_mul_of_nonneg_left ?_ h0) h, le_trans (le_mul_of_one_le_right h0 (le_max_left _ _)) h⟩
    · exact (le_max_left _ _).trans (le_max_right _ _)
    · exact (le_max_right _ _).trans (le_max_right _ _)
  obtain ⟨r1, r2, r3⟩ := hm (by positivity) hR
  obtain ⟨t1, t2, t3⟩ := hm (by positivity) hE
  unfold Est.predictReg
  simp only
  rw [hb, bind_ok, ← hrows]
  have h1 := hp.estimators
  rw [← hnt] at t1 t2 t3
  refine coarse_of_rows (fun h0 => ?_) he t1 t2 (by exact_mod_cast t3)
    (hfacts.coarse hlib hagg hw' hy le_rfl r1 r2 (by exact_mod_cast r3) he hx)
  rw [h0] at hnt
  simp at hnt
  omega

end

/-! ### Violation -/

section

/-- External code; the bootstrap draws row 0 twice and leaves out row 6. -/
def sameLib : Lib Nat ℚ F32 Nat Nat := { roundLib with boot := fun _ _ => [0, 0, 1, 2, 3, 4, 5] }

/-- One column of equal words. -/
def sameX : Dataset String Nat := .frame [("b", { kind := .bOSU, cells := List.replicate 7 (some 0) })]

/-- The arguments of `fit`. -/
def sameArgs : FitArgs String Nat := ⟨sameX, 7, none, .none, false, true⟩

/-- The float32 number nearest to 0.1. -/
def tenth : F32 := F32.of (1 / 10)

theorem sameLib_ok : LibOK sameLib 7 where
  seeded s k := by simp [sameLib, roundLib]
  seededGlobal w k := by simp [sameLib, roundLib]
  choice w k hk := by
    refine ⟨by simp [sameLib, roundLib], List.nodup_range, fun x hx => ?_⟩
    have := List.mem_range.1 hx; omega
  boot s := by simp [sameLib]
  returns s := ⟨_, rfl⟩
  argsort l := List.perm_insertionSort _ _

theorem sameWorld_valid : ParamsValid freeWorld.self (nCols sameArgs.X) :=
  ⟨by simp [freeWorld], by simp [freeWorld], rfl, by simp [freeWorld], by simp [freeWorld], ⟨_, rfl⟩, by simp [freeWorld], by simp [freeWorld]⟩

theorem sameData_valid : DataValid sameLib.conv sameArgs freeWorld 7 where
  rows := by simp [sameArgs]
  labels := rfl
  columns := by simp [sameArgs, sameX, nCols]
  weights h := by simp [sameArgs] at h
  good := ⟨by decide, by simp [sameArgs, GoodSeries]⟩
  small := by simp [sameArgs, sameX, SmallDtypes]
  fittable := ⟨none, rfl, by
    intro p hp
    simp at hp
    rcases hp with rfl
    simp⟩

/-- The fit with the given exp and log. -/
def sameFit (exp log : F32 → F32) (y : List F32) : M Unit × World Nat Nat ℚ F32 F32 Nat Nat :=
  let _ := f32With exp log
  fitRegressor sameLib sameArgs y freeWorld

/-- The predictions for the training rows. -/
def samePredict (exp log : F32 → F32) (y : List F32) : M (List F32) :=
  let _ := f32With exp log
  (sameFit exp log y).2.self.predictReg sameLib 7 sameX

/-- **C116** is violated for bounds with more digits, on valid parameters and data without weights: all labels are 0.1 and all predictions are larger than 0.1. The
sum of the labels of a node is rounded after each row. -/
theorem C116_violated :
    ∃ s' out, fitRegressor sameLib sameArgs (List.replicate 7 tenth) freeWorld = (.ok (), s') ∧ s'.self.predictReg sameLib 7 sameX = .ok out ∧
      out.map (·.1) = List.replicate 7 (6710887 / 67108864) ∧ ∀ v ∈ out, tenth < v := by
  have h0 : (fitRegressor sameLib sameArgs (List.replicate 7 tenth) freeWorld).1 = .ok () := by
    change (sameFit f32Exp f32Log _).1 = _
    rw [← tableExp_eq, ← tableLog_eq]
    decide +kernel
  have h : samePredict f32Exp f32Log (List.replicate 7 tenth) = .ok (List.replicate 7 (F32.of (6710887 / 67108864))) := by
    rw [← tableExp_eq, ← tableLog_eq]
    decide +kernel
  have hv0 : (F32.of (6710887 / 67108864)).1 = 6710887 / 67108864 := by decide +kernel
  generalize hy : List.replicate 7 tenth = y at h0 h ⊢
  refine ⟨(fitRegressor sameLib sameArgs y freeWorld).2, _, Prod.ext h0 rfl, h, by rw [List.map_replicate, hv0], fun v hv => ?_⟩
  rw [List.eq_of_mem_replicate hv]
  change tenth.1 < (F32.of (6710887 / 67108864)).1
  decide +kernel

/-- `C116_partial` for labels that are all 1/8: all predictions are 1/8. -/
example : ∃ s' out, fitRegressor sameLib sameArgs (List.replicate 7 (F32.of (1 / 8))) freeWorld = (.ok (), s') ∧
    s'.self.predictReg sameLib 7 sameX = .ok out ∧ ∀ v ∈ out, v.1 = 1 / 8 := by
  obtain ⟨s', h1, h2, h3⟩ := C116_partial (y := List.replicate 7 (F32.of (1 / 8))) (lo := 1) (hi := 1) (e := -3) (wmax := 1) sameLib_ok sameWorld_valid sameData_valid
    rfl rfl (fun v hv => by cases hv) le_rfl (fun v hv => by
      rw [List.eq_of_mem_replicate hv]
      constructor <;> decide +kernel) (by norm_num) (by norm_num [sameArgs]) (by norm_num [freeWorld])
  obtain ⟨out, o1, -, o3⟩ := h3 String 7 sameX (by norm_num) sameData_valid.good h2
  refine ⟨s', out, h1, o1, fun v hv => ?_⟩
  obtain ⟨a, b⟩ := o3 v hv
  norm_num at a b
  linarith

end

end Verif
