import Verif.Proofs.Float32Tree
import Verif.Props.Rounding

/-! # C93: trees without limits in single precision -/
set_option linter.unusedSectionVars false
namespace Verif

open Spec

section
variable {L V K G W N : Type} [LinearOrder L] [DecidableEq V] [DecidableEq N] [LinearOrder K] [Field K] [IsStrictOrderedRing K] [FloorSemiring K]

/-- **C93**, partial: in float32 arithmetic every tree of a regressor without limits predicts for each of its drawn rows exactly the label, if the bins
determine the label; for integer labels and weights that are not too large. Missing: larger labels, see `C93_regressor_violated`. -/
theorem C93_regressor_partial {lib : Lib V K F32 G W} {a : FitArgs N V} {y : List F32} {s : World L V K F32 F32 G W} {B wmax : Nat}
    (hlib : LibOK lib a.nRows) (hp : ParamsValid s.self (nCols a.X)) (hd : DataValid lib.conv a s y.length) (ho : s.self.ovr = false)
    (hno : NoLimits s.self a) (hy : ∀ v ∈ y, ∃ z : ℤ, v.1 = z ∧ |z| ≤ B) (hw : ∀ v ∈ s.weights, ∃ z : Nat, v.1 = z ∧ 1 ≤ z ∧ z ≤ wmax)
    (hB : 1 ≤ B) (hmax : 1 ≤ wmax) (hb : a.nRows * wmax * (B * B) ≤ 2 ^ 20) :
    ∃ s' train, ∃ draws : Nat → List Nat, ∃ v : Nat → Nat → F32, fitRegressor lib a y s = (.ok (), s') ∧ s'.self.encode lib a.nRows a.X = .ok train ∧
      (∀ t < s.self.nEstimators, ∃ seed, s'.self.seeds[t]? = some seed ∧ BootstrapOf (lib.boot a.nRows) a.nRows seed (draws t)) ∧
      (∀ t < s.self.nEstimators, ∃ o, s'.self.trees[t]? = some o ∧ o.predict mixF train = .ok ((List.range a.nRows).map (v t))) ∧
      ∀ t < s.self.nEstimators, ∀ i < a.nRows, i ∈ draws t → Consistent (nCols a.X) (binsOf train) (fun i => y[i]?) (draws t) i → some (v t i) = y[i]? := by
  obtain ⟨e0, o, he0, hfit, hfacts⟩ := fitRegressor_ok hlib hp hd
  subst he0
  have hnt : o.est.trees.length = s.self.nEstimators := by
    have := hfacts.nTrees
    rwa [show (withCategorical a.categorical s.self).ovr = s.self.ovr from rfl, ho, if_neg (by simp)] at this
  obtain ⟨train, h1, h2, h3, h4, h5⟩ := FitFacts.free (e := withCategorical a.categorical s.self) (e1 := s.self) hlib hd.rows hd.good hd.columns hp hno rfl rfl rfl rfl rfl o hfacts
  have hw' : ∀ v ∈ weightsOf a s, ∃ z : Nat, v.1 = z ∧ 1 ≤ z ∧ z ≤ wmax := by
    unfold weightsOf
    cases a.weights with
    | none =>
      intro v hv
      rw [List.eq_of_mem_replicate hv]
      exact ⟨1, by rw [Nat.cast_one]; exact F32.one_val, le_rfl, hmax⟩
    | some _ => exact hw
  have key : ∀ t, ∃ (draws : List Nat) (v : Nat → F32), t < s.self.nEstimators →
      (∃ seed, o.est.seeds[t]? = some seed ∧ BootstrapOf (lib.boot a.nRows) a.nRows seed draws) ∧
      (∃ ob, o.est.trees[t]? = some ob ∧ ob.predict mixF train = .ok ((List.range a.nRows).map v)) ∧
      ∀ i < a.nRows, i ∈ draws → Consistent (nCols a.X) (binsOf train) (fun i => y[i]?) draws i → some (v i) = y[i]? := by
    intro t
    by_cases ht : t < s.self.nEstimators
    · obtain ⟨seed, yy, w, draws, c, g1, g2, g3, g4, g5, hT⟩ := h5 t _ (List.getElem?_eq_getElem (by rw [hnt]; exact ht))
      obtain rfl := List.mem_singleton.1 (List.mem_of_getElem? g2)
      obtain rfl := List.mem_singleton.1 (List.mem_of_getElem? g3)
      obtain ⟨v, v1, v2⟩ := FreeTree.reg_values hT hlib h2 h3 h4 g5 g4 hy hw' hB hb
      exact ⟨draws, v, fun _ => ⟨⟨seed, g1, hT.boot⟩, ⟨_, List.getElem?_eq_getElem (by rw [hnt]; exact ht), v1⟩, v2⟩⟩
    · exact ⟨[], fun _ => Num.zero, fun h => absurd h ht⟩
  choose draws v hkey using key
  exact ⟨_, train, draws, v, hfit, h1, fun t ht => (hkey t ht).1, fun t ht => (hkey t ht).2.1, fun t ht => (hkey t ht).2.2⟩

end

/-! ### Violation -/

section

/-- External code; the bootstrap draws row 0 twice and leaves out row 3. -/
def freeLib : Lib Nat ℚ F32 Nat Nat := { roundLib with boot := fun _ _ => [0, 0, 1, 2] }

/-- A regressor with one tree without limits. -/
def freeWorld : World Nat Nat ℚ F32 F32 Nat Nat :=
  ⟨{ fitted := false, nEstimators := 1, criterion := .gini, step := F32.of 1, dirichlet := F32.of 0, aggregation := false, maxDepth := none, minSplit := 2,
     minLeaf := 1, maxBins := 5, categoricalFeatures := .none, maxFeatures := .none, subsample := none, catMin := .int 4, handleUnknownError := false,
     randomState := some (some 7), balanced := false, ovr := false, strategy := .binary, classes := [], nClasses := 0, nTrees := 0,
     nClassesPerTree := 0, maxFeatures_ := 0, seeds := [], isCategorical_ := [], encoder := none, trees := [], nSamples := 0, nFeatures := 0 }, [], 0⟩

/-- One column of words; the rows 0, 1 and 2 have different words. -/
def freeX : Dataset String Nat := .frame [("b", { kind := .bOSU, cells := [some 0, some 1, some 2, some 0] })]

/-- The arguments of `fit`. -/
def freeArgs : FitArgs String Nat := ⟨freeX, 4, none, .none, false, true⟩

theorem freeLib_ok : LibOK freeLib 4 where
  seeded s k := by simp [freeLib, roundLib]
  seededGlobal w k := by simp [freeLib, roundLib]
  choice w k hk := by
    refine ⟨by simp [freeLib, roundLib], List.nodup_range, fun x hx => ?_⟩
    have := List.mem_range.1 hx; omega
  boot s := by simp [freeLib]
  returns s := ⟨_, rfl⟩
  argsort l := List.perm_insertionSort _ _

theorem freeWorld_valid : ParamsValid freeWorld.self (nCols freeArgs.X) :=
  ⟨by simp [freeWorld], by simp [freeWorld], rfl, by simp [freeWorld], by simp [freeWorld], ⟨_, rfl⟩, by simp [freeWorld], by simp [freeWorld]⟩

theorem freeData_valid : DataValid freeLib.conv freeArgs freeWorld 4 where
  rows := by simp [freeArgs]
  labels := rfl
  columns := by simp [freeArgs, freeX, nCols]
  weights h := by simp [freeArgs] at h
  good := ⟨by decide, by simp [freeArgs, GoodSeries]⟩
  small := by simp [freeArgs, freeX, SmallDtypes]
  fittable := ⟨none, rfl, by
    intro p hp
    simp at hp
    rcases hp with rfl
    simp⟩

theorem freeWorld_noLimits : NoLimits freeWorld.self freeArgs := ⟨rfl, ⟨rfl, rfl⟩, rfl, rfl, rfl⟩

/-- The fit with the given exp and log. -/
def freeFit (exp log : F32 → F32) (y : List F32) : M Unit × World Nat Nat ℚ F32 F32 Nat Nat :=
  let _ := f32With exp log
  fitRegressor freeLib freeArgs y freeWorld

/-- The predictions of the first tree. -/
def freePredict (exp log : F32 → F32) (y : List F32) : M (List F32) :=
  let _ := f32With exp log
  do
    let b ← (freeFit exp log y).2.self.encode freeLib 4 freeX
    let o ← rd (freeFit exp log y).2.self.trees 0
    o.predict mixF b

/-- **C93** is violated for larger labels, on valid parameters and data: a regressor without limits predicts 16384 for the rows with the labels 16383 and
16385, although a split separates them. `y_sq_sum / w_samples` and `(y_sum / w_samples) ** 2` are equal in float32, so the impurity of the node is 0. -/
theorem C93_regressor_violated : NoLimits freeWorld.self freeArgs ∧
    ∃ s', fitRegressor freeLib freeArgs [F32.of 0, F32.of 16383, F32.of 16385, F32.of 0] freeWorld = (.ok (), s') ∧
    ∃ train o p, s'.self.encode freeLib 4 freeX = .ok train ∧ s'.self.trees[0]? = some o ∧ o.predict mixF train = .ok p ∧
      p.map (·.1) = [0, 16384, 16384, 0] ∧ binsOf train 1 0 ≠ binsOf train 2 0 := by
  have h0 : (fitRegressor freeLib freeArgs [F32.of 0, F32.of 16383, F32.of 16385, F32.of 0] freeWorld).1 = .ok () := by
    change (freeFit f32Exp f32Log _).1 = _
    rw [← tableExp_eq, ← tableLog_eq]
    decide +kernel
  refine ⟨freeWorld_noLimits, _, Prod.ext h0 rfl, ?_⟩
  have h : freePredict f32Exp f32Log [F32.of 0, F32.of 16383, F32.of 16385, F32.of 0] = .ok [F32.of 0, F32.of 16384, F32.of 16384, F32.of 0] := by
    rw [← tableExp_eq, ← tableLog_eq]
    decide +kernel
  have hb : ((freeFit f32Exp f32Log [F32.of 0, F32.of 16383, F32.of 16385, F32.of 0]).2.self.encode freeLib 4 freeX).map
      (fun b => decide (binsOf b 1 0 = binsOf b 2 0)) = .ok false := by
    rw [← tableExp_eq, ← tableLog_eq]
    decide +kernel
  unfold freePredict at h
  simp only at h
  rw [bind_eq_ok] at h
  obtain ⟨b, h1, h⟩ := h
  rw [bind_eq_ok] at h
  obtain ⟨o, h2, h⟩ := h
  rw [h1] at hb
  refine ⟨b, o, _, h1, ?_, h, by decide +kernel, ?_⟩
  · exact rd_ok.1 h2
  · simpa [Except.map] using hb

/-- `C93_regressor_partial` for the same data with smaller labels: the predictions for the drawn rows are the labels. -/
example : ∃ s' train o, ∃ v : Nat → F32, fitRegressor freeLib freeArgs [F32.of 0, F32.of 511, F32.of (-511), F32.of 0] freeWorld = (.ok (), s') ∧
    s'.self.encode freeLib 4 freeX = .ok train ∧ s'.self.trees[0]? = some o ∧ o.predict mixF train = .ok ((List.range 4).map v) ∧
    (v 1).1 = 511 := by
  obtain ⟨s', train, draws, v, h1, h2, h3, h4, h5⟩ := C93_regressor_partial (y := [F32.of 0, F32.of 511, F32.of (-511), F32.of 0]) (B := 512) (wmax := 1)
    freeLib_ok freeWorld_valid freeData_valid rfl freeWorld_noLimits (by
      intro v hv
      simp only [List.mem_cons, List.not_mem_nil, or_false] at hv
      rcases hv with rfl | rfl | rfl | rfl
      · exact ⟨0, by decide +kernel, by norm_num⟩
      · exact ⟨511, by decide +kernel, by norm_num⟩
      · exact ⟨-511, by decide +kernel, by norm_num⟩
      · exact ⟨0, by decide +kernel, by norm_num⟩) (fun v hv => by cases hv) (by norm_num) le_rfl (by norm_num [freeArgs])
  obtain ⟨o, h6, h7⟩ := h4 0 (by decide)
  obtain ⟨seed, -, m, hm, -, -⟩ := h3 0 (by decide)
  have hdr : draws 0 = [0, 0, 1, 2] := hm
  have hb : ((freeFit f32Exp f32Log [F32.of 0, F32.of 511, F32.of (-511), F32.of 0]).2.self.encode freeLib 4 freeX).map
      (fun b => decide (binsOf b 1 0 ≠ binsOf b 2 0 ∧ binsOf b 0 0 ≠ binsOf b 1 0)) = .ok true := by
    rw [← tableExp_eq, ← tableLog_eq]
    decide +kernel
  have hs : (freeFit f32Exp f32Log [F32.of 0, F32.of 511, F32.of (-511), F32.of 0]).2 = s' := congrArg Prod.snd h1
  rw [hs, show s'.self.encode freeLib 4 freeX = .ok train from h2] at hb
  obtain ⟨b1, b2⟩ : binsOf train 1 0 ≠ binsOf train 2 0 ∧ binsOf train 0 0 ≠ binsOf train 1 0 := by simpa [Except.map] using hb
  refine ⟨s', train, o, v 0, h1, h2, h6, h7, ?_⟩
  have := h5 0 (by decide) 1 (by decide) (by rw [hdr]; decide) (by
    rw [hdr]
    intro r hr hb
    have := hb 0 (by decide)
    simp only [List.mem_cons, List.not_mem_nil, or_false] at hr
    rcases hr with rfl | rfl | rfl | rfl
    · exact absurd this b2
    · exact absurd this b2
    · rfl
    · exact absurd this.symm b1)
  simp only [List.getElem?_cons_succ, List.getElem?_cons_zero, Option.some.injEq] at this
  rw [this]
  decide +kernel

end

end Verif
