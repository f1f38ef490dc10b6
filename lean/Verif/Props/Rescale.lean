import Verif.Proofs.RescaleEst
import Verif.Proofs.ShiftToy
import Verif.Proofs.EstToy
import Verif.Props.EstimatorRandom

/-! # C66, C67: units of labels and weights. Floats are real numbers here. -/
set_option linter.unusedSectionVars false
namespace Verif

open Spec

section
variable {L V K G W N : Type} [LinearOrder L] [DecidableEq V] [DecidableEq N] [LinearOrder K] [Field K] [IsStrictOrderedRing K]
  [FloorSemiring K]

/-- **C66** Change of unit. A regressor fitted on the labels `α * y` with `step / α ^ 2` predicts `α` times what the regressor fitted on `y` with `step`
predicts, for all data; its trees send all rows to the same leaves. -/
theorem C66_units {lib : Lib V K ℝ G W} {a : FitArgs N V} {y : List ℝ} {s : World L V K ℝ ℝ G W}
    (hlib : LibOK lib a.nRows) (hsort : ArgsortByOrder lib.argsort) (hp : ParamsValid s.self (nCols a.X)) (hd : DataValid lib.conv a s y.length)
    (ho : s.self.ovr = false) (hw : a.weights ≠ none → ∀ w ∈ s.weights, 0 < w) {α : ℝ} (hα : 0 < α) :
    ∃ t t', fitRegressor lib a y s = (.ok (), t) ∧
      fitRegressor lib a (y.map (α * ·)) { s with self := { s.self with step := s.self.step / α ^ 2 } } = (.ok (), t') ∧
      ∀ n (E : Dataset N V), t'.self.predictReg lib n E = (t.self.predictReg lib n E).map (List.map (α * ·)) ∧
        t'.self.apply lib n E = t.self.apply lib n E := by
  obtain ⟨t, t', h1, h2, h3⟩ := reg_rescaled hlib hp hd ho hw 0 one_pos hα (.inr rfl)
  simp only [add_zero, one_mul, rescaled, List.map_id'] at h2 h3
  exact ⟨t, t', h1, h2, h3 (.inr ⟨trivial, hsort⟩)⟩

/-- **C66** Change of unit and origin, `_partial`: only for data without categorical columns. A regressor fitted on the labels `α * y + β` with
`step / α ^ 2` predicts `α * p + β` where the regressor fitted on `y` with `step` predicts `p`, for all data; its trees send all rows to the same leaves.
What is missing, categorical columns, does not hold, see `C66_shift_violated`. -/
theorem C66_shift_partial {lib : Lib V K ℝ G W} {a : FitArgs N V} {y : List ℝ} {s : World L V K ℝ ℝ G W}
    (hlib : LibOK lib a.nRows) (hp : ParamsValid s.self (nCols a.X)) (hd : DataValid lib.conv a s y.length)
    (ho : s.self.ovr = false) (hw : a.weights ≠ none → ∀ w ∈ s.weights, 0 < w) {α : ℝ} (hα : 0 < α) (β : ℝ) :
    ∃ t t', fitRegressor lib a y s = (.ok (), t) ∧
      fitRegressor lib a (y.map (α * · + β)) { s with self := { s.self with step := s.self.step / α ^ 2 } } = (.ok (), t') ∧
      ((∀ b ∈ t.self.isCategorical_, b = false) → ∀ n (E : Dataset N V),
        t'.self.predictReg lib n E = (t.self.predictReg lib n E).map (List.map (α * · + β)) ∧ t'.self.apply lib n E = t.self.apply lib n E) := by
  obtain ⟨t, t', h1, h2, h3⟩ := reg_rescaled hlib hp hd ho hw β one_pos hα (.inr rfl)
  simp only [one_mul, rescaled, List.map_id'] at h2 h3
  exact ⟨t, t', h1, h2, fun hc => h3 (.inl hc)⟩

/-- **C67** A regressor fitted with the weights `κ * w` and `step / κ` makes the same predictions as the one fitted with `w` and `step`. -/
theorem C67_regressor {lib : Lib V K ℝ G W} {a : FitArgs N V} {y : List ℝ} {s : World L V K ℝ ℝ G W}
    (hlib : LibOK lib a.nRows) (hsort : ArgsortByOrder lib.argsort) (hp : ParamsValid s.self (nCols a.X)) (hd : DataValid lib.conv a s y.length)
    (ho : s.self.ovr = false) (hgiven : a.weights ≠ none) (hw : ∀ w ∈ s.weights, 0 < w) {κ : ℝ} (hκ : 0 < κ) :
    ∃ t t', fitRegressor lib a y s = (.ok (), t) ∧
      fitRegressor lib a y { s with self := { s.self with step := s.self.step / κ }, weights := s.weights.map (κ * ·) } = (.ok (), t') ∧
      ∀ n (E : Dataset N V), t'.self.predictReg lib n E = t.self.predictReg lib n E ∧ t'.self.apply lib n E = t.self.apply lib n E := by
  obtain ⟨t, t', h1, h2, h3⟩ := reg_rescaled hlib hp hd ho (fun _ => hw) 0 hκ one_pos (.inl hgiven)
  simp only [add_zero, one_mul, rescaled, one_pow, mul_one, List.map_id'] at h2 h3
  refine ⟨t, t', h1, h2, fun n E => ?_⟩
  obtain ⟨g1, g2⟩ := h3 (.inr ⟨trivial, hsort⟩) n E
  refine ⟨g1.trans ?_, g2⟩
  cases t.self.predictReg lib n E with
  | error _ => rfl
  | ok p => exact congrArg Except.ok (List.map_id p)

/-- **C67** A classifier, multinomial or one-versus-rest, balanced or not, fitted with the weights `κ * w`, `step / κ` and `κ * dirichlet` makes the same
predictions as the one fitted with `w`, `step` and `dirichlet`. -/
theorem C67_classifier {lib : Lib V K ℝ G W} {a : FitArgs N V} {y : List L} {s : World L V K ℝ (List ℝ) G W}
    (hlib : LibOK lib a.nRows) (hp : ParamsValid s.self (nCols a.X)) (hd : DataValid lib.conv a s y.length) (ht : a.targetsOK = true)
    (hrefit : s.self.ovr = true → s.self.fitted = true → 2 < y.dedup.length)
    (hst : StrategyOK y.dedup.length s.self.strategy) (hagg : s.self.aggregation = true → s.self.dirichlet ≠ 0)
    (hgiven : a.weights ≠ none) (hw : ∀ w ∈ s.weights, 0 < w) {κ : ℝ} (hκ : 0 < κ) :
    ∃ t t', fitClassifier lib a y s = (.ok (), t) ∧
      fitClassifier lib a y { s with self := { s.self with step := s.self.step / κ, dirichlet := κ * s.self.dirichlet }, weights := s.weights.map (κ * ·) } =
        (.ok (), t') ∧
      ∀ eps n (E : Dataset N V), t'.self.predictProba lib eps n E = t.self.predictProba lib eps n E ∧
        t'.self.predict lib eps n E = t.self.predict lib eps n E ∧ t'.self.apply lib n E = t.self.apply lib n E := by
  rw [← sortedUnique_length] at hst hrefit
  exact class_rescaled hlib hp hd ht hrefit hagg hst hw hgiven hκ

end

theorem realArgsort_byOrder : ArgsortByOrder realArgsort := by
  intro φ hφ l
  unfold realArgsort
  rw [List.length_map]
  have := List.map_insertionSort (r := fun a b => (l.map φ).getD a 0 ≤ (l.map φ).getD b 0) (s := fun a b => l.getD a 0 ≤ l.getD b 0) id (List.range l.length)
    (by
      intro a ha b hb
      have ha := List.mem_range.1 ha
      have hb := List.mem_range.1 hb
      simp only [id, List.getD_eq_getElem?_getD, List.getElem?_map, List.getElem?_eq_getElem ha, List.getElem?_eq_getElem hb, Option.map_some, Option.getD_some]
      exact hφ.le_iff_le)
  simpa using this

/-- The code violates C66: it sorts the categories by the sum of their labels, and subtracting 10 from all labels changes this order. Of the two trees
for the same rows, one for labels that are all less by 10, one sends the rows 0 and 2 to different leaves and the other one to the same leaf. There is no
aggregation, so that `step` has no effect. -/
theorem C66_shift_violated : ∃ (fba : FBA) (arr arr' : TreeArr ℝ ℝ) (w w' : Work Nat),
    FitInput (shiftCtx 0 fba) (shiftData 0) (fun _ => True) sumTrain [] ∧ (∀ i ∈ sumTrain, 0 < (shiftData 0).w i) ∧
    (shiftCtx (-10) fba : Ctx ℝ) = { shiftCtx 0 fba with y := (shiftCtx 0 fba).y.map (· - 10) } ∧
    fitTree toyRng (regressorTask realArgsort) (shiftCtx 0 fba) realGarbage 3 sumTrain [] = .ok (arr, w) ∧
    fitTree toyRng (regressorTask realArgsort) (shiftCtx (-10) fba) realGarbage 3 sumTrain [] = .ok (arr', w') ∧
    (∃ k k', findLeaf arr fba 0 = .ok k ∧ findLeaf arr fba 2 = .ok k' ∧ k ≠ k') ∧
    ∃ k, findLeaf arr' fba 0 = .ok k ∧ findLeaf arr' fba 2 = .ok k := by
  classical
  obtain ⟨fba, h⟩ := shift_input
  have hT : ValidTask (G := Nat) (regressorTask realArgsort) (fun _ => True) := .regressor realArgsort_sorts.1
  obtain ⟨arr, w, n, a1, a2, a3, a4, S, a5, a6, -⟩ := shift_root (h 0) (a := 0) (b := 1) (c := 2) (fun o ho => shift_order0 ho) (by
    rintro S (rfl | rfl)
    · exact ⟨⟨0, by decide, by decide⟩, 1, by decide, by decide⟩
    · exact ⟨⟨0, by decide, by decide⟩, 2, by decide, by decide⟩)
  obtain ⟨arr', w', n', b1, b2, b3, b4, S', b5, b6, b7⟩ := shift_root (h (-10)) (a := 2) (b := 0) (c := 1) (fun o ho => shift_order10 ho) (by
    rintro S (rfl | rfl)
    · exact ⟨⟨2, by decide, by decide⟩, 1, by decide, by decide⟩
    · exact ⟨⟨0, by decide, by decide⟩, 1, by decide, by decide⟩)
  obtain ⟨l, r, -, -, hlr, hl⟩ := depth_one_leaf hT (h 0) a1 rfl a2 a3 a4
  obtain ⟨l', r', -, -, -, hl'⟩ := depth_one_leaf hT (h (-10)) b1 rfl b2 b3 b4
  have hd : ∀ β, (shiftData β).n = 6 := fun _ => rfl
  refine ⟨fba, arr, arr', w, w', h 0, shift_w 0, ?_, a1, b1, ?_, ?_⟩
  · simp only [shiftCtx, shiftY, List.map_cons, List.map_nil]
    norm_num
  · have t0 : TestLeft arr n ((shiftData 0).X 0 0) := of_decide_eq_true ((congrFun a6 0).trans (by
      rcases a5 with rfl | rfl <;> rfl))
    have t2 : ¬TestLeft arr n ((shiftData 0).X 2 0) := of_decide_eq_false ((congrFun a6 2).trans (by
      rcases a5 with rfl | rfl <;> rfl))
    exact ⟨l, r, (hl 0 (by rw [hd]; norm_num)).1 t0, (hl 2 (by rw [hd]; norm_num)).2 t2, hlr⟩
  · have hS : S' = [2, 0] := by
      rcases b5 with rfl | rfl
      · exfalso
        have := b7 [2, 0] (.inr rfl)
        rw [variance_between (shift_w _) ⟨0, by decide, by decide⟩ ⟨1, by decide, by decide⟩,
          variance_between (shift_w _) ⟨2, by decide, by decide⟩ ⟨1, by decide, by decide⟩] at this
        have hW : 0 < totalW (shiftData (-10)) sumTrain := totalW_pos (shift_w _) (by decide)
        have e1 : between (shiftData (-10)).w (shiftData (-10)).y sumTrain (fun i => decide ((shiftData (-10)).X i 0 ∈ [2, 0])) = 1156 / 5 := by
          unfold between zOf wOf
          rw [show sumTrain.filter (fun i => decide ((shiftData (-10)).X i 0 ∈ [2, 0])) = [0, 2, 3, 4, 5] from rfl,
            show (sumTrain.filter fun i => !decide ((shiftData (-10)).X i 0 ∈ [2, 0])) = [1] from rfl]
          simp [shiftData, dataOf, shiftY]; norm_num
        have e2 : between (shiftData (-10)).w (shiftData (-10)).y sumTrain (fun i => decide ((shiftData (-10)).X i 0 ∈ [2])) = 194 := by
          unfold between zOf wOf
          rw [show sumTrain.filter (fun i => decide ((shiftData (-10)).X i 0 ∈ [2])) = [2, 3, 4, 5] from rfl,
            show (sumTrain.filter fun i => !decide ((shiftData (-10)).X i 0 ∈ [2])) = [0, 1] from rfl]
          simp [shiftData, dataOf, shiftY]; norm_num
        rw [e1, e2] at this
        have := (div_le_div_iff_of_pos_right hW).1 (le_of_add_le_add_left this)
        norm_num at this
      · rfl
    subst hS
    have t0 : TestLeft arr' n' ((shiftData (-10)).X 0 0) := of_decide_eq_true ((congrFun b6 0).trans rfl)
    have t2 : TestLeft arr' n' ((shiftData (-10)).X 2 0) := of_decide_eq_true ((congrFun b6 2).trans rfl)
    exact ⟨l', (hl' 0 (by rw [hd]; norm_num)).1 t0, (hl' 2 (by rw [hd]; norm_num)).1 t2⟩

/-! ### Examples -/

/-- `C66_units` and `C67_regressor` with a categorical column: labels times 3, weights times 5. -/
example : ∃ t t', fitRegressor estLib (estArgs (some true) false) realY (estWorld ℝ false false .none 0) = (.ok (), t) ∧
    fitRegressor estLib (estArgs (some true) false) (realY.map (3 * ·)) { estWorld ℝ false false .none 0 with self := { estToy ℝ false false .none none with step := 1 / 3 ^ 2 } } = (.ok (), t') ∧
    t'.self.predictReg estLib 6 estX = (t.self.predictReg estLib 6 estX).map (List.map (3 * ·)) := by
  obtain ⟨t, t', h1, h2, h3⟩ := C66_units (lib := estLib) (a := estArgs (some true) false) (y := realY) (s := estWorld ℝ false false .none 0)
    (estLib_ok (n := 6) (by norm_num)) realArgsort_byOrder (estToy_valid _) (estData_valid _ _) rfl (fun _ => realW_pos) (α := 3) (by norm_num)
  exact ⟨t, t', h1, h2, (h3 6 estX).1⟩
example : ∃ t t', fitRegressor estLib (estArgs (some true) false) realY (estWorld ℝ false false .none 0) = (.ok (), t) ∧
    fitRegressor estLib (estArgs (some true) false) realY ⟨{ estToy ℝ false false .none none with step := 1 / 5 }, realW.map (5 * ·), 0⟩ = (.ok (), t') ∧
    t'.self.predictReg estLib 6 estX = t.self.predictReg estLib 6 estX := by
  obtain ⟨t, t', h1, h2, h3⟩ := C67_regressor (lib := estLib) (a := estArgs (some true) false) (y := realY) (s := estWorld ℝ false false .none 0)
    (estLib_ok (n := 6) (by norm_num)) realArgsort_byOrder (estToy_valid _) (estData_valid _ _) rfl (by simp [estArgs]) realW_pos (κ := 5) (by norm_num)
  exact ⟨t, t', h1, h2, (h3 6 estX).1⟩

/-- A numerical column. -/
def numX : List (String × Series Nat) := [("a", { kind := .uif, cells := [some 0, some 1, some 2, some 3, some 4, some 5] })]

/-- The arguments of `fit`. -/
def numArgs : FitArgs String Nat := ⟨.frame numX, 6, none, .none, false, true⟩

theorem numData_valid {P : Type} (s : World Nat Nat ℚ ℝ P Nat Nat) : DataValid estLib.conv numArgs s 6 where
  rows := by simp [numArgs]
  labels := rfl
  columns := by simp [numArgs, numX, nCols]
  weights h := absurd rfl h
  good := by
    refine ⟨by decide, ?_⟩
    intro p hp
    simp [numX] at hp
    subst hp
    simp [GoodSeries, numArgs]
  small := by
    intro p hp
    simp [numX] at hp
    subst hp
    simp
  fittable := by
    refine ⟨none, rfl, ?_⟩
    intro p hp
    simp [numX] at hp
    subst hp
    simp [estLib, exConv]

/-- `C66_shift_partial` for a numerical column: the labels `3 * y - 7`. -/
example : ∃ t t', fitRegressor estLib numArgs realY (estWorld ℝ false false .none 0) = (.ok (), t) ∧
    fitRegressor estLib numArgs (realY.map (3 * · + -7)) { estWorld ℝ false false .none 0 with self := { estToy ℝ false false .none none with step := 1 / 3 ^ 2 } } = (.ok (), t') ∧
    (∀ b ∈ t.self.isCategorical_, b = false) ∧
    t'.self.predictReg estLib 6 (.frame numX) = (t.self.predictReg estLib 6 (.frame numX)).map (List.map (3 * · + -7)) := by
  have hv := numData_valid (estWorld ℝ false false .none 0)
  obtain ⟨t, t', h1, h2, h3⟩ := C66_shift_partial (lib := estLib) (a := numArgs) (y := realY) (s := estWorld ℝ false false .none 0)
    (estLib_ok (n := 6) (by norm_num)) (estToy_valid _) hv rfl (fun h => absurd rfl h) (α := 3) (by norm_num) (-7)
  have hc : ∀ b ∈ t.self.isCategorical_, b = false := by
    obtain ⟨e0, o, -, h, hf⟩ := fitRegressor_ok (L := Nat) (a := numArgs) (y := realY) (s := estWorld ℝ false false .none 0)
      (estLib_ok (n := 6) (by norm_num)) (estToy_valid _) hv
    have h0 := C44_violated h1 (j := 0) (k := 4) rfl rfl rfl (by decide)
    have hl : t.self.isCategorical_.length = 1 := by
      obtain rfl := (Prod.mk.inj (h1.symm.trans h)).2
      obtain ⟨_, enc, -, -, -, -, e1, e2, -⟩ := hf.encoder
      rw [show o.est.isCategorical_ = enc.map FitCol.isCat from e2, List.length_map, e1]
      rfl
    match h4 : t.self.isCategorical_, hl with
    | [x], _ =>
      rw [h4] at h0
      simpa using h0
  exact ⟨t, t', h1, h2, hc, (h3 hc 6 (.frame numX)).1⟩

/-- `C67_classifier` with three classes, one-versus-rest and balanced. -/
example : ∃ t t', fitClassifier estLib (estArgs (some true) false) [3, 3, 5, 5, 8, 8] (estWorld _ true true .none 0) = (.ok (), t) ∧
    fitClassifier estLib (estArgs (some true) false) [3, 3, 5, 5, 8, 8]
      ⟨{ estToy _ true true .none none with step := 1 / 5, dirichlet := 5 * (1 / 2) }, realW.map (5 * ·), 0⟩ = (.ok (), t') ∧
    t'.self.predictProba estLib 0 6 estX = t.self.predictProba estLib 0 6 estX := by
  obtain ⟨t, t', h1, h2, h3⟩ := C67_classifier (lib := estLib) (a := estArgs (some true) false) (y := [3, 3, 5, 5, 8, 8]) (s := estWorld _ true true .none 0)
    (estLib_ok (n := 6) (by norm_num)) (estToy_valid _) (estData_valid _ _) rfl (fun _ h => by cases h) est_strategy
    (fun _ => by norm_num [estWorld, estToy]) (by simp [estArgs]) realW_pos (κ := 5) (by norm_num)
  exact ⟨t, t', h1, h2, (h3 0 6 estX).1⟩

end Verif
