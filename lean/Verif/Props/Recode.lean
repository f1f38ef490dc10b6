import Verif.Proofs.RecodeEst
import Verif.Proofs.EstToy
import Verif.Props.EstimatorRandom

/-! # C64, C65: only the order of the values of a numerical column matters, units do not matter -/
set_option linter.unusedSectionVars false
namespace Verif

open Spec

section
variable {L V K F Y P G W N : Type} [LinearOrder L] [DecidableEq V] [DecidableEq N] [LinearOrder K] [Field K] [IsStrictOrderedRing K]
  [FloorSemiring K] [Num F]

/-- **C64** for classifiers. Only the order of the numbers in a numerical column matters. Take any successful `fit` whose encoder looks at all rows, and
change the numbers in some numerical columns, each by its own increasing function (numbers at most `cap` = 1e300 before and after). Then `fit` on the
changed data succeeds with exactly the same estimator, trees included, apart from the thresholds stored in the encoder; the weights of the caller and the
global generator end in the same state. On every dataset made of values from the training columns (the training data itself for example), changed in the
same way, the probabilities and the predicted labels are the same as before, exceptions included. -/
theorem C64_order_classifier {lib : Lib V K F G W} {a : FitArgs N V} {y : List L} {s s' : World L V K F (List F) G W} {ch : Nat → V → V}
    (hbins : 1 ≤ s.self.maxBins) (hrows : UsesAllRows s.self a.nRows) (hX : DistinctNames a.X) (hch : OrderKept lib a.X ch)
    (h : fitClassifier lib a y s = (.ok (), s')) (hcat : CategoricalKept s'.self ch) :
    ∃ enc, fitClassifier lib { a with X := recode ch a.X } y s = (.ok (), { s' with self := withEncoder s'.self enc }) ∧
      ∀ (N' : Type) [DecidableEq N'] (eps : F) (n : Nat) (E : Dataset N' V), DistinctNames E → ValuesFrom a.X ch E →
        (withEncoder s'.self enc).predictProba lib eps n (recode ch E) = s'.self.predictProba lib eps n E ∧
        (withEncoder s'.self enc).predict lib eps n (recode ch E) = s'.self.predict lib eps n E := by
  obtain ⟨p, s1, hs1, h1, hX'⟩ := fitClassifier_split h
  simp only [encSettings, Prod.mk.injEq] at hs1
  obtain ⟨enc, h2, h3⟩ := recode_order (by rw [hs1.1]; exact hbins) (fun k hk => hrows k (by rw [← hs1.2.1]; exact hk)) hX hch h1 hcat
  refine ⟨enc, by rw [hX', h2], fun N' _ eps n E hE hv => ?_⟩
  have hp : (withEncoder s'.self enc).predictProba lib eps n (recode ch E) = s'.self.predictProba lib eps n E := by
    unfold Est.predictProba
    rw [h3 N' n E hE hv]
    rfl
  refine ⟨hp, ?_⟩
  unfold Est.predict
  rw [hp]
  rfl

/-- **C64** for regressors. -/
theorem C64_order_regressor {lib : Lib V K F G W} {a : FitArgs N V} {y : List F} {s s' : World L V K F F G W} {ch : Nat → V → V}
    (hbins : 1 ≤ s.self.maxBins) (hrows : UsesAllRows s.self a.nRows) (hX : DistinctNames a.X) (hch : OrderKept lib a.X ch)
    (h : fitRegressor lib a y s = (.ok (), s')) (hcat : CategoricalKept s'.self ch) :
    ∃ enc, fitRegressor lib { a with X := recode ch a.X } y s = (.ok (), { s' with self := withEncoder s'.self enc }) ∧
      ∀ (N' : Type) [DecidableEq N'] (n : Nat) (E : Dataset N' V), DistinctNames E → ValuesFrom a.X ch E →
        (withEncoder s'.self enc).predictReg lib n (recode ch E) = s'.self.predictReg lib n E := by
  obtain ⟨p, s1, hs1, h1, hX'⟩ := fitRegressor_split h
  simp only [encSettings, Prod.mk.injEq] at hs1
  obtain ⟨enc, h2, h3⟩ := recode_order (by rw [hs1.1]; exact hbins) (fun k hk => hrows k (by rw [← hs1.2.1]; exact hk)) hX hch h1 hcat
  refine ⟨enc, by rw [hX', h2], fun N' _ n E hE hv => ?_⟩
  unfold Est.predictReg
  rw [h3 N' n E hE hv]
  rfl

/-- **C65** for classifiers. Units do not matter. Take any successful `fit`, with or without a random subset of the rows, and replace the numbers `x` of
some numerical columns by `α x + β` with `α > 0`. Then `fit` on the changed data gives the same estimator apart from the stored thresholds, and on every
dataset, changed in the same way, the probabilities and labels are the same as before, exceptions included. -/
theorem C65_units_classifier {lib : Lib V K F G W} {a : FitArgs N V} {y : List L} {s s' : World L V K F (List F) G W} {ch : Nat → V → V}
    {α β : Nat → K} (hα : ∀ j, 0 < α j) (hbins : 1 ≤ s.self.maxBins) (hX : DistinctNames a.X)
    (hch : ∀ j, ch j = id ∨ Increasing lib.conv lib.cap a.X j (ch j) fun x => α j * x + β j)
    (h : fitClassifier lib a y s = (.ok (), s')) (hcat : CategoricalKept s'.self ch) :
    ∃ enc, fitClassifier lib { a with X := recode ch a.X } y s = (.ok (), { s' with self := withEncoder s'.self enc }) ∧
      ∀ (N' : Type) [DecidableEq N'] (eps : F) (n : Nat) (E : Dataset N' V), DistinctNames E →
        (∀ j, ch j ≠ id → Affine lib.conv E j (ch j) (α j) (β j)) →
        (withEncoder s'.self enc).predictProba lib eps n (recode ch E) = s'.self.predictProba lib eps n E ∧
        (withEncoder s'.self enc).predict lib eps n (recode ch E) = s'.self.predict lib eps n E := by
  obtain ⟨p, s1, hs1, h1, hX'⟩ := fitClassifier_split h
  simp only [encSettings, Prod.mk.injEq] at hs1
  obtain ⟨enc, h2, h3⟩ := recode_affine hα (by rw [hs1.1]; exact hbins) hX hch h1 hcat
  refine ⟨enc, by rw [hX', h2], fun N' _ eps n E hE hv => ?_⟩
  have hp : (withEncoder s'.self enc).predictProba lib eps n (recode ch E) = s'.self.predictProba lib eps n E := by
    unfold Est.predictProba
    rw [h3 N' n E hE hv]
    rfl
  refine ⟨hp, ?_⟩
  unfold Est.predict
  rw [hp]
  rfl

/-- **C65** for regressors. -/
theorem C65_units_regressor {lib : Lib V K F G W} {a : FitArgs N V} {y : List F} {s s' : World L V K F F G W} {ch : Nat → V → V}
    {α β : Nat → K} (hα : ∀ j, 0 < α j) (hbins : 1 ≤ s.self.maxBins) (hX : DistinctNames a.X)
    (hch : ∀ j, ch j = id ∨ Increasing lib.conv lib.cap a.X j (ch j) fun x => α j * x + β j)
    (h : fitRegressor lib a y s = (.ok (), s')) (hcat : CategoricalKept s'.self ch) :
    ∃ enc, fitRegressor lib { a with X := recode ch a.X } y s = (.ok (), { s' with self := withEncoder s'.self enc }) ∧
      ∀ (N' : Type) [DecidableEq N'] (n : Nat) (E : Dataset N' V), DistinctNames E →
        (∀ j, ch j ≠ id → Affine lib.conv E j (ch j) (α j) (β j)) →
        (withEncoder s'.self enc).predictReg lib n (recode ch E) = s'.self.predictReg lib n E := by
  obtain ⟨p, s1, hs1, h1, hX'⟩ := fitRegressor_split h
  simp only [encSettings, Prod.mk.injEq] at hs1
  obtain ⟨enc, h2, h3⟩ := recode_affine hα (by rw [hs1.1]; exact hbins) hX hch h1 hcat
  refine ⟨enc, by rw [hX', h2], fun N' _ n E hE hv => ?_⟩
  unfold Est.predictReg
  rw [h3 N' n E hE hv]
  rfl

end

/-! ## Examples -/

/-- The numbers of the first column are squared. -/
def exSquare (j : Nat) (v : Nat) : Nat := if j = 0 then v * v else v

theorem exSquare_zero : exSquare 0 = fun v => v * v := by funext v; simp [exSquare]
theorem exSquare_succ (j : Nat) : exSquare (j + 1) = id := by funext v; simp [exSquare]

/-- The numbers of the first column are changed from Celsius to Fahrenheit (in a scale of fives). -/
def exScale (j : Nat) (v : Nat) : Nat := if j = 0 then 9 * v + 160 else v

theorem exScale_zero : exScale 0 = fun v => 9 * v + 160 := by funext v; simp [exScale]
theorem exScale_succ (j : Nat) : exScale (j + 1) = id := by funext v; simp [exScale]

theorem estX_col {v : Nat} (h : InColumn estX 0 v) : v ≤ 5 := by
  obtain ⟨i, hi⟩ := h
  simp only [cell, estX, List.getElem?_cons_zero, Option.bind_some] at hi
  have := List.mem_of_getElem? hi
  simp at this
  omega

theorem exSquare_order : OrderKept estLib estX exSquare := by
  intro j
  cases j with
  | succ j => exact Or.inl (exSquare_succ j)
  | zero =>
    right
    rw [exSquare_zero]
    refine ⟨fun x => x * x, ?_, ?_, ?_, ?_⟩
    · intro p hp; cases hp; rfl
    · intro v hv
      have hv5 : (v : ℚ) ≤ 5 := by exact_mod_cast estX_col hv
      have h0 : (0 : ℚ) ≤ v := by positivity
      refine ⟨v, rfl, ?_, ?_, ?_⟩
      · change (v : ℚ) ≤ 1000; linarith
      · change (v : ℚ) * v ≤ 1000; nlinarith
      · change some ((v * v : Nat) : ℚ) = _; push_cast; rfl
    · intro v w x y _ _ hx hy hxy
      cases hx; cases hy
      have h0 : (0 : ℚ) ≤ v := by positivity
      change (v : ℚ) * v < w * w
      nlinarith
    · intro v w _ _ h
      exact Nat.mul_self_inj.1 h

theorem exScale_units (j : Nat) : exScale j = id ∨ Increasing estLib.conv estLib.cap estX j (exScale j) fun x => 9 * x + 160 := by
  cases j with
  | succ j => exact Or.inl (exScale_succ j)
  | zero =>
    right
    rw [exScale_zero]
    refine ⟨?_, ?_, ?_, ?_⟩
    · intro p hp; cases hp; rfl
    · intro v hv
      have hv5 : (v : ℚ) ≤ 5 := by exact_mod_cast estX_col hv
      refine ⟨v, rfl, ?_, ?_, ?_⟩
      · change (v : ℚ) ≤ 1000; linarith
      · change 9 * (v : ℚ) + 160 ≤ 1000; linarith
      · change some ((9 * v + 160 : Nat) : ℚ) = _; push_cast; rfl
    · intro v w x y _ _ hx hy hxy
      cases hx; cases hy
      change 9 * (v : ℚ) + 160 < 9 * w + 160
      linarith
    · intro v w _ _ h
      omega

/-- New data with a number that is not in the training data. -/
def estNew : Dataset String Nat :=
  .frame [("a", { kind := .uif, cells := [some 17, none] }), ("b", { kind := .bOSU, cells := [some 2, some 1] })]

theorem estX_names : DistinctNames estX := by unfold DistinctNames estX; decide
theorem estNew_names : DistinctNames estNew := by unfold DistinctNames estNew; decide

theorem exScale_new (j : Nat) (h : exScale j ≠ id) : Affine estLib.conv estNew j (exScale j) 9 160 := by
  cases j with
  | succ j => exact absurd (exScale_succ j) h
  | zero =>
    rw [exScale_zero]
    refine ⟨?_, fun v _ => ?_⟩
    · intro p hp; cases hp; rfl
    · change some ((9 * v + 160 : Nat) : ℚ) = some (9 * (v : ℚ) + 160); push_cast; rfl

theorem estX_regressor : ∃ s', fitRegressor estLib (estArgs none false) realY (estWorld _ false false .none 0) = (.ok (), s') ∧
    s'.self.isCategorical_[0]? = some false := by
  obtain ⟨e0, o, -, h, -⟩ := fitRegressor_ok (L := Nat) (a := estArgs none false) (y := realY) (s := estWorld _ false false .none 0)
    (estLib_ok (n := 6) (by norm_num)) (estToy_valid _) (estData_valid _ _)
  exact ⟨_, h, C44_violated h (j := 0) (k := 4) rfl rfl rfl (by decide)⟩

/-- A regressor: the squared training data have the same predictions. -/
example : ∃ (s' : World Nat Nat ℚ ℝ ℝ Nat Nat) (enc : _), fitRegressor estLib { estArgs none false with X := recode exSquare estX } realY (estWorld _ false false .none 0) =
      (.ok (), { s' with self := withEncoder s'.self enc }) ∧ s'.self.fitted = true ∧
    (withEncoder s'.self enc).predictReg estLib 6 (recode exSquare estX) = s'.self.predictReg estLib 6 estX := by
  obtain ⟨s', h, hc⟩ := estX_regressor
  have hcat : CategoricalKept s'.self exSquare := by
    intro j hj
    cases j with
    | zero => rw [hc]; simp
    | succ j => exact absurd (exSquare_succ j) hj
  obtain ⟨enc, h1, h2⟩ := C64_order_regressor (ch := exSquare) (by simp [estWorld, estToy]) (fun k hk => by cases hk) estX_names exSquare_order h hcat
  refine ⟨s', enc, h1, ?_, h2 _ _ _ estX_names fun j hj => ?_⟩
  · obtain ⟨p, s1, o, ho⟩ := fitRegressor_inv h
    rw [ho]; rfl
  · refine ⟨?_, fun v hv => hv⟩
    cases j with
    | zero => intro p hp; cases hp; rfl
    | succ j => exact absurd (exSquare_succ j) hj

/-- A regressor: other units, for new data. -/
example : ∃ (s' : World Nat Nat ℚ ℝ ℝ Nat Nat) (enc : _), fitRegressor estLib { estArgs none false with X := recode exScale estX } realY (estWorld _ false false .none 0) =
      (.ok (), { s' with self := withEncoder s'.self enc }) ∧
    (withEncoder s'.self enc).predictReg estLib 2 (recode exScale estNew) = s'.self.predictReg estLib 2 estNew := by
  obtain ⟨s', h, hc⟩ := estX_regressor
  have hcat : CategoricalKept s'.self exScale := by
    intro j hj
    cases j with
    | zero => rw [hc]; simp
    | succ j => exact absurd (exScale_succ j) hj
  obtain ⟨enc, h1, h2⟩ := C65_units_regressor (ch := exScale) (α := fun _ => 9) (β := fun _ => 160) (fun _ => by norm_num) (by simp [estWorld, estToy])
    estX_names exScale_units h hcat
  exact ⟨s', enc, h1, h2 _ _ _ estNew_names exScale_new⟩

theorem estX_classifier : ∃ s', fitClassifier estLib (estArgs (some true) true) [3, 3, 5, 5, 8, 8] (estWorld _ true true .none 0) = (.ok (), s') ∧
    s'.self.isCategorical_[0]? = some false := by
  have hlib : LibOK estLib (estArgs (some true) true).nRows := estLib_ok (n := 6) (by norm_num)
  obtain ⟨s', h, -⟩ := fit_class_facts hlib (estToy_valid _)
    (estData_valid (P := List ℝ) (ovr := true) (balanced := true) (cf := .none) (np := 0) (some true) true) (y := [3, 3, 5, 5, 8, 8]) rfl
    (fun _ h => by cases h) est_strategy (by norm_num [estWorld, estToy]) (fun _ => by norm_num [estWorld, estToy])
    (fun w h => (realW_pos w h).le) (.inl (by norm_num [estWorld, estToy]))
  refine ⟨s', h, ?_⟩
  obtain ⟨p, s1, hs1, h1, -⟩ := fitClassifier_split h
  simp only [encSettings, Prod.mk.injEq] at hs1
  obtain ⟨o, rfl⟩ := fitRest_inv h1
  have hic : o.ic = none := by have := o.hic; simp only [estArgs, getIsCategorical] at this; injection this with this; exact this.symm
  obtain ⟨decl, fc, hfc, -, hdecl, hiff⟩ := C10_fit_frame_partial o.henc 0 "a" _ rfl
  have hd : decl = none := by
    have e : (s1.self.encCfg estLib 6 o.ic).isCategorical = none := hic
    rw [show (estArgs (some true) true).nRows = 6 from rfl, e] at hdecl; exact hdecl
  subst hd
  have hno := hiff fun h => by cases h
  simp only [Outcome.est, List.getElem?_map, hfc, Option.map_some]
  cases fc with
  | num thr => rfl
  | cat cs =>
    exfalso
    have := hno
    simp [Est.encCfg, hs1.2.2, estWorld, estToy, CatMin.value, ShouldBeCategorical] at this

/-- A classifier: squared numbers and other units. -/
example : ∃ (s' : World Nat Nat ℚ ℝ (List ℝ) Nat Nat) (enc enc' : _), fitClassifier estLib { estArgs (some true) true with X := recode exSquare estX } [3, 3, 5, 5, 8, 8] (estWorld _ true true .none 0) =
      (.ok (), { s' with self := withEncoder s'.self enc }) ∧
    (withEncoder s'.self enc).predict estLib 0 6 (recode exSquare estX) = s'.self.predict estLib 0 6 estX ∧
    fitClassifier estLib { estArgs (some true) true with X := recode exScale estX } [3, 3, 5, 5, 8, 8] (estWorld _ true true .none 0) =
      (.ok (), { s' with self := withEncoder s'.self enc' }) ∧
    (withEncoder s'.self enc').predict estLib 0 2 (recode exScale estNew) = s'.self.predict estLib 0 2 estNew := by
  obtain ⟨s', h, hc⟩ := estX_classifier
  have hcat : CategoricalKept s'.self exSquare := by
    intro j hj
    cases j with
    | zero => rw [hc]; simp
    | succ j => exact absurd (exSquare_succ j) hj
  have hcat' : CategoricalKept s'.self exScale := by
    intro j hj
    cases j with
    | zero => rw [hc]; simp
    | succ j => exact absurd (exScale_succ j) hj
  obtain ⟨enc, h1, h2⟩ := C64_order_classifier (ch := exSquare) (by simp [estWorld, estToy]) (fun k hk => by cases hk) estX_names exSquare_order h hcat
  obtain ⟨enc', h3, h4⟩ := C65_units_classifier (ch := exScale) (α := fun _ => 9) (β := fun _ => 160) (fun _ => by norm_num) (by simp [estWorld, estToy])
    estX_names exScale_units h hcat'
  refine ⟨s', enc, enc', h1, (h2 _ _ _ _ estX_names fun j hj => ⟨?_, fun v hv => hv⟩).2, h3, (h4 _ _ _ _ estNew_names exScale_new).2⟩
  cases j with
  | zero => intro p hp; cases hp; rfl
  | succ j => exact absurd (exSquare_succ j) hj

end Verif
