import Verif.Proofs.Relabel
import Verif.Proofs.EstToy
import Verif.Proofs.EncoderObj
import Verif.Props.Rescale

/-! # C90: the names of the classes. Floats are real numbers in the positive result. -/
set_option linter.unusedSectionVars false
namespace Verif

open Spec

section
variable {L V K G W N : Type} [LinearOrder L] [DecidableEq V] [DecidableEq N] [LinearOrder K] [Field K] [IsStrictOrderedRing K]
  [FloorSemiring K]

/-- **C90**, partial: for any other names of the classes, in any other order, the fit succeeds, every class gets the same probability under its new name
for all data, and all rows come to the same leaves, for a multinomial classifier on data without categorical columns. Missing: categorical columns and the
one-versus-rest mode, see `C90_categorical_violated` and `C90_ovr_violated`. -/
theorem C90_multinomial_partial {lib : Lib V K ℝ G W} {a : FitArgs N V} {y : List L} {s : World L V K ℝ (List ℝ) G W} {ρ : L → L}
    (hlib : LibOK lib a.nRows) (hp : ParamsValid s.self (nCols a.X)) (hd : DataValid lib.conv a s y.length) (ht : a.targetsOK = true)
    (hmode : s.self.ovr = false ∨ s.self.fitted = false ∧ y.dedup.length ≤ 2)
    (hst : StrategyOK y.dedup.length s.self.strategy) (hagg : s.self.aggregation = true → s.self.dirichlet ≠ 0)
    (hρ : ∀ l ∈ y, ∀ m ∈ y, ρ l = ρ m → l = m) :
    ∃ t t', fitClassifier lib a y s = (.ok (), t) ∧ fitClassifier lib a (y.map ρ) s = (.ok (), t') ∧
      ((∀ b ∈ t.self.isCategorical_, b = false) → ∀ eps n (E : Dataset N V),
        SameResult (SameProba ρ y t.self.classes t'.self.classes) (t.self.predictProba lib eps n E) (t'.self.predictProba lib eps n E) ∧
        t'.self.apply lib n E = t.self.apply lib n E) := by
  rw [← sortedUnique_length] at hst hmode
  refine class_perm hlib hp hd ht ?_ hagg hst ?_ hρ
  · intro h1 h2
    rcases hmode with h | h
    · rw [h] at h1; cases h1
    · rw [h.1] at h2; cases h2
  · unfold staysOvr
    rcases hmode with h | h
    · rw [h]; rfl
    · rw [decide_eq_false (not_lt.2 h.2), Bool.and_false]

end

/-! ### Violations -/

section
attribute [local instance] ratNum

/-- External code; the bootstrap of seed 7 draws the rows 2 and 3 twice and leaves out the rows 6 and 7. -/
def ratLib (boot : Nat → List Nat) : Lib Nat ℚ ℚ Nat Nat where
  seeded s k := (List.range k).map (· + s)
  seededGlobal w k := ((List.range k).map (· + w), w + 1)
  choice w _ k := (List.range k, w)
  depth w := (w, w)
  boot _ := boot
  frames := 1
  flog n := Nat.log 3 n
  fsqrt n := Nat.sqrt n
  cap := 1000
  words _ := 0
  garbage _ := ⟨fun _ => ⟨none, 0, false, none, 0, 0, 0, 0⟩, fun _ => 77, fun _ => 99⟩
  rng := toyRng
  argsort := ratArgsort
  conv := exConv

/-- A classifier with `k` estimators whose trees have at most one split. -/
def ratWorld (k : Nat) (ovr : Bool) (st : CatStrategy) : World Nat Nat ℚ ℚ (List ℚ) Nat Nat :=
  ⟨{ fitted := false, nEstimators := k, criterion := .gini, step := 1, dirichlet := 0, aggregation := false, maxDepth := some 1, minSplit := 2,
     minLeaf := 1, maxBins := 5, categoricalFeatures := .none, maxFeatures := .none, subsample := none, catMin := .int 4, handleUnknownError := false,
     randomState := some (some 7), balanced := false, ovr := ovr, strategy := st, classes := [], nClasses := 0, nTrees := 0,
     nClassesPerTree := 0, maxFeatures_ := 0, seeds := [], isCategorical_ := [], encoder := none, trees := [], nSamples := 0, nFeatures := 0 }, [], 0⟩

/-- One column of words. -/
def ratX : Dataset String Nat := .frame [("b", { kind := .bOSU, cells := [some 0, some 0, some 1, some 1, some 2, some 2, some 1, some 1] })]

/-- The fit of one tree. -/
def ratFit (y : List Nat) := fitClassifier (ratLib fun _ => [0, 1, 2, 3, 4, 5, 2, 3]) ⟨ratX, 8, none, .none, false, true⟩ y (ratWorld 1 false .binary)

/-- **C90** is violated for a categorical column with two classes: the categories are tried in the order of the proportion of the second class, so that
exchanging the two names reverses the order; here two cuts are equally good, the first one is taken, and it is another one after the exchange. The values
are exact, there is no rounding. Before the exchange the third row has label 3 with probability 1/3, after it label 5, the new name, with probability 2/3. -/
theorem C90_categorical_violated :
    (ratFit [3, 3, 3, 5, 5, 5, 3, 5]).1 = .ok () ∧ (ratFit ([3, 3, 3, 5, 5, 5, 3, 5].map fun l => 8 - l)).1 = .ok () ∧
    ∃ rows rows',
      (ratFit [3, 3, 3, 5, 5, 5, 3, 5]).2.self.predictProba (ratLib fun _ => [0, 1, 2, 3, 4, 5, 2, 3]) 0 8 ratX = .ok rows ∧
      (ratFit ([3, 3, 3, 5, 5, 5, 3, 5].map fun l => 8 - l)).2.self.predictProba (ratLib fun _ => [0, 1, 2, 3, 4, 5, 2, 3]) 0 8 ratX = .ok rows' ∧
      (rows[2]?.bind fun r => probaOf [3, 5] r 3) = some (1 / 3) ∧ (rows'[2]?.bind fun r => probaOf [3, 5] r 5) = some (2 / 3) ∧
      ¬SameProba (fun l => 8 - l) [3, 3, 3, 5, 5, 5, 3, 5] [3, 5] [3, 5] rows rows' := by
  refine ⟨by decide +kernel, by decide +kernel,
    [[1, 0], [1, 0], [1 / 3, 2 / 3], [1 / 3, 2 / 3], [1 / 3, 2 / 3], [1 / 3, 2 / 3], [1 / 3, 2 / 3], [1 / 3, 2 / 3]],
    [[1 / 3, 2 / 3], [1 / 3, 2 / 3], [1 / 3, 2 / 3], [1 / 3, 2 / 3], [1, 0], [1, 0], [1 / 3, 2 / 3], [1 / 3, 2 / 3]],
    by decide +kernel, by decide +kernel, by decide +kernel, by decide +kernel, ?_⟩
  unfold SameProba
  decide +kernel

/-- External code with two bootstraps. -/
def ovrLib : Lib Nat ℚ ℚ Nat Nat := ratLib fun s => if s = 7 then [0, 1, 2, 3, 4, 5, 2, 3] else [0, 3, 3, 3, 2, 4, 5, 5]

/-- The fit of two estimators for every class. -/
def ovrFit (y : List Nat) := fitClassifier ovrLib ⟨ratX, 8, none, .none, false, true⟩ y (ratWorld 2 true .binary)

/-- **C90** is violated in the one-versus-rest mode: the trees of a class get their seeds by the rank of its name, so that other names give other
bootstraps: with two estimators and three classes the trees of the first class both have the first seed, and those of the last class both the second one,
compare C43. The values are exact, there is no rounding. Before the exchange of 3 and 8 the third row has label 3 with probability 16/31, after it label 8, the new name, with probability 8/43. -/
theorem C90_ovr_violated :
    (ovrFit [3, 3, 3, 5, 8, 8, 3, 5]).1 = .ok () ∧ (ovrFit ([3, 3, 3, 5, 8, 8, 3, 5].map (Equiv.swap 3 8))).1 = .ok () ∧
    ∃ rows rows',
      (ovrFit [3, 3, 3, 5, 8, 8, 3, 5]).2.self.predictProba ovrLib 0 8 ratX = .ok rows ∧
      (ovrFit ([3, 3, 3, 5, 8, 8, 3, 5].map (Equiv.swap 3 8))).2.self.predictProba ovrLib 0 8 ratX = .ok rows' ∧
      (rows[2]?.bind fun r => probaOf [3, 5, 8] r 3) = some (16 / 31) ∧ (rows'[2]?.bind fun r => probaOf [3, 5, 8] r 8) = some (8 / 43) ∧
      ¬SameProba (Equiv.swap 3 8) [3, 3, 3, 5, 8, 8, 3, 5] [3, 5, 8] [3, 5, 8] rows rows' := by
  refine ⟨by decide +kernel, by decide +kernel,
    [[1, 0, 0], [1, 0, 0], [16 / 31, 15 / 31, 0], [16 / 31, 15 / 31, 0], [0, 0, 1], [0, 0, 1], [16 / 31, 15 / 31, 0], [16 / 31, 15 / 31, 0]],
    [[0, 0, 1], [0, 0, 1], [0, 35 / 43, 8 / 43], [0, 35 / 43, 8 / 43], [7 / 8, 0, 1 / 8], [7 / 8, 0, 1 / 8], [0, 35 / 43, 8 / 43], [0, 35 / 43, 8 / 43]],
    by decide +kernel, by decide +kernel, by decide +kernel, by decide +kernel, ?_⟩
  unfold SameProba
  decide +kernel

end

/-! ### An example -/

/-- `C90_multinomial_partial` with three classes and a numerical column; the names 3, 5, 8 become 9, 2, 4. -/
example : ∃ t t', fitClassifier estLib numArgs [3, 3, 5, 5, 8, 8] (estWorld _ false true .none 0) = (.ok (), t) ∧
    fitClassifier estLib numArgs [9, 9, 2, 2, 4, 4] (estWorld _ false true .none 0) = (.ok (), t') ∧
    (∀ b ∈ t.self.isCategorical_, b = false) ∧
    SameResult (SameProba (fun l => if l = 3 then 9 else if l = 5 then 2 else 4) [3, 3, 5, 5, 8, 8] t.self.classes t'.self.classes)
      (t.self.predictProba estLib 0 6 (.frame numX)) (t'.self.predictProba estLib 0 6 (.frame numX)) := by
  have hv := numData_valid (estWorld (List ℝ) false true .none 0)
  obtain ⟨t, t', h1, h2, h3⟩ := C90_multinomial_partial (lib := estLib) (a := numArgs) (y := [3, 3, 5, 5, 8, 8]) (s := estWorld _ false true .none 0)
    (ρ := fun l => if l = 3 then 9 else if l = 5 then 2 else 4)
    (estLib_ok (n := 6) (by norm_num)) (estToy_valid _) hv rfl (.inl rfl) est_strategy (fun _ => by norm_num [estWorld, estToy]) (by decide)
  have hc : ∀ b ∈ t.self.isCategorical_, b = false := by
    obtain ⟨e0, o, he0, h, hf⟩ := fitClassifier_ok (okW := fun _ => True) (a := numArgs) (y := [3, 3, 5, 5, 8, 8]) (s := estWorld (List ℝ) false true .none 0)
      (estLib_ok (n := 6) (by norm_num)) (estToy_valid _) hv rfl (fun h => by cases h) (fun _ h => absurd (of_decide_eq_true h.1) (by norm_num [estWorld, estToy, Num.zero])) est_strategy
      (fun k _ => Nat.floor_natCast k) (fun _ _ => trivial)
    have he := (Prod.mk.inj (h1.symm.trans h)).2
    rw [he]
    intro b hb
    have hb' : b ∈ o.enc.map FitCol.isCat := hb
    obtain ⟨fc, hfc, rfl⟩ := List.mem_map.1 hb'
    obtain ⟨j, hj, rfl⟩ := List.mem_iff_getElem.1 hfc
    have hic : o.ic = none := by
      have := o.hic; simp only [getIsCategorical, numArgs] at this; injection this with this; exact this.symm
    have hl : o.enc.length = 1 := encoderFit_length o.henc
    obtain rfl : j = 0 := by omega
    obtain ⟨decl, fc, h4, -, h5, h6⟩ := C10_fit_frame_partial o.henc 0 "a" _ rfl
    rw [List.getElem?_eq_getElem hj] at h4
    obtain rfl := Option.some.inj h4
    have h7 : decl = none := by
      rw [show (e0.encCfg estLib numArgs.nRows o.ic).isCategorical = none from hic] at h5; exact h5
    subst h7
    have h8 := h6 (fun h => by cases h)
    cases h9 : o.enc[0] with
    | num _ => rfl
    | cat cs =>
      have := h8.1 ⟨cs, h9⟩
      subst he0
      rw [show (Est.encCfg estLib (preparedEst (withCategorical numArgs.categorical (estWorld (List ℝ) false true .none 0).self) [3, 3, 5, 5, 8, 8])
        numArgs.nRows o.ic).catMin = 4 from rfl] at this
      exact absurd this (by unfold ShouldBeCategorical; decide)
  exact ⟨t, t', h1, h2, hc, (h3 hc 0 6 (.frame numX)).1⟩

end Verif
