import Verif.Proofs.Beyond
import Verif.Props.Greedy
import Verif.Props.Rename
import Verif.Props.Recode

/-! # C96: cells beyond the training data -/
set_option linter.unusedSectionVars false
namespace Verif

open Spec

section
variable {L V K F G W N : Type} [LinearOrder L] [DecidableEq V] [DecidableEq N] [LinearOrder K] [Field K] [IsStrictOrderedRing K] [FloorSemiring K] [Num F]

/-- **C96** Classifier, in any float arithmetic: replacing numbers beyond the training data of a numerical column by each other, or by the extreme number of the training
data, changes no prediction and no leaf. Missing: the largest number of a column that has missing cells and more than `max_bins` distinct numbers, see
`C96_violated`. -/
theorem C96_classifier_partial {lib : Lib V K F G W} {a : FitArgs N V} {y : List L} {s : World L V K F (List F) G W}
    (hlib : LibOK lib a.nRows) (hp : ParamsValid s.self (nCols a.X)) (hd : DataValid lib.conv a s y.length) (ht : a.targetsOK = true)
    (hrefit : s.self.ovr = true → s.self.fitted = true → 2 < y.dedup.length) (hst : StrategyOK y.dedup.length s.self.strategy)
    (hdir : s.self.aggregation = true → ¬(Num.le s.self.dirichlet Num.zero = true ∧ Num.le Num.zero s.self.dirichlet = true))
    (hF : ∀ k, k < max 2 y.dedup.length → Num.toNat (Num.ofNat k : F) = k) (hconv : numOf lib.conv a.X = lib.conv.toFloat) :
    ∃ s', fitClassifier lib a y s = (.ok (), s') ∧
      ∀ (N' : Type) [DecidableEq N'] (eps : F) (n : Nat) (X1 X2 : Dataset N' V), 0 < n → GoodInput n X1 → GoodInput n X2 → AcceptedBy lib s'.self X1 →
        AcceptedBy lib s'.self X2 → numOf lib.conv X1 = numOf lib.conv X2 → X1.nFeatures = X2.nFeatures →
        SameOrBeyond s.self.maxBins s'.self.isCategorical_ (numOf lib.conv X1) lib.conv.toFloat a.nRows a.X n X1 X2 →
        s'.self.predictProba lib eps n X1 = s'.self.predictProba lib eps n X2 ∧ s'.self.predict lib eps n X1 = s'.self.predict lib eps n X2 ∧
        s'.self.predictProbaTrees lib n X1 = s'.self.predictProbaTrees lib n X2 ∧ s'.self.apply lib n X1 = s'.self.apply lib n X2 := by
  rw [← sortedUnique_length] at hrefit hst hF
  obtain ⟨e0, o, he0, hfit, hfacts⟩ := fitClassifier_ok (okW := fun _ => True) hlib hp hd ht hrefit hdir hst hF (fun _ _ => trivial)
  subst he0
  refine ⟨_, hfit, fun N' _ eps n X1 X2 hn hX1 hX2 hA1 hA2 hnum hnf hsame => ?_⟩
  obtain ⟨b1, b2, e1, e2, hb⟩ := hfacts.same_beyond hlib hd.rows.2 hd.rows.1 hd.good (.classifier lib.rng _ _ _ hlib.argsort (strategy_tree hst _)) o hconv
    N' n X1 X2 hn hX1 hX2 hA1 hA2 hnum hsame
  have hproba : o.est.predictProba lib eps n X1 = o.est.predictProba lib eps n X2 := by
    unfold Est.predictProba
    rw [e1, e2, bind_ok, bind_ok, hb.ovr, hb.proba]
  refine ⟨hproba, by simp only [Est.predict, hproba], ?_, ?_⟩
  · unfold Est.predictProbaTrees Est.checkNFeatures
    rw [hnf, e1, e2, bind_ok, bind_ok]
    congr 1
    funext _
    exact mapM_congr_mem fun o ho => by rw [hb.predict ho]
  · unfold Est.apply
    rw [e1, e2, bind_ok, bind_ok]
    exact mapM_congr_mem fun o ho => treeApply_tested (hb.2 o ho).1 hb.1 (hb.2 o ho).2

/-- **C96** Regressor, with the weighted depths. Missing: as for the classifier. -/
theorem C96_regressor_partial {lib : Lib V K F G W} {a : FitArgs N V} {y : List F} {s : World L V K F F G W}
    (hlib : LibOK lib a.nRows) (hp : ParamsValid s.self (nCols a.X)) (hd : DataValid lib.conv a s y.length) (hconv : numOf lib.conv a.X = lib.conv.toFloat) :
    ∃ s', fitRegressor lib a y s = (.ok (), s') ∧
      ∀ (N' : Type) [DecidableEq N'] (n : Nat) (X1 X2 : Dataset N' V), 0 < n → GoodInput n X1 → GoodInput n X2 → AcceptedBy lib s'.self X1 →
        AcceptedBy lib s'.self X2 → numOf lib.conv X1 = numOf lib.conv X2 →
        SameOrBeyond s.self.maxBins s'.self.isCategorical_ (numOf lib.conv X1) lib.conv.toFloat a.nRows a.X n X1 X2 →
        s'.self.predictReg lib n X1 = s'.self.predictReg lib n X2 ∧ s'.self.apply lib n X1 = s'.self.apply lib n X2 ∧
        s'.self.weightedDepth lib n X1 = s'.self.weightedDepth lib n X2 := by
  obtain ⟨e0, o, he0, hfit, hfacts⟩ := fitRegressor_ok hlib hp hd
  subst he0
  refine ⟨_, hfit, fun N' _ n X1 X2 hn hX1 hX2 hA1 hA2 hnum hsame => ?_⟩
  obtain ⟨b1, b2, e1, e2, hb⟩ := hfacts.same_beyond hlib hd.rows.2 hd.rows.1 hd.good (.regressor hlib.argsort) o hconv
    N' n X1 X2 hn hX1 hX2 hA1 hA2 hnum hsame
  refine ⟨?_, ?_, ?_⟩
  · unfold Est.predictReg
    rw [e1, e2, bind_ok, bind_ok, hb.reg]
  · unfold Est.apply
    rw [e1, e2, bind_ok, bind_ok]
    exact mapM_congr_mem fun o ho => treeApply_tested (hb.2 o ho).1 hb.1 (hb.2 o ho).2
  · unfold Est.weightedDepth
    rw [e1, e2, bind_ok, bind_ok]
    exact mapM_congr_mem fun o ho => weightedDepth_tested (hb.2 o ho).1 hb.1 (hb.2 o ho).2

end

section
attribute [local instance] ratNum

/-- A column of numbers with a missing cell whose largest number is frequent. -/
def tiedX : Dataset String Nat :=
  .frame [("a", { kind := .uif, cells := [some 1, some 2, some 3, some 4, some 9, some 9, some 9, some 9, some 9, none] })]

/-- Two rows to predict: the largest number, and one beyond it. -/
def tiedTest : Dataset String Nat := .frame [("a", { kind := .uif, cells := [some 9, some 10] })]

/-- A regressor with one tree and three bins. -/
def tiedWorld : World Nat Nat ℚ ℚ ℚ Nat Nat := { ratWorldReg with self := { ratWorldReg.self with maxBins := 3 } }

/-- External code; the bootstrap leaves out row 8. -/
def tiedLib : Lib Nat ℚ ℚ Nat Nat := ratLib fun _ => [0, 1, 2, 3, 4, 5, 6, 7, 9, 9]

def tiedArgs : FitArgs String Nat := ⟨tiedX, 10, none, .none, false, true⟩

theorem tied_thresholds : encoderFit tiedLib.conv (tiedWorld.self.encCfg tiedLib 10 none) none tiedX = .ok [.num [7 / 2, 9]] := by
  have hs : sortAsc [1, 2, 3, 4, 9, 9, 9, 9, (9 : ℚ)] = [1, 2, 3, 4, 9, 9, 9, 9, 9] :=
    (sortAsc_perm _).eq_of_pairwise' (sortAsc_sorted _) (by decide +kernel)
  have hu : ¬(npUnique [1, 2, 3, 4, 9, 9, 9, 9, (9 : ℚ)]).length ≤ 3 := by
    rw [npUnique_length]
    decide +kernel
  have ht : findBinningThresholds (1000 : ℚ) [some 1, some 2, some 3, some 4, some 9, some 9, some 9, some 9, some 9, none] 3 = .ok [7 / 2, 9] := by
    unfold findBinningThresholds
    simp only [List.filterMap_cons, id, List.filterMap_nil]
    rw [if_neg hu, hs]
    decide +kernel
  simp [encoderFit, fitDataFrame, tiedX, tiedWorld, ratWorldReg, Est.encCfg, CatMin.value, fitSeries, declared, isSeriesCategorical, takeSubset, toFloats, tiedLib, ratLib,
    exConv]
  rw [ht]
  rfl

theorem tied_fit : ∃ o : Outcome tiedLib tiedArgs ⟨fun _ => regressorTask tiedLib.argsort, false, [[0, 0, 0, 0, 0, 0, 0, 0, 0, 1]], [List.replicate 10 1]⟩ tiedWorld.self 0,
    o.est.predictReg tiedLib 2 tiedTest = .ok [0, 1] := by
  let p : FitData ℚ (ℚ × ℚ) ℚ Nat := ⟨fun _ => regressorTask tiedLib.argsort, false, [[0, 0, 0, 0, 0, 0, 0, 0, 0, 1]], [List.replicate 10 1]⟩
  let cfg := tiedWorld.self.encCfg tiedLib 10 none
  have hfba : (encoderTransform tiedLib.conv cfg [.num [7 / 2, 9]] tiedLib.words 10 tiedX).toBool = true := by decide +kernel
  have htr : (encoderTransform tiedLib.conv cfg [.num [7 / 2, 9]] tiedLib.words 10 tiedX >>= fun fba =>
    growTrees tiedLib 10 p tiedWorld.self 1 [false] fba [7] [1] >>= fun trees =>
    encoderTransform tiedLib.conv cfg [.num [7 / 2, 9]] tiedLib.words 2 tiedTest >>= fun b => forestPredict trees b) = .ok [0, 1] := by decide +kernel
  rw [bind_eq_ok] at htr
  obtain ⟨fba, h1, htr⟩ := htr
  rw [bind_eq_ok] at htr
  obtain ⟨trees, h2, h3⟩ := htr
  exact ⟨⟨1, none, [.num [7 / 2, 9]], fba, trees, by decide +kernel, ⟨_, rfl⟩, rfl, by decide +kernel, tied_thresholds, h1, h2⟩, h3⟩

/-- **C96** is violated for the largest number of a column with missing cells: the numbers 9 (the largest of the training data) and 10 have the predictions 0 and 1, because
10 is treated like a missing cell. The arithmetic is exact here. -/
theorem C96_violated : ∃ s', fitRegressor tiedLib tiedArgs [0, 0, 0, 0, 0, 0, 0, 0, 0, 1] tiedWorld = (.ok (), s') ∧
    s'.self.predictReg tiedLib 2 tiedTest = .ok [0, 1] := by
  obtain ⟨o, ho⟩ := tied_fit
  refine ⟨{ tiedWorld with self := o.est, np := npAfter tiedLib tiedArgs tiedWorld.self 0 }, ?_, ho⟩
  unfold fitRegressor
  rw [Py.bind_of_ok (fitChecks_ok (a := tiedArgs) (k := [0, 0, 0, 0, 0, 0, 0, 0, 0, (1 : ℚ)].length) rfl (fun h => absurd rfl h))]
  exact fitRest_ok (s := tiedWorld) o

end

/-- Rows to predict: the smallest and the largest number of the training data `estX`, and a category. -/
def estEdge : Dataset String Nat :=
  .frame [("a", { kind := .uif, cells := [some 0, some 5, some 3] }), ("b", { kind := .bOSU, cells := [some 2, some 1, some 0] })]

/-- The same rows with a number beyond the largest one. -/
def estFar : Dataset String Nat :=
  .frame [("a", { kind := .uif, cells := [some 0, some 70, some 3] }), ("b", { kind := .bOSU, cells := [some 2, some 1, some 0] })]

theorem estEdge_good : GoodInput 3 estEdge := by
  refine ⟨by decide, ?_⟩
  intro p hp
  simp at hp
  rcases hp with rfl | rfl <;> simp [GoodSeries]

theorem estFar_good : GoodInput 3 estFar := by
  refine ⟨by decide, ?_⟩
  intro p hp
  simp at hp
  rcases hp with rfl | rfl <;> simp [GoodSeries]

theorem est_accepts {Y P : Type} {a : FitArgs String Nat} {p : FitData ℝ Y P Nat} {e : Est Nat Nat ℚ ℝ P Nat} {np : Nat} (o : Outcome estLib a p e np)
    {lab : ℝ → Prop} {okW : List ℝ → Prop} (h : FitFacts estLib a p lab okW e o.est) (hu : e.handleUnknownError = false) {X : List (String × Series Nat)}
    (hX : X.length = nCols a.X) : AcceptedBy estLib o.est (.frame X : Dataset String Nat) := by
  obtain ⟨cfg, enc, h1, -, -, -, h2, -, -⟩ := h.encoder
  have h1' := h1
  simp only [Outcome.est, Option.some.injEq, Prod.mk.injEq] at h1'
  refine ⟨cfg, enc, h1, hX.trans h2.symm, fun i j v thr _ _ => by simp [numOf, estLib, exConv], fun hcon => ?_⟩
  rw [← h1'.1] at hcon
  exact absurd (hu.symm.trans hcon) (by simp)

theorem est_beyond {isCat : List Bool} (h : isCat[0]? = some false) : SameOrBeyond 5 isCat (numOf estLib.conv estEdge) estLib.conv.toFloat 6 estX 3 estEdge estFar := by
  intro i hi j
  match j with
  | 0 =>
    match i, hi with
    | 0, _ => exact .inl rfl
    | 2, _ => exact .inl rfl
    | 1, _ =>
      right
      have hmax : ∀ v, 5 ≤ v → Compares (· ≥ ·) (numOf estLib.conv estEdge) estLib.conv.toFloat estX 6 0 v := by
        intro v hv x hx r hr w y hw hy
        cases hx
        cases hy
        have hw5 : w ≤ 5 := by
          have h6 : ∀ r < 6, cell estX r 0 = some (some r) := by decide
          rw [h6 r hr] at hw
          cases hw
          omega
        exact Nat.cast_le.2 (hw5.trans hv)
      refine ⟨some 5, some 70, rfl, rfl, h, .inr (.inl ⟨?_, fun v hv => ?_, fun v hv => ?_⟩)⟩
      · rintro ⟨r, hr, hc⟩
        have : ∀ r < 6, cell estX r 0 ≠ some none := by decide
        exact this r hr hc
      · cases hv; exact hmax 5 le_rfl
      · cases hv; exact hmax 70 (by norm_num)
  | 1 =>
    match i, hi with
    | 0, _ => exact .inl rfl
    | 1, _ => exact .inl rfl
    | 2, _ => exact .inl rfl
  | j + 2 => exact .inl rfl

/-- A regressor: 70 has the same prediction as 5, the largest number of the training data. -/
example : ∃ s' p, fitRegressor estLib (estArgs none false) realY (estWorld _ false false .none 0) = (.ok (), s') ∧
    s'.self.predictReg estLib 3 estEdge = .ok p ∧ s'.self.predictReg estLib 3 estFar = .ok p ∧ p.length = 3 := by
  have hd := estData_valid (P := ℝ) (ovr := false) (balanced := false) (cf := .none) (np := 0) none false
  have hlib : LibOK estLib (estArgs none false).nRows := estLib_ok (n := 6) (by norm_num)
  obtain ⟨s', h, hc⟩ := estX_regressor
  obtain ⟨e0, o, he0, h1, hf⟩ := fitRegressor_ok (y := realY) hlib (estToy_valid _) hd
  obtain ⟨s2, h2, h3⟩ := C96_regressor_partial (y := realY) hlib (estToy_valid _) hd rfl
  obtain ⟨-, rfl⟩ := Prod.mk.inj (h.symm.trans h2)
  obtain ⟨-, hs⟩ := Prod.mk.inj (h.symm.trans h1)
  have hs : s'.self = o.est := by rw [hs]
  have hu : e0.handleUnknownError = false := by rw [he0]; rfl
  have hA1 : AcceptedBy estLib s'.self estEdge := hs ▸ est_accepts o hf hu rfl
  have hA2 : AcceptedBy estLib s'.self estFar := hs ▸ est_accepts o hf hu rfl
  have heq := (h3 String 3 estEdge estFar (by norm_num) estEdge_good estFar_good hA1 hA2 rfl (est_beyond hc)).1
  obtain ⟨s3, g1, -, -, g4⟩ := C54_regressor (lo := -100) (hi := 100) hlib (estToy_valid _) hd (y := realY) rfl realW_pos (by
    intro v hv
    simp only [realY, List.mem_cons, List.not_mem_nil, or_false] at hv
    rcases hv with rfl | rfl | rfl | rfl | rfl | rfl <;> norm_num)
  obtain ⟨-, rfl⟩ := Prod.mk.inj (h.symm.trans g1)
  obtain ⟨p, k1, k2, -⟩ := g4 String 3 estEdge (by norm_num) estEdge_good hA1
  exact ⟨s', p, h, k1, heq ▸ k1, k2⟩

/-- A classifier: 70 has the same label as 5. -/
example : ∃ s' l, fitClassifier estLib (estArgs (some true) true) [3, 3, 5, 5, 8, 8] (estWorld _ true true .none 0) = (.ok (), s') ∧
    s'.self.predict estLib (1 / 1000) 3 estEdge = .ok l ∧ s'.self.predict estLib (1 / 1000) 3 estFar = .ok l ∧ l.length = 3 := by
  have hd := estData_valid (P := List ℝ) (ovr := true) (balanced := true) (cf := .none) (np := 0) (some true) true
  have hlib : LibOK estLib (estArgs (some true) true).nRows := estLib_ok (n := 6) (by norm_num)
  obtain ⟨s', h, hc⟩ := estX_classifier
  obtain ⟨s2, h2, h3⟩ := C96_classifier_partial hlib (estToy_valid _) hd (y := [3, 3, 5, 5, 8, 8]) rfl (fun _ h => by cases h) est_strategy
    (by intro _; norm_num [estWorld, estToy, Num.le, Num.zero]) (fun k _ => by simp [Num.toNat, Num.ofNat]) rfl
  obtain ⟨e0, o, he0, h1, hf⟩ := fitClassifier_ok (okW := fun _ => True) (y := [3, 3, 5, 5, 8, 8]) hlib (estToy_valid _) hd rfl (fun _ h => by cases h)
    (by intro _; norm_num [estWorld, estToy, Num.le, Num.zero]) (by rw [sortedUnique_length]; exact est_strategy)
    (fun k _ => by simp [Num.toNat, Num.ofNat]) (fun _ _ => trivial)
  obtain ⟨-, rfl⟩ := Prod.mk.inj (h.symm.trans h2)
  obtain ⟨-, hs⟩ := Prod.mk.inj (h.symm.trans h1)
  have hs : s'.self = o.est := by rw [hs]
  have hu : e0.handleUnknownError = false := by rw [he0]; rfl
  have hA1 : AcceptedBy estLib s'.self estEdge := hs ▸ est_accepts o hf hu rfl
  have hA2 : AcceptedBy estLib s'.self estFar := hs ▸ est_accepts o hf hu rfl
  have heq := (h3 String (1 / 1000) 3 estEdge estFar (by norm_num) estEdge_good estFar_good hA1 hA2 rfl rfl (est_beyond hc)).2.1
  obtain ⟨s3, g1, -, -, -, g4⟩ := C54_classifier (eps := 1 / 1000) (by norm_num) hlib (estToy_valid _) hd (y := [3, 3, 5, 5, 8, 8]) rfl (fun _ h => by cases h)
    est_strategy (by norm_num [estWorld, estToy]) (fun _ => by norm_num [estWorld, estToy]) (fun w h => (realW_pos w h).le) (.inr realW_pos)
  obtain ⟨-, rfl⟩ := Prod.mk.inj (h.symm.trans g1)
  obtain ⟨p, l, -, -, -, k2, k5, -⟩ := g4 String 3 estEdge (by norm_num) estEdge_good hA1
  exact ⟨s', l, h, k2, heq ▸ k2, k5⟩

end Verif
