import Verif.Proofs.Unknown
import Verif.Props.Beyond

/-! # C101: categories that are not in the training data -/
set_option linter.unusedSectionVars false
namespace Verif

open Spec

section
variable {L V K F G W N : Type} [LinearOrder L] [DecidableEq V] [DecidableEq N] [LinearOrder K] [Field K] [IsStrictOrderedRing K] [FloorSemiring K] [Num F]

/-- **C101** Classifier, in any float arithmetic: replacing cells of a categorical column that are missing or unknown by each other, or cells that are not in the training
data by each other, changes no prediction and no leaf. -/
theorem C101_classifier {lib : Lib V K F G W} {a : FitArgs N V} {y : List L} {s : World L V K F (List F) G W}
    (hlib : LibOK lib a.nRows) (hp : ParamsValid s.self (nCols a.X)) (hd : DataValid lib.conv a s y.length) (ht : a.targetsOK = true)
    (hrefit : s.self.ovr = true → s.self.fitted = true → 2 < y.dedup.length) (hst : StrategyOK y.dedup.length s.self.strategy)
    (hdir : s.self.aggregation = true → ¬(Num.le s.self.dirichlet Num.zero = true ∧ Num.le Num.zero s.self.dirichlet = true))
    (hF : ∀ k, k < max 2 y.dedup.length → Num.toNat (Num.ofNat k : F) = k) :
    ∃ s', fitClassifier lib a y s = (.ok (), s') ∧
      ∀ (N' : Type) [DecidableEq N'] (eps : F) (n : Nat) (X1 X2 : Dataset N' V), 0 < n → GoodInput n X1 → GoodInput n X2 → AcceptedBy lib s'.self X1 →
        AcceptedBy lib s'.self X2 → numOf lib.conv X1 = numOf lib.conv X2 → X1.nFeatures = X2.nFeatures →
        SameOrUnseen s'.self.isCategorical_ a.nRows a.X n X1 X2 →
        s'.self.predictProba lib eps n X1 = s'.self.predictProba lib eps n X2 ∧ s'.self.predict lib eps n X1 = s'.self.predict lib eps n X2 ∧
        s'.self.predictProbaTrees lib n X1 = s'.self.predictProbaTrees lib n X2 ∧ s'.self.apply lib n X1 = s'.self.apply lib n X2 := by
  rw [← sortedUnique_length] at hrefit hst hF
  obtain ⟨e0, o, he0, hfit, hfacts⟩ := fitClassifier_ok (okW := fun _ => True) hlib hp hd ht hrefit hdir hst hF (fun _ _ => trivial)
  subst he0
  refine ⟨_, hfit, fun N' _ eps n X1 X2 hn hX1 hX2 hA1 hA2 hnum hnf hsame => ?_⟩
  obtain ⟨b1, b2, e1, e2, hb⟩ := hfacts.same_unseen hlib hd.rows.2 hd.rows.1 hd.good (.classifier lib.rng _ _ _ hlib.argsort (strategy_tree hst _)) o
    N' n X1 X2 hn hX1 hX2 hA1 hA2 hnum hsame
  have hproba : o.est.predictProba lib eps n X1 = o.est.predictProba lib eps n X2 := by
    unfold Est.predictProba
    rw [e1, e2, bind_ok, bind_ok, hb.ovr, hb.proba]
  refine ⟨hproba, by simp only [Est.predict, hproba], ?_, ?_⟩
  · unfold Est.predictProbaTrees Est.checkNFeatures
    rw [hnf, e1, e2, bind_ok, bind_ok]
    congr 1
    funext _
    exact mapM_congr_mem fun o ho => by rw [hb.predict ho]
  · unfold Est.apply
    rw [e1, e2, bind_ok, bind_ok]
    exact mapM_congr_mem fun o ho => treeApply_tested (hb.2 o ho).1 hb.1 (hb.2 o ho).2

/-- **C101** Regressor, with the weighted depths. -/
theorem C101_regressor {lib : Lib V K F G W} {a : FitArgs N V} {y : List F} {s : World L V K F F G W}
    (hlib : LibOK lib a.nRows) (hp : ParamsValid s.self (nCols a.X)) (hd : DataValid lib.conv a s y.length) :
    ∃ s', fitRegressor lib a y s = (.ok (), s') ∧
      ∀ (N' : Type) [DecidableEq N'] (n : Nat) (X1 X2 : Dataset N' V), 0 < n → GoodInput n X1 → GoodInput n X2 → AcceptedBy lib s'.self X1 →
        AcceptedBy lib s'.self X2 → numOf lib.conv X1 = numOf lib.conv X2 → SameOrUnseen s'.self.isCategorical_ a.nRows a.X n X1 X2 →
        s'.self.predictReg lib n X1 = s'.self.predictReg lib n X2 ∧ s'.self.apply lib n X1 = s'.self.apply lib n X2 ∧
        s'.self.weightedDepth lib n X1 = s'.self.weightedDepth lib n X2 := by
  obtain ⟨e0, o, he0, hfit, hfacts⟩ := fitRegressor_ok hlib hp hd
  subst he0
  refine ⟨_, hfit, fun N' _ n X1 X2 hn hX1 hX2 hA1 hA2 hnum hsame => ?_⟩
  obtain ⟨b1, b2, e1, e2, hb⟩ := hfacts.same_unseen hlib hd.rows.2 hd.rows.1 hd.good (.regressor hlib.argsort) o N' n X1 X2 hn hX1 hX2 hA1 hA2 hnum hsame
  refine ⟨?_, ?_, ?_⟩
  · unfold Est.predictReg
    rw [e1, e2, bind_ok, bind_ok, hb.reg]
  · unfold Est.apply
    rw [e1, e2, bind_ok, bind_ok]
    exact mapM_congr_mem fun o ho => treeApply_tested (hb.2 o ho).1 hb.1 (hb.2 o ho).2
  · unfold Est.weightedDepth
    rw [e1, e2, bind_ok, bind_ok]
    exact mapM_congr_mem fun o ho => weightedDepth_tested (hb.2 o ho).1 hb.1 (hb.2 o ho).2

end

/-- Training data with a category dtype that lists two categories which no row has. -/
def unkX : Dataset String Nat :=
  .frame [("a", { kind := .uif, cells := [some 0, some 1, some 2, some 3, some 4, some 5] }),
    ("b", { kind := .category, cells := [some 2, some 0, some 1, some 2, some 1, some 0], dtypeCats := [0, 1, 2, 3, 4] })]

/-- The arguments of `fit`; column 1 is declared categorical. -/
def unkArgs : FitArgs String Nat := ⟨unkX, 6, none, .ints [1], false, true⟩

/-- Three rows: a listed category that no row has, a missing cell, an unknown category. -/
def unkTest1 : Dataset String Nat :=
  .frame [("a", { kind := .uif, cells := [some 0, some 5, some 3] }), ("b", { kind := .bOSU, cells := [some 3, none, some 9] })]

/-- The same rows with other cells that no row of the training data has. -/
def unkTest2 : Dataset String Nat :=
  .frame [("a", { kind := .uif, cells := [some 0, some 5, some 3] }), ("b", { kind := .bOSU, cells := [some 9, some 4, some 3] })]

theorem unkData_valid {P : Type} (s : World Nat Nat ℚ ℝ P Nat Nat) : DataValid estLib.conv unkArgs s 6 where
  rows := by simp [unkArgs]
  labels := rfl
  columns := by simp [unkArgs, unkX, nCols]
  weights h := absurd rfl h
  good := by
    refine ⟨by decide, ?_⟩
    intro p hp
    simp at hp
    rcases hp with rfl | rfl <;> simp [GoodSeries, unkArgs]
  small := by
    intro p hp
    simp at hp
    rcases hp with rfl | rfl <;> simp
  fittable := by
    refine ⟨some [false, true], rfl, ?_⟩
    intro p hp
    simp at hp
    rcases hp with rfl | rfl <;> simp [estLib, exConv]

theorem unkTest1_good : GoodInput 3 unkTest1 := by
  refine ⟨by decide, ?_⟩
  intro p hp
  simp at hp
  rcases hp with rfl | rfl <;> simp [GoodSeries]

theorem unkTest2_good : GoodInput 3 unkTest2 := by
  refine ⟨by decide, ?_⟩
  intro p hp
  simp at hp
  rcases hp with rfl | rfl <;> simp [GoodSeries]

theorem unk_same {isCat : List Bool} (h : isCat[1]? = some true) : SameOrUnseen isCat 6 unkX 3 unkTest1 unkTest2 := by
  have h6 : ∀ r < 6, ∀ c, cell unkX r 1 = some c → c = some 0 ∨ c = some 1 ∨ c = some 2 := by
    intro r hr c hc
    interval_cases r <;> (cases hc; simp)
  have hno : ¬HasMissing unkX 6 1 := by
    rintro ⟨r, hr, hc⟩
    rcases h6 r hr _ hc with h | h | h <;> cases h
  have hocc : ∀ v, 3 ≤ v → ¬Occurs unkX 6 1 v := by
    rintro v hv ⟨r, hr, hc⟩
    rcases h6 r hr _ hc with h | h | h <;> cases h <;> omega
  have hlist : ∀ v, v = 3 ∨ v = 4 → Unseen unkX 6 1 (some v) := by
    intro v hv
    refine .inl ⟨v, rfl, ⟨_, rfl, rfl, ?_⟩, hocc v (by omega)⟩
    rcases hv with rfl | rfl <;> simp
  have hmiss : Unseen unkX 6 1 none := .inr ⟨(fun v hv => by cases hv), hno⟩
  have hunk : Unseen unkX 6 1 (some 9) := by
    refine .inr ⟨fun v hv => ?_, hno⟩
    cases hv
    refine ⟨hocc 9 (by omega), ?_⟩
    rintro ⟨p, hp, -, hv⟩
    cases hp
    simp at hv
  intro i hi j
  match j with
  | 0 => exact .inl rfl
  | 1 =>
    match i, hi with
    | 0, _ => exact .inr ⟨_, _, rfl, rfl, h, .inr ⟨hlist 3 (.inl rfl), hunk⟩⟩
    | 1, _ => exact .inr ⟨_, _, rfl, rfl, h, .inr ⟨hmiss, hlist 4 (.inr rfl)⟩⟩
    | 2, _ => exact .inr ⟨_, _, rfl, rfl, h, .inr ⟨hunk, hlist 3 (.inl rfl)⟩⟩
  | j + 2 => exact .inl rfl

/-- A regressor gives the same predictions for the two tables. -/
example : ∃ s' p, fitRegressor estLib unkArgs realY (estWorld _ false false .none 0) = (.ok (), s') ∧
    s'.self.predictReg estLib 3 unkTest1 = .ok p ∧ s'.self.predictReg estLib 3 unkTest2 = .ok p ∧ p.length = 3 := by
  have hd := unkData_valid (estWorld ℝ false false .none 0)
  have hlib : LibOK estLib unkArgs.nRows := estLib_ok (n := 6) (by norm_num)
  obtain ⟨e0, o, he0, h1, hf⟩ := fitRegressor_ok (y := realY) hlib (estToy_valid _) hd
  obtain ⟨s', h2, h3⟩ := C101_regressor (y := realY) hlib (estToy_valid _) hd
  obtain ⟨-, hs⟩ := Prod.mk.inj (h2.symm.trans h1)
  have hs : s'.self = o.est := by rw [hs]
  have hc := (C44_fit_argument_partial (lib := estLib) (a := unkArgs) (j := 1) (by simp [Selects, unkArgs])).2 _ _ _ h2
  have hu : e0.handleUnknownError = false := by rw [he0]; rfl
  have hA1 : AcceptedBy estLib s'.self unkTest1 := hs ▸ est_accepts o hf hu rfl
  have hA2 : AcceptedBy estLib s'.self unkTest2 := hs ▸ est_accepts o hf hu rfl
  have heq := (h3 String 3 unkTest1 unkTest2 (by norm_num) unkTest1_good unkTest2_good hA1 hA2 rfl (unk_same hc)).1
  obtain ⟨s3, g1, -, -, g4⟩ := C54_regressor (lo := -100) (hi := 100) hlib (estToy_valid _) hd (y := realY) rfl realW_pos (by
    intro v hv
    simp only [realY, List.mem_cons, List.not_mem_nil, or_false] at hv
    rcases hv with rfl | rfl | rfl | rfl | rfl | rfl <;> norm_num)
  obtain ⟨-, rfl⟩ := Prod.mk.inj (h2.symm.trans g1)
  obtain ⟨p, k1, k2, -⟩ := g4 String 3 unkTest1 (by norm_num) unkTest1_good hA1
  exact ⟨s', p, h2, k1, heq ▸ k1, k2⟩

/-- The training data of the other examples have a missing category in column 1: there a missing cell and an unknown category are the same. -/
example {isCat : List Bool} (h : isCat[1]? = some true) : SameOrUnseen isCat 6 estX 1
    (.frame [("a", { kind := .uif, cells := [some 0] }), ("b", { kind := .bOSU, cells := [none] })] : Dataset String Nat)
    (.frame [("a", { kind := .uif, cells := [some 0] }), ("b", { kind := .bOSU, cells := [some 9] })] : Dataset String Nat) := by
  intro i hi j
  have hi : i = 0 := by omega
  subst hi
  match j with
  | 0 => exact .inl rfl
  | 1 =>
    refine .inr ⟨_, _, rfl, rfl, h, .inl ⟨(fun v hv => by cases hv), fun v hv => ?_⟩⟩
    cases hv
    constructor
    · rintro ⟨r, hr, hc⟩
      have : ∀ r < 6, cell estX r 1 ≠ some (some 9) := by decide
      exact this r hr hc
    · rintro ⟨p, hp, hk, -⟩
      cases hp
      cases hk
  | j + 2 => exact .inl rfl

/-- A classifier gives the same labels for the two tables. -/
example : ∃ s' l, fitClassifier estLib unkArgs [3, 3, 5, 5, 8, 8] (estWorld _ true true .none 0) = (.ok (), s') ∧
    s'.self.predict estLib (1 / 1000) 3 unkTest1 = .ok l ∧ s'.self.predict estLib (1 / 1000) 3 unkTest2 = .ok l ∧ l.length = 3 := by
  have hd := unkData_valid (estWorld (List ℝ) true true .none 0)
  have hlib : LibOK estLib unkArgs.nRows := estLib_ok (n := 6) (by norm_num)
  obtain ⟨s', h2, h3⟩ := C101_classifier hlib (estToy_valid _) hd (y := [3, 3, 5, 5, 8, 8]) rfl (fun _ h => by cases h) est_strategy
    (by intro _; norm_num [estWorld, estToy, Num.le, Num.zero]) (fun k _ => by simp [Num.toNat, Num.ofNat])
  obtain ⟨e0, o, he0, h1, hf⟩ := fitClassifier_ok (okW := fun _ => True) (y := [3, 3, 5, 5, 8, 8]) hlib (estToy_valid _) hd rfl (fun _ h => by cases h)
    (by intro _; norm_num [estWorld, estToy, Num.le, Num.zero]) (by rw [sortedUnique_length]; exact est_strategy)
    (fun k _ => by simp [Num.toNat, Num.ofNat]) (fun _ _ => trivial)
  obtain ⟨-, hs⟩ := Prod.mk.inj (h2.symm.trans h1)
  have hs : s'.self = o.est := by rw [hs]
  have hc := (C44_fit_argument_partial (lib := estLib) (a := unkArgs) (j := 1) (by simp [Selects, unkArgs])).1 _ _ _ h2
  have hu : e0.handleUnknownError = false := by rw [he0]; rfl
  have hA1 : AcceptedBy estLib s'.self unkTest1 := hs ▸ est_accepts o hf hu rfl
  have hA2 : AcceptedBy estLib s'.self unkTest2 := hs ▸ est_accepts o hf hu rfl
  have heq := (h3 String (1 / 1000) 3 unkTest1 unkTest2 (by norm_num) unkTest1_good unkTest2_good hA1 hA2 rfl rfl (unk_same hc)).2.1
  obtain ⟨s3, g1, -, -, -, g4⟩ := C54_classifier (eps := 1 / 1000) (by norm_num) hlib (estToy_valid _) hd (y := [3, 3, 5, 5, 8, 8]) rfl (fun _ h => by cases h)
    est_strategy (by norm_num [estWorld, estToy]) (fun _ => by norm_num [estWorld, estToy]) (fun w h => (realW_pos w h).le) (.inr realW_pos)
  obtain ⟨-, rfl⟩ := Prod.mk.inj (h2.symm.trans g1)
  obtain ⟨p, l, -, -, -, k2, k5, -⟩ := g4 String 3 unkTest1 (by norm_num) unkTest1_good hA1
  exact ⟨s', l, h2, k2, heq ▸ k2, k5⟩

end Verif
