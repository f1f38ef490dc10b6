import Verif.Proofs.Constant
import Verif.Props.Greedy
import Verif.Props.Estimator

/-! # C80: a column that is constant in the training data is ignored -/
set_option linter.unusedSectionVars false
namespace Verif

open Spec

section
variable {L V K F G W N : Type} [LinearOrder L] [DecidableEq V] [DecidableEq N] [LinearOrder K] [Field K] [IsStrictOrderedRing K] [FloorSemiring K] [Num F]

/-- **C80** Classifier, in any float arithmetic: a tree tests only columns in which the rows drawn by its bootstrap have different cells. So two datasets
whose cells agree in all columns that vary in the training data have the same probabilities, labels, probabilities per tree and leaves. (That these calls succeed is
C54 and C60.) -/
theorem C80_classifier {lib : Lib V K F G W} {a : FitArgs N V} {y : List L} {s : World L V K F (List F) G W}
    (hlib : LibOK lib a.nRows) (hp : ParamsValid s.self (nCols a.X)) (hd : DataValid lib.conv a s y.length) (ht : a.targetsOK = true)
    (hrefit : s.self.ovr = true → s.self.fitted = true → 2 < y.dedup.length) (hst : StrategyOK y.dedup.length s.self.strategy)
    (hdir : s.self.aggregation = true → ¬(Num.le s.self.dirichlet Num.zero = true ∧ Num.le Num.zero s.self.dirichlet = true))
    (hF : ∀ k, k < max 2 y.dedup.length → Num.toNat (Num.ofNat k : F) = k) (hleaf : 1 ≤ s.self.minLeaf) :
    ∃ s', fitClassifier lib a y s = (.ok (), s') ∧
      (∀ (t : Nat) (o : TreeObj F (List F) G), s'.self.trees[t]? = some o → ∃ seed draws, s'.self.seeds[t]? = some seed ∧
        BootstrapOf (lib.boot a.nRows) a.nRows seed draws ∧ ∀ k n f, NodeAt o.arr k n → n.isLeaf = false → n.feature = some f →
          ColumnVaries a.X ((List.range a.nRows).filter fun i => decide (i ∈ draws)) f) ∧
      ∀ (N' : Type) [DecidableEq N'] (eps : F) (n : Nat) (X1 X2 : Dataset N' V), 0 < n → GoodInput n X1 → GoodInput n X2 → AcceptedBy lib s'.self X1 →
        AcceptedBy lib s'.self X2 → numOf lib.conv X1 = numOf lib.conv X2 → X1.nFeatures = X2.nFeatures → SameWhereVarying a.nRows a.X n X1 X2 →
        s'.self.predictProba lib eps n X1 = s'.self.predictProba lib eps n X2 ∧ s'.self.predict lib eps n X1 = s'.self.predict lib eps n X2 ∧
        s'.self.predictProbaTrees lib n X1 = s'.self.predictProbaTrees lib n X2 ∧ s'.self.apply lib n X1 = s'.self.apply lib n X2 := by
  obtain ⟨s', hfit, hlim, -⟩ := C70_limits_classifier hlib hp hd ht hrefit hst hdir hF
  rw [← sortedUnique_length] at hrefit hst hF
  obtain ⟨e0, o, he0, hfit', hfacts⟩ := fitClassifier_ok (okW := fun _ => True) hlib hp hd ht hrefit hdir hst hF (fun _ _ => trivial)
  have hs := (Prod.mk.inj (hfit.symm.trans hfit')).2
  rw [show o.est = s'.self by rw [hs]] at hfacts
  obtain ⟨h1, h2⟩ := hfacts.same_tested hd.rows.1 hd.good hlim hleaf
  refine ⟨s', hfit, h1, fun N' _ eps n X1 X2 hn hX1 hX2 hA1 hA2 hnum hnf hsame => ?_⟩
  obtain ⟨b1, b2, e1, e2, hb⟩ := h2 N' n X1 X2 hn hX1 hX2 hA1 hA2 hnum hsame
  have hproba : s'.self.predictProba lib eps n X1 = s'.self.predictProba lib eps n X2 := by
    unfold Est.predictProba
    rw [e1, e2, bind_ok, bind_ok, hb.ovr, hb.proba]
  refine ⟨hproba, by unfold Est.predict; rw [hproba], ?_, ?_⟩
  · unfold Est.predictProbaTrees Est.checkNFeatures
    rw [hnf, e1, e2, bind_ok, bind_ok]
    congr 1
    funext _
    exact mapM_congr_mem fun o ho => by rw [hb.predict ho]
  · unfold Est.apply
    rw [e1, e2, bind_ok, bind_ok]
    exact mapM_congr_mem fun o ho => treeApply_tested (hb.2 o ho).1 hb.1 (hb.2 o ho).2

/-- **C80** Regressor, with the weighted depths. -/
theorem C80_regressor {lib : Lib V K F G W} {a : FitArgs N V} {y : List F} {s : World L V K F F G W}
    (hlib : LibOK lib a.nRows) (hp : ParamsValid s.self (nCols a.X)) (hd : DataValid lib.conv a s y.length) (ho : s.self.ovr = false) (hleaf : 1 ≤ s.self.minLeaf) :
    ∃ s', fitRegressor lib a y s = (.ok (), s') ∧
      (∀ (t : Nat) (o : TreeObj F F G), s'.self.trees[t]? = some o → ∃ seed draws, s'.self.seeds[t]? = some seed ∧
        BootstrapOf (lib.boot a.nRows) a.nRows seed draws ∧ ∀ k n f, NodeAt o.arr k n → n.isLeaf = false → n.feature = some f →
          ColumnVaries a.X ((List.range a.nRows).filter fun i => decide (i ∈ draws)) f) ∧
      ∀ (N' : Type) [DecidableEq N'] (n : Nat) (X1 X2 : Dataset N' V), 0 < n → GoodInput n X1 → GoodInput n X2 → AcceptedBy lib s'.self X1 →
        AcceptedBy lib s'.self X2 → numOf lib.conv X1 = numOf lib.conv X2 → SameWhereVarying a.nRows a.X n X1 X2 →
        s'.self.predictReg lib n X1 = s'.self.predictReg lib n X2 ∧ s'.self.apply lib n X1 = s'.self.apply lib n X2 ∧
        s'.self.weightedDepth lib n X1 = s'.self.weightedDepth lib n X2 := by
  obtain ⟨s', hfit, hlim, -⟩ := C70_limits_regressor hlib hp hd ho
  obtain ⟨e0, o, he0, hfit', hfacts⟩ := fitRegressor_ok hlib hp hd
  have hs := (Prod.mk.inj (hfit.symm.trans hfit')).2
  rw [show o.est = s'.self by rw [hs]] at hfacts
  obtain ⟨h1, h2⟩ := hfacts.same_tested hd.rows.1 hd.good hlim hleaf
  refine ⟨s', hfit, h1, fun N' _ n X1 X2 hn hX1 hX2 hA1 hA2 hnum hsame => ?_⟩
  obtain ⟨b1, b2, e1, e2, hb⟩ := h2 N' n X1 X2 hn hX1 hX2 hA1 hA2 hnum hsame
  refine ⟨?_, ?_, ?_⟩
  · unfold Est.predictReg
    rw [e1, e2, bind_ok, bind_ok, hb.reg]
  · unfold Est.apply
    rw [e1, e2, bind_ok, bind_ok]
    exact mapM_congr_mem fun o ho => treeApply_tested (hb.2 o ho).1 hb.1 (hb.2 o ho).2
  · unfold Est.weightedDepth
    rw [e1, e2, bind_ok, bind_ok]
    exact mapM_congr_mem fun o ho => weightedDepth_tested (hb.2 o ho).1 hb.1 (hb.2 o ho).2

end

/-- The second column of the training data is constant. -/
def estConst : Dataset String Nat :=
  .frame [("a", { kind := .uif, cells := [some 0, some 1, some 2, some 3, some 4, some 5] }),
          ("b", { kind := .uif, cells := [some 4, some 4, some 4, some 4, some 4, some 4] })]

/-- Data for the prediction, where cells of the second column are missing. -/
def estOther : Dataset String Nat :=
  .frame [("a", { kind := .uif, cells := [some 0, some 1, some 2, some 3, some 4, some 5] }),
          ("b", { kind := .uif, cells := [some 4, none, some 4, none, none, none] })]

/-- The arguments of `fit` with this data. -/
def estConstArgs : FitArgs String Nat := ⟨estConst, 6, none, .none, false, true⟩

theorem estConst_data {P : Type} (s : World Nat Nat ℚ ℝ P Nat Nat) : DataValid estLib.conv estConstArgs s 6 where
  rows := by simp [estConstArgs]
  labels := rfl
  columns := by simp [estConstArgs, estConst, nCols]
  weights h := absurd rfl h
  good := by
    refine ⟨by decide, ?_⟩
    intro p hp
    simp at hp
    rcases hp with rfl | rfl <;> simp [GoodSeries, estConstArgs]
  small := by
    intro p hp
    simp at hp
    rcases hp with rfl | rfl <;> simp
  fittable := by
    refine ⟨none, rfl, ?_⟩
    intro p hp
    simp at hp
    rcases hp with rfl | rfl <;> simp [estLib, exConv]

theorem estOther_good : GoodInput 6 estOther := by
  refine ⟨by decide, ?_⟩
  intro p hp
  simp at hp
  rcases hp with rfl | rfl <;> simp [GoodSeries]

theorem estOther_accepted {P L : Type} {e : Est L Nat ℚ ℝ P Nat} (h : AcceptedBy estLib e estConst) : AcceptedBy estLib e estOther := by
  obtain ⟨cfg, enc, he, h1, -, h3⟩ := h
  refine ⟨cfg, enc, he, h1, fun i j v thr _ _ => by simp [numOf, estOther, estLib, exConv], fun hu j p cs hj hcs v hv => ?_⟩
  match j, hj with
  | 0, hj =>
    injection hj with hj
    subst hj
    exact h3 hu 0 _ cs rfl hcs v hv
  | 1, hj =>
    injection hj with hj
    subst hj
    refine h3 hu 1 _ cs rfl hcs v (?_ : v ∈ ([some 4, some 4, some 4, some 4, some 4, some 4].filterMap id).dedup)
    have hv : v ∈ ([some 4, none, some 4, none, none, none].filterMap id).dedup := hv
    simpa using hv
  | j + 2, hj => cases hj

theorem estConst_same : SameWhereVarying 6 estConst 6 estConst estOther := by
  intro i hi j ⟨r, hr, r', hr', hne⟩
  match j with
  | 0 => rfl
  | 1 =>
    exfalso
    apply hne
    have : ∀ r < 6, cell estConst r 1 = some (some 4) := by decide
    rw [this r (List.mem_range.1 hr), this r' (List.mem_range.1 hr')]
  | j + 2 => rfl

/-- A classifier fitted on the data with a constant column gives the same results when cells of this column are missing. -/
example : ∃ s' p l, fitClassifier estLib estConstArgs [3, 3, 5, 5, 8, 8] (estWorld _ true false .none 0) = (.ok (), s') ∧
    s'.self.predictProba estLib (1 / 1000) 6 estConst = .ok p ∧ s'.self.predictProba estLib (1 / 1000) 6 estOther = .ok p ∧
    s'.self.predict estLib (1 / 1000) 6 estOther = .ok l ∧ p.length = 6 ∧ l.length = 6 := by
  have hlib : LibOK estLib estConstArgs.nRows := estLib_ok (n := 6) (by norm_num)
  have hd := estConst_data (estWorld (List ℝ) true false .none 0)
  obtain ⟨s', h1, -, h2⟩ := C80_classifier hlib (estToy_valid _) hd (y := [3, 3, 5, 5, 8, 8]) rfl (fun _ h => by cases h) est_strategy
    (by intro _; norm_num [estWorld, estToy, Num.le, Num.zero]) (fun k _ => by simp [Num.toNat, Num.ofNat]) (by simp [estWorld, estToy])
  obtain ⟨s1, g1, -, -, gacc, g4⟩ := C54_classifier (eps := 1 / 1000) (by norm_num) hlib (estToy_valid _) hd (y := [3, 3, 5, 5, 8, 8]) rfl (fun _ h => by cases h)
    est_strategy (by norm_num [estWorld, estToy]) (fun _ => by norm_num [estWorld, estToy]) (fun w h => (realW_pos w h).le) (.inr realW_pos)
  obtain ⟨-, rfl⟩ := Prod.mk.inj (h1.symm.trans g1)
  obtain ⟨p, l, k1, k2, -, k4, k5, -⟩ := g4 String 6 estOther (by norm_num) estOther_good (estOther_accepted gacc)
  exact ⟨s', p, l, h1, ((h2 String (1 / 1000) 6 estConst estOther (by norm_num) hd.good estOther_good gacc (estOther_accepted gacc) rfl rfl estConst_same).1).trans k1,
    k1, k4, k2, k5⟩

/-- The same for a regressor. -/
example : ∃ s' p, fitRegressor estLib estConstArgs [1, 2, 3, 4, 5, 6] (estWorld _ false false .none 0) = (.ok (), s') ∧
    s'.self.predictReg estLib 6 estConst = .ok p ∧ s'.self.predictReg estLib 6 estOther = .ok p := by
  have hlib : LibOK estLib estConstArgs.nRows := estLib_ok (n := 6) (by norm_num)
  have hd := estConst_data (estWorld ℝ false false .none 0)
  obtain ⟨s', h1, -, h2⟩ := C80_regressor hlib (estToy_valid _) hd (y := [1, 2, 3, 4, 5, 6]) rfl (by simp [estWorld, estToy])
  obtain ⟨s1, g1, -, gacc, g4⟩ := C54_regressor (lo := 1) (hi := 6) hlib (estToy_valid _) hd (y := [1, 2, 3, 4, 5, 6]) rfl realW_pos (by
    intro v hv
    simp only [List.mem_cons, List.not_mem_nil, or_false] at hv
    rcases hv with rfl | rfl | rfl | rfl | rfl | rfl <;> norm_num)
  obtain ⟨-, rfl⟩ := Prod.mk.inj (h1.symm.trans g1)
  obtain ⟨p, k1, -⟩ := g4 String 6 estOther (by norm_num) estOther_good (estOther_accepted gacc)
  exact ⟨s', p, h1, ((h2 String 6 estConst estOther (by norm_num) hd.good estOther_good gacc (estOther_accepted gacc) rfl estConst_same).1).trans k1, k1⟩

end Verif
