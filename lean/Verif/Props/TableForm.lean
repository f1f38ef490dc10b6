import Verif.Proofs.TableForm
import Verif.Proofs.EstToy
import Verif.Model.Inspect

/-! # C88: a numerical table gives the same forest as a dataframe and as an array -/
namespace Verif
open Spec
set_option linter.unusedSectionVars false

section
variable {L V K F Y P G W N : Type} [LinearOrder L] [DecidableEq V] [DecidableEq N] [LinearOrder K] [Field K] [FloorSemiring K] [Num F]

/-- **C88** (the part that holds) `fit` of a classifier on a dataframe with numerical columns does the same as on the array of its values, in any state of the classifier, with
any other arguments. Missing, see `C88_violated`: when the columns are typed automatically, columns with missing cells and exactly `cat_min_categories` distinct values. -/
theorem C88_classifier_partial {lib : Lib V K F G W} {names : List N} {cols : List (List (Option V))} (ht : IsTable lib.conv.toFloat names cols)
    (nRows : Nat) (weights : Option Bool) (cf : CatFeatures) (rd tOK : Bool) (y : List L) {s : World L V K F (List F) G W}
    (hlim : DeclaresColumns cf ∨ NoneAtLimit (s.self.catMin.value lib nRows) cols) :
    fitClassifier lib ⟨tableFrame names cols, nRows, weights, cf, rd, tOK⟩ y s = fitClassifier lib ⟨(tableArray cols : Dataset N V), nRows, weights, cf, rd, tOK⟩ y s := by
  unfold fitClassifier
  show ((fitChecks ⟨tableFrame names cols, nRows, weights, cf, rd, tOK⟩ y.length >>= _) : Py _ _) s = (fitChecks ⟨tableFrame names cols, nRows, weights, cf, rd, tOK⟩ y.length >>= _) s
  refine Py.bind_congr_ok fun sw s1 h1 => ?_
  show ((prepClassifier lib ⟨tableFrame names cols, nRows, weights, cf, rd, tOK⟩ y sw >>= _) : Py _ _) s1 =
    (prepClassifier lib ⟨tableFrame names cols, nRows, weights, cf, rd, tOK⟩ y sw >>= _) s1
  refine Py.bind_congr_ok fun p s2 h2 => ?_
  have e1 := sameHyper_of (fitChecks_keeps (hyperOf (L := L)) (⟨tableFrame names cols, nRows, weights, cf, rd, tOK⟩ : FitArgs N V) y.length (fun _ => rfl) s)
  rw [h1] at e1
  have e2 := sameHyper_of (prepClassifier_hyper lib (⟨tableFrame names cols, nRows, weights, cf, rd, tOK⟩ : FitArgs N V) y sw s1)
  rw [h2] at e2
  refine fitRest_table ht p ?_
  rw [e2.catMin, e1.catMin]
  exact hlim

/-- **C88** (the part that holds) The same for a regressor. -/
theorem C88_regressor_partial {lib : Lib V K F G W} {names : List N} {cols : List (List (Option V))} (ht : IsTable lib.conv.toFloat names cols)
    (nRows : Nat) (weights : Option Bool) (cf : CatFeatures) (rd tOK : Bool) (y : List F) {s : World L V K F F G W}
    (hlim : DeclaresColumns cf ∨ NoneAtLimit (s.self.catMin.value lib nRows) cols) :
    fitRegressor lib ⟨tableFrame names cols, nRows, weights, cf, rd, tOK⟩ y s = fitRegressor lib ⟨(tableArray cols : Dataset N V), nRows, weights, cf, rd, tOK⟩ y s := by
  unfold fitRegressor
  show ((fitChecks ⟨tableFrame names cols, nRows, weights, cf, rd, tOK⟩ y.length >>= _) : Py _ _) s = (fitChecks ⟨tableFrame names cols, nRows, weights, cf, rd, tOK⟩ y.length >>= _) s
  refine Py.bind_congr_ok fun sw s1 h1 => Py.bind_congr_ok fun p s2 h2 => ?_
  have e1 := sameHyper_of (fitChecks_keeps (hyperOf (L := L)) (⟨tableFrame names cols, nRows, weights, cf, rd, tOK⟩ : FitArgs N V) y.length (fun _ => rfl) s)
  rw [h1] at e1
  have e2 : s2 = s1 := (Prod.mk.inj h2).2.symm
  rw [e2]
  refine fitRest_table ht p ?_
  rw [e1.catMin]
  exact hlim

/-- **C88** Predictions of a classifier in any state do not depend on the form of the table: `predict_proba`, `predict`, `apply` and `predict_proba_trees`. -/
theorem C88_predict {lib : Lib V K F G W} {names : List N} {cols : List (List (Option V))} (ht : IsTable lib.conv.toFloat names cols)
    (eps : F) (e : Est L V K F (List F) G) (n : Nat) :
    e.predictProba lib eps n (tableFrame names cols) = e.predictProba lib eps n (tableArray cols : Dataset N V) ∧
    e.predict lib eps n (tableFrame names cols) = e.predict lib eps n (tableArray cols : Dataset N V) ∧
    e.apply lib n (tableFrame names cols) = e.apply lib n (tableArray cols : Dataset N V) ∧
    e.predictProbaTrees lib n (tableFrame names cols) = e.predictProbaTrees lib n (tableArray cols : Dataset N V) := by
  have h : e.encode lib n (tableFrame names cols) = e.encode lib n (tableArray cols : Dataset N V) := encode_table ht e n
  have h2 : e.checkNFeatures (tableFrame names cols) = e.checkNFeatures (tableArray cols : Dataset N V) := by
    have hn : (tableFrame names cols).nFeatures = (tableArray cols : Dataset N V).nFeatures := by
      simp [tableFrame, tableArray, Dataset.nFeatures, ht.columns]
    unfold Est.checkNFeatures
    rw [hn]
  have h1 : e.predictProba lib eps n (tableFrame names cols) = e.predictProba lib eps n (tableArray cols : Dataset N V) := by
    unfold Est.predictProba
    rw [h]
  refine ⟨h1, ?_, ?_, ?_⟩
  · unfold Est.predict
    rw [h1]
  · unfold Est.apply
    rw [h]
  · unfold Est.predictProbaTrees
    rw [h, h2]

/-- **C88** Predictions of a regressor in any state do not depend on the form of the table. -/
theorem C88_predict_reg {lib : Lib V K F G W} {names : List N} {cols : List (List (Option V))} (ht : IsTable lib.conv.toFloat names cols)
    (e : Est L V K F F G) (n : Nat) :
    e.predictReg lib n (tableFrame names cols) = e.predictReg lib n (tableArray cols : Dataset N V) ∧
    e.apply lib n (tableFrame names cols) = e.apply lib n (tableArray cols : Dataset N V) ∧
    e.weightedDepth lib n (tableFrame names cols) = e.weightedDepth lib n (tableArray cols : Dataset N V) := by
  have h : e.encode lib n (tableFrame names cols) = e.encode lib n (tableArray cols : Dataset N V) := encode_table ht e n
  refine ⟨?_, ?_, ?_⟩
  · unfold Est.predictReg
    rw [h]
  · unfold Est.apply
    rw [h]
  · unfold Est.weightedDepth
    rw [h]

end

/-- Six rows with four distinct values and a missing cell. -/
def limitCols : List (List (Option Nat)) := [[some 1, some 2, some 3, none, some 4, some 1]]

theorem limit_valid {P : Type} {D : Dataset String Nat} (hD : D = tableFrame ["a"] limitCols ∨ D = tableArray limitCols) (s : World Nat Nat ℚ ℝ P Nat Nat) :
    DataValid estLib.conv ⟨D, 6, none, .none, false, true⟩ s 6 := by
  refine ⟨by norm_num, rfl, ?_, fun h => absurd rfl h, ?_, ?_, ⟨none, rfl, ?_⟩⟩
  · rcases hD with rfl | rfl <;> simp [tableFrame, tableArray, limitCols, nCols]
  · rcases hD with rfl | rfl <;> simp [tableFrame, tableArray, limitCols, GoodInput, GoodSeries]
  · rcases hD with rfl | rfl <;> simp [tableFrame, tableArray, limitCols, SmallDtypes]
  · rcases hD with rfl | rfl <;> simp [tableFrame, tableArray, limitCols, Fittable, estLib, exConv]

/-- **C88** is violated: a column with missing cells and exactly `cat_min_categories` distinct values is categorical in a dataframe (`nunique` ignores missing cells) and continuous
in an array (`np.unique` counts them), so that `fit` gives different forests. -/
theorem C88_violated : ∃ (cols : List (List (Option Nat))) (s s1 s2 : World Nat Nat ℚ ℝ ℝ Nat Nat), IsTable estLib.conv.toFloat ["a"] cols ∧
    fitRegressor estLib ⟨tableFrame ["a"] cols, 6, none, .none, false, true⟩ realY s = (.ok (), s1) ∧
    fitRegressor estLib ⟨(tableArray cols : Dataset String Nat), 6, none, .none, false, true⟩ realY s = (.ok (), s2) ∧
    s1.self.isCategorical_ = [true] ∧ s2.self.isCategorical_ = [false] := by
  have hlib : LibOK estLib 6 := estLib_ok (n := 6) (by norm_num)
  obtain ⟨e1, o1, he1, h1, -⟩ := fitRegressor_ok (y := realY) (s := estWorld ℝ false false .none 4) (a := ⟨tableFrame ["a"] limitCols, 6, none, .none, false, true⟩)
    hlib (estToy_valid _) (limit_valid (.inl rfl) _)
  obtain ⟨e2, o2, he2, h2, -⟩ := fitRegressor_ok (y := realY) (s := estWorld ℝ false false .none 4) (a := ⟨(tableArray limitCols : Dataset String Nat), 6, none, .none, false, true⟩)
    hlib (estToy_valid _) (limit_valid (.inr rfl) _)
  refine ⟨limitCols, _, _, _, ⟨by simp, rfl, ?_⟩, h1, h2, ?_, ?_⟩
  · intro c _ v _
    rfl
  · subst he1
    have e1 : (o1.enc.map FitCol.isCat) = [true] := by
      have h := o1.henc
      have hic : o1.ic = none := (Except.ok.inj o1.hic).symm
      rw [hic, show (subsetOf estLib (withCategorical .none (estWorld ℝ false false .none 4).self) 6 _).1 = none from rfl] at h
      have h' : (.ok [.cat [2, 3, 4, 1]] : M (List (FitCol Nat ℚ))) = .ok o1.enc := h
      rw [← Except.ok.inj h']
      rfl
    exact e1
  · subst he2
    have e2 : (o2.enc.map FitCol.isCat) = [false] := by
      have h := o2.henc
      have hic : o2.ic = none := (Except.ok.inj o2.hic).symm
      rw [hic, show (subsetOf estLib (withCategorical .none (estWorld ℝ false false .none 4).self) 6 _).1 = none from rfl] at h
      have h' : ((do let thr ← findBinningThresholds 1000 [some 1, some 2, some 3, none, some 4, some 1] 5; return [.num thr]) : M (List (FitCol Nat ℚ))) = .ok o2.enc := by
        rw [← h]
        obtain ⟨thr, h1, -⟩ := findBinningThresholds_spec (K := ℚ) 1000 [some 1, some 2, some 3, none, some 4, some 1] 5 (by norm_num)
        rw [h1]
        simp [encoderFit, tableArray, limitCols, fitArray, Est.encCfg, List.range_succ, fitArrayCol, declared, arrayColCategorical, estLib, exConv, takeSubset, toFloats,
          estWorld, estToy, withCategorical, CatMin.value]
        rw [h1]
        rfl
      obtain ⟨thr, -, h2⟩ := bind_eq_ok.1 h'
      rw [← Except.ok.inj h2]
      rfl
    exact e2

/-- The hypotheses of `C88_classifier_partial` hold for a table with two columns, missing cells and automatic types, and the fit succeeds. -/
example : ∃ s1, fitClassifier estLib ⟨tableFrame ["a", "b"] [[some 0, some 1, none, some 3, some 4, some 5], [some 2, none, some 1, some 2, some 7, none]], 6, none, .none, false, true⟩
      [3, 3, 5, 5, 8, 8] (estWorld _ false true .none 0) = (.ok (), s1) ∧
    fitClassifier estLib ⟨(tableArray [[some 0, some 1, none, some 3, some 4, some 5], [some 2, none, some 1, some 2, some 7, none]] : Dataset String Nat), 6, none, .none, false, true⟩
      [3, 3, 5, 5, 8, 8] (estWorld _ false true .none 0) = (.ok (), s1) := by
  have ht : IsTable estLib.conv.toFloat ["a", "b"] [[some 0, some 1, none, some 3, some 4, some 5], [some 2, none, some 1, some 2, some 7, none]] :=
    ⟨by simp, rfl, fun _ _ _ _ => rfl⟩
  obtain ⟨e0, o, -, h, -⟩ := fitClassifier_ok (okW := fun _ => True) (lib := estLib) (y := [3, 3, 5, 5, 8, 8]) (s := estWorld (List ℝ) false true .none 0)
    (a := ⟨tableFrame ["a", "b"] [[some 0, some 1, none, some 3, some 4, some 5], [some 2, none, some 1, some 2, some 7, none]], 6, none, .none, false, true⟩)
    (estLib_ok (n := 6) (by norm_num)) (estToy_valid _)
    ⟨by norm_num, rfl, by simp [tableFrame, nCols], fun h => absurd rfl h, by simp [tableFrame, GoodInput, GoodSeries], by simp [tableFrame, SmallDtypes],
      ⟨none, rfl, by simp [tableFrame, Fittable, estLib, exConv]⟩⟩ rfl (by simp [estWorld, estToy])
    (fun h h2 => by norm_num [estWorld, estToy, Num.le, Num.zero] at h2) est_strategy (fun k _ => by simp [Num.toNat, Num.ofNat]) (fun _ _ => trivial)
  refine ⟨_, h, ?_⟩
  rw [← C88_classifier_partial ht 6 none .none false true _ (.inr ?_)]
  · exact h
  · show NoneAtLimit 4 _
    unfold NoneAtLimit
    decide +kernel

/-- The hypotheses of `C88_regressor_partial` hold for the table of the counterexample when the column is declared continuous. -/
example : ∃ s1, fitRegressor estLib ⟨tableFrame ["a"] limitCols, 6, none, .bools [false], false, true⟩ realY (estWorld _ false true .none 0) = (.ok (), s1) ∧
    fitRegressor estLib ⟨(tableArray limitCols : Dataset String Nat), 6, none, .bools [false], false, true⟩ realY (estWorld _ false true .none 0) = (.ok (), s1) := by
  obtain ⟨e1, o1, -, h1, -⟩ := fitRegressor_ok (y := realY) (s := estWorld ℝ false true .none 0) (a := ⟨tableFrame ["a"] limitCols, 6, none, .bools [false], false, true⟩)
    (estLib_ok (n := 6) (by norm_num)) (estToy_valid _)
    ⟨by norm_num, rfl, by simp [tableFrame, limitCols, nCols], fun h => absurd rfl h, by simp [tableFrame, limitCols, GoodInput, GoodSeries], by simp [tableFrame, limitCols, SmallDtypes],
      ⟨some [false], rfl, by simp [tableFrame, limitCols, Fittable, estLib, exConv]⟩⟩
  exact ⟨_, h1, by rw [← C88_regressor_partial (names := ["a"]) ⟨by simp, rfl, fun _ _ _ _ => rfl⟩ _ _ _ _ _ _ (.inl (by simp [DeclaresColumns]))]; exact h1⟩

end Verif
