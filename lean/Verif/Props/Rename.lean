import Verif.Proofs.PermuteFit
import Verif.Model.Inspect
import Verif.Props.Relabel
import Verif.Props.Recode

/-! # C91: the names of the categories -/
set_option linter.unusedSectionVars false
namespace Verif

open Spec

section
variable {L V K F Y P G W N : Type} [LinearOrder L] [DecidableEq V] [DecidableEq N] [LinearOrder K] [Field K] [IsStrictOrderedRing K]
  [FloorSemiring K] [Num F]

/-- **C91** for classifiers, names in the old order. Take any successful `fit`, and give other names to the categories of some categorical columns, such that different
categories have different names and the new names sort like the old ones (in a column with a category dtype any new names, at the same places of the dtype).
Then `fit` on the renamed data succeeds with exactly the same estimator, trees included, apart from the names stored in the encoder, and for all data,
renamed in the same way, the probabilities, labels and leaves are the same as before, exceptions and categories that do not occur in the training data
included. This holds in any arithmetic, rounding included. -/
theorem C91_order_classifier {lib : Lib V K F G W} {a : FitArgs N V} {y : List L} {s s' : World L V K F (List F) G W} {ch : Nat → V → V}
    (hX : DistinctNames a.X) (h : fitClassifier lib a y s = (.ok (), s'))
    (hch : ∀ j, ch j = id ∨ s'.self.isCategorical_[j]? = some true ∧ Renames lib.conv a.X j (ch j)) :
    ∃ enc, fitClassifier lib { a with X := rename ch a.X } y s = (.ok (), { s' with self := withEncoder s'.self enc }) ∧
      ∀ (N' : Type) [DecidableEq N'] (eps : F) (n : Nat) (E : Dataset N' V), DistinctNames E →
        (withEncoder s'.self enc).predictProba lib eps n (rename ch E) = s'.self.predictProba lib eps n E ∧
        (withEncoder s'.self enc).predict lib eps n (rename ch E) = s'.self.predict lib eps n E ∧
        (withEncoder s'.self enc).apply lib n (rename ch E) = s'.self.apply lib n E := by
  obtain ⟨p, s1, hs1, h1, hX'⟩ := fitClassifier_split h
  obtain ⟨enc, h2, h3⟩ := fitRest_renameCats hX h1 hch
  refine ⟨enc, by rw [hX', h2], fun N' _ eps n E hE => ?_⟩
  have hp : (withEncoder s'.self enc).predictProba lib eps n (rename ch E) = s'.self.predictProba lib eps n E := by
    unfold Est.predictProba
    rw [h3 N' n E hE]
    rfl
  refine ⟨hp, ?_, ?_⟩
  · unfold Est.predict
    rw [hp]
    rfl
  · unfold Est.apply
    rw [h3 N' n E hE]
    rfl

/-- **C91** for regressors, names in the old order. -/
theorem C91_order_regressor {lib : Lib V K F G W} {a : FitArgs N V} {y : List F} {s s' : World L V K F F G W} {ch : Nat → V → V}
    (hX : DistinctNames a.X) (h : fitRegressor lib a y s = (.ok (), s'))
    (hch : ∀ j, ch j = id ∨ s'.self.isCategorical_[j]? = some true ∧ Renames lib.conv a.X j (ch j)) :
    ∃ enc, fitRegressor lib { a with X := rename ch a.X } y s = (.ok (), { s' with self := withEncoder s'.self enc }) ∧
      ∀ (N' : Type) [DecidableEq N'] (n : Nat) (E : Dataset N' V), DistinctNames E →
        (withEncoder s'.self enc).predictReg lib n (rename ch E) = s'.self.predictReg lib n E ∧
        (withEncoder s'.self enc).apply lib n (rename ch E) = s'.self.apply lib n E := by
  obtain ⟨p, s1, hs1, h1, hX'⟩ := fitRegressor_split h
  obtain ⟨enc, h2, h3⟩ := fitRest_renameCats hX h1 hch
  refine ⟨enc, by rw [hX', h2], fun N' _ n E hE => ⟨?_, ?_⟩⟩
  · unfold Est.predictReg
    rw [h3 N' n E hE]
    rfl
  · unfold Est.apply
    rw [h3 N' n E hE]
    rfl

/-- **C91** for classifiers. Take any successful `fit`, and give other names to the categories of some categorical columns, such that different categories have
different names, in any order. Then `fit` on the renamed data succeeds with the same estimator apart from the encoder and the trees, and for all data, renamed
in the same way, the probabilities, labels and leaves are the same as before, exceptions and categories that do not occur in the training data included.
The arithmetic has to be exact in one respect: the order in which numbers are added to a sum must not matter. -/
theorem C91_classifier {lib : Lib V K F G W} {a : FitArgs N V} {y : List L} {s s' : World L V K F (List F) G W} {ch : Nat → V → V}
    (hadd : SumOrder F) (hX : RegularTable a.nRows a.X) (hb : s.self.maxBins < 2 ^ 63) (h : fitClassifier lib a y s = (.ok (), s'))
    (hch : ∀ j, ch j = id ∨ s'.self.isCategorical_[j]? = some true ∧ NewNames lib.conv a.X j (ch j)) :
    ∃ (e' : Est L V K F (List F) G), fitClassifier lib { a with X := rename ch a.X } y s = (.ok (), { s' with self := e' }) ∧
      e' = { s'.self with encoder := e'.encoder, trees := e'.trees } ∧
      ∀ (N' : Type) [DecidableEq N'] (eps : F) (n : Nat) (E : Dataset N' V), 0 < n → GoodInput n E →
        e'.predictProba lib eps n (rename ch E) = s'.self.predictProba lib eps n E ∧
        e'.predict lib eps n (rename ch E) = s'.self.predict lib eps n E ∧
        e'.apply lib n (rename ch E) = s'.self.apply lib n E := by
  obtain ⟨p, s1, hs1, h1, ⟨k, c, st, hp⟩, hX'⟩ := Bins.fitClassifier_split h
  have hmb : s1.self.maxBins = s.self.maxBins := congrArg Prod.fst hs1
  obtain ⟨π, enc, trees, h2, h3, h4⟩ := Bins.fitRest_newNames (fun d => by rw [hp]; exact Bins.classTask_perm hadd _ _ _ _ _ _) hX (by rw [hmb]; exact hb) h1 hch
  refine ⟨_, by rw [hX', h2], rfl, fun N' _ eps n E hn hE => ?_⟩
  have h5 := h4 N' n E hn hE
  generalize hE1 : s'.self.encode lib n E = r1 at h5
  generalize hE2 : ({ s'.self with encoder := enc, trees := trees } : Est L V K F (List F) G).encode lib n (rename ch E) = r2 at h5
  have hpr : ({ s'.self with encoder := enc, trees := trees } : Est L V K F (List F) G).predictProba lib eps n (rename ch E) =
      s'.self.predictProba lib eps n E := by
    unfold Est.predictProba
    rw [hE1, hE2]
    cases r1 <;> cases r2
    · exact congrArg Except.error h5.symm
    · exact h5.elim
    · exact h5.elim
    · simp only [bind_ok]
      rw [Bins.predictProbaOvr_perm eps _ _ h3 h5, Bins.predictProba_perm _ h3 h5]
  refine ⟨hpr, ?_, ?_⟩
  · unfold Est.predict
    rw [hpr]
  · unfold Est.apply
    rw [hE1, hE2]
    cases r1 <;> cases r2
    · exact congrArg Except.error h5.symm
    · exact h5.elim
    · exact h5.elim
    · simp only [bind_ok]
      exact mapM_forall₂ (fun o o' ho => Bins.treeApply_perm ho.arr ho.grown h5) h3

/-- **C91** for regressors. -/
theorem C91_regressor {lib : Lib V K F G W} {a : FitArgs N V} {y : List F} {s s' : World L V K F F G W} {ch : Nat → V → V}
    (hadd : SumOrder F) (hX : RegularTable a.nRows a.X) (hb : s.self.maxBins < 2 ^ 63) (h : fitRegressor lib a y s = (.ok (), s'))
    (hch : ∀ j, ch j = id ∨ s'.self.isCategorical_[j]? = some true ∧ NewNames lib.conv a.X j (ch j)) :
    ∃ (e' : Est L V K F F G), fitRegressor lib { a with X := rename ch a.X } y s = (.ok (), { s' with self := e' }) ∧
      e' = { s'.self with encoder := e'.encoder, trees := e'.trees } ∧
      ∀ (N' : Type) [DecidableEq N'] (n : Nat) (E : Dataset N' V), 0 < n → GoodInput n E →
        e'.predictReg lib n (rename ch E) = s'.self.predictReg lib n E ∧
        e'.apply lib n (rename ch E) = s'.self.apply lib n E := by
  obtain ⟨p, s1, hs1, h1, hp, hX'⟩ := Bins.fitRegressor_split h
  have hmb : s1.self.maxBins = s.self.maxBins := congrArg Prod.fst hs1
  obtain ⟨π, enc, trees, h2, h3, h4⟩ := Bins.fitRest_newNames (fun d => by rw [hp]; exact Bins.regTask_perm hadd _) hX (by rw [hmb]; exact hb) h1 hch
  refine ⟨_, by rw [hX', h2], rfl, fun N' _ n E hn hE => ?_⟩
  have h5 := h4 N' n E hn hE
  generalize hE1 : s'.self.encode lib n E = r1 at h5
  generalize hE2 : ({ s'.self with encoder := enc, trees := trees } : Est L V K F F G).encode lib n (rename ch E) = r2 at h5
  refine ⟨?_, ?_⟩
  · unfold Est.predictReg
    rw [hE1, hE2]
    cases r1 <;> cases r2
    · exact congrArg Except.error h5.symm
    · exact h5.elim
    · exact h5.elim
    · simp only [bind_ok]
      exact Bins.forestPredict_perm h3 h5
  · unfold Est.apply
    rw [hE1, hE2]
    cases r1 <;> cases r2
    · exact congrArg Except.error h5.symm
    · exact h5.elim
    · exact h5.elim
    · simp only [bind_ok]
      exact mapM_forall₂ (fun o o' ho => Bins.treeApply_perm ho.arr ho.grown h5) h3

end

section
attribute [local instance] ratNum

/-- `C91_order_classifier`: the words 0, 1, 2, ... become 10, 11, 12, .... -/
example : ∃ (s' : World Nat Nat ℚ ℚ (List ℚ) Nat Nat) (enc : _), fitClassifier (ratLib fun _ => [0, 1, 2, 3, 4, 5, 2, 3]) ⟨rename (fun j v => if j = 0 then v + 10 else v) ratX, 8, none, .none, false, true⟩
      [3, 3, 3, 5, 5, 5, 3, 5] (ratWorld 1 false .binary) = (.ok (), { s' with self := withEncoder s'.self enc }) ∧
    (withEncoder s'.self enc).predict (ratLib fun _ => [0, 1, 2, 3, 4, 5, 2, 3]) 0 8 (rename (fun j v => if j = 0 then v + 10 else v) ratX) =
      s'.self.predict (ratLib fun _ => [0, 1, 2, 3, 4, 5, 2, 3]) 0 8 ratX := by
  have hn : DistinctNames ratX := by unfold ratX DistinctNames; decide
  have h : ratFit [3, 3, 3, 5, 5, 5, 3, 5] = (.ok (), (ratFit [3, 3, 3, 5, 5, 5, 3, 5]).2) := Prod.ext (by decide +kernel) rfl
  have hc : (ratFit [3, 3, 3, 5, 5, 5, 3, 5]).2.self.isCategorical_ = [true] := by decide +kernel
  obtain ⟨enc, h1, h2⟩ := C91_order_classifier (ch := fun j v => if j = 0 then v + 10 else v) hn h fun j => by
    cases j with
    | succ j => exact .inl rfl
    | zero =>
      exact .inr ⟨by rw [hc]; rfl, fun a b hab => by simpa using hab, .inr (by decide), fun v _ => by simp [ratLib, exConv]⟩
  exact ⟨_, enc, h1, (h2 _ 0 8 ratX hn).2.1⟩

/-- The library with categories in increasing order, as pandas has them. -/
def sortLib : Lib Nat ℚ ℚ Nat Nat :=
  { ratLib fun _ => [0, 1, 2, 3, 4, 5, 2, 3] with
    conv :=
      { catsOf := fun c => sortedUnique (c.filterMap id)
        toFloat := fun v => some v
        toFloat32 := fun v => some v
        catsOf_nodup := fun c => (sortedUnique_sorted _).imp ne_of_lt
        mem_catsOf := fun c v => by rw [mem_sortedUnique]; simp } }

theorem rat_sumOrder : SumOrder ℚ := fun a b c => add_right_comm a b c

theorem ratX_regular : RegularTable 8 ratX :=
  ⟨by norm_num, ⟨by simp, by simp [GoodSeries]⟩, by simp [ratX, SmallDtypes], fun k X h => by cases h⟩

/-- `C91_classifier`: the words 0 and 2 are exchanged, so that the categories are numbered in another order. -/
example : ∃ (s' : World Nat Nat ℚ ℚ (List ℚ) Nat Nat) (e' : Est Nat Nat ℚ ℚ (List ℚ) Nat),
    fitClassifier sortLib ⟨rename (fun j => if j = 0 then Equiv.swap 0 2 else id) ratX, 8, none, .none, false, true⟩ [3, 3, 3, 5, 5, 5, 3, 5] (ratWorld 1 false .binary) =
      (.ok (), { s' with self := e' }) ∧ s'.self.encoder.map (fun x => x.2.map FitCol.nBins) = some [3] ∧
    e'.predictProba sortLib 0 8 (rename (fun j => if j = 0 then Equiv.swap 0 2 else id) ratX) = s'.self.predictProba sortLib 0 8 ratX := by
  have h : fitClassifier sortLib ⟨ratX, 8, none, .none, false, true⟩ [3, 3, 3, 5, 5, 5, 3, 5] (ratWorld 1 false .binary) =
      (.ok (), (fitClassifier sortLib ⟨ratX, 8, none, .none, false, true⟩ [3, 3, 3, 5, 5, 5, 3, 5] (ratWorld 1 false .binary)).2) :=
    Prod.ext (by decide +kernel) rfl
  have hc : (fitClassifier sortLib ⟨ratX, 8, none, .none, false, true⟩ [3, 3, 3, 5, 5, 5, 3, 5] (ratWorld 1 false .binary)).2.self.isCategorical_ = [true] := by
    decide +kernel
  obtain ⟨e', h1, -, h2⟩ := C91_classifier (ch := fun j => if j = 0 then Equiv.swap 0 2 else id) rat_sumOrder ratX_regular
    (by show 5 < 2 ^ 63; norm_num) h fun j => by
      cases j with
      | succ j => exact .inl rfl
      | zero => exact .inr ⟨by rw [hc]; rfl, (Equiv.swap 0 2).injective, fun v _ => rfl⟩
  exact ⟨_, e', h1, by decide +kernel, (h2 _ 0 8 ratX (by norm_num) ratX_regular.good).1⟩

/-- A regressor before `fit`. -/
def ratWorldReg : World Nat Nat ℚ ℚ ℚ Nat Nat :=
  ⟨{ fitted := false, nEstimators := 1, criterion := .gini, step := 1, dirichlet := 0, aggregation := false, maxDepth := some 1, minSplit := 2,
     minLeaf := 1, maxBins := 5, categoricalFeatures := .none, maxFeatures := .none, subsample := none, catMin := .int 4, handleUnknownError := false,
     randomState := some (some 7), balanced := false, ovr := false, strategy := .binary, classes := [], nClasses := 0, nTrees := 0,
     nClassesPerTree := 0, maxFeatures_ := 0, seeds := [], isCategorical_ := [], encoder := none, trees := [], nSamples := 0, nFeatures := 0 }, [], 0⟩

/-- `C91_regressor`: the same with a regressor. -/
example : ∃ (s' : World Nat Nat ℚ ℚ ℚ Nat Nat) (e' : Est Nat Nat ℚ ℚ ℚ Nat),
    fitRegressor sortLib ⟨rename (fun j => if j = 0 then Equiv.swap 0 2 else id) ratX, 8, none, .none, false, true⟩ [3, 3, 3, 5, 5, 5, 3, 5] ratWorldReg =
      (.ok (), { s' with self := e' }) ∧ s'.self.encoder.map (fun x => x.2.map FitCol.nBins) = some [3] ∧
    e'.predictReg sortLib 8 (rename (fun j => if j = 0 then Equiv.swap 0 2 else id) ratX) = s'.self.predictReg sortLib 8 ratX := by
  have h : fitRegressor sortLib ⟨ratX, 8, none, .none, false, true⟩ [3, 3, 3, 5, 5, 5, 3, 5] ratWorldReg =
      (.ok (), (fitRegressor sortLib ⟨ratX, 8, none, .none, false, true⟩ [3, 3, 3, 5, 5, 5, 3, 5] ratWorldReg).2) :=
    Prod.ext (by decide +kernel) rfl
  have hc : (fitRegressor sortLib ⟨ratX, 8, none, .none, false, true⟩ [3, 3, 3, 5, 5, 5, 3, 5] ratWorldReg).2.self.isCategorical_ = [true] := by
    decide +kernel
  obtain ⟨e', h1, -, h2⟩ := C91_regressor (ch := fun j => if j = 0 then Equiv.swap 0 2 else id) rat_sumOrder ratX_regular
    (by show 5 < 2 ^ 63; norm_num) h fun j => by
      cases j with
      | succ j => exact .inl rfl
      | zero => exact .inr ⟨by rw [hc]; rfl, (Equiv.swap 0 2).injective, fun v _ => rfl⟩
  exact ⟨_, e', h1, by decide +kernel, (h2 _ 8 ratX (by norm_num) ratX_regular.good).1⟩

end
end Verif
