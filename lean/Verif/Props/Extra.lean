import Verif.Proofs.ExtraFit
import Verif.Props.AnyFloat
import Verif.Props.Beyond

/-! # C121: columns that bring nothing new have no effect -/
set_option linter.unusedSectionVars false
namespace Verif

open Spec

section
variable {L V K F G W N : Type} [LinearOrder L] [DecidableEq V] [DecidableEq N] [LinearOrder K] [Field K] [IsStrictOrderedRing K] [FloorSemiring K] [Num F]

/-- **C121** Classifier, `max_features=None`. The table `X'` has one more column on the right: a constant column or a copy of a column. Then `fit` grows the same trees,
and `predict_proba`, `predict` and `apply` return the same for every table, whatever the new column contains there. A copy of a categorical column is excluded if the
categories are ordered by a random class, because the copy consumes random numbers. The only assumptions about the arithmetic are laws of `<`. -/
theorem C121_classifier (hL : GainLaws F) (hirr : LtIrrefl F) {lib : Lib V K F G W} {a : FitArgs N V} {y : List L} {s : World L V K F (List F) G W}
    {X' : Dataset N V} {cf' : CatFeatures}
    (hlib : LibOK lib a.nRows) (hp : ParamsValid s.self (nCols a.X)) (hd : DataValid lib.conv a s y.length)
    (hd' : DataValid lib.conv { a with X := X', categorical := cf' } s y.length) (ht : a.targetsOK = true)
    (hrefit : s.self.ovr = true → s.self.fitted = true → 2 < y.dedup.length) (hst : StrategyOK y.dedup.length s.self.strategy)
    (hdir : s.self.aggregation = true → ¬(Num.le s.self.dirichlet Num.zero = true ∧ Num.le Num.zero s.self.dirichlet = true))
    (hF : ∀ k, k < max 2 y.dedup.length → Num.toNat (Num.ofNat k : F) = k)
    (hmf : s.self.maxFeatures = .none) (hX : Extends a.X a.categorical X' cf') :
    ∃ s1 s2, fitClassifier lib a y s = (.ok (), s1) ∧ fitClassifier lib { a with X := X', categorical := cf' } y s = (.ok (), s2) ∧
      (ConstantColumn X' a.nRows (nCols a.X) ∨
        (∃ j, CopiesColumn a.X a.categorical X' cf' j ∧ (s.self.strategy = .random → s1.self.isCategorical_[j]? = some false)) →
      s2.self.trees.map TreeObj.arr = s1.self.trees.map TreeObj.arr ∧
      ∀ (N' : Type) [DecidableEq N'] (eps : F) (n : Nat) (E E' : Dataset N' V), 0 < n → GoodInput n E → GoodInput n E' → AddsColumn E E' →
        AcceptedBy lib s1.self E → AcceptedBy lib s2.self E' →
        (∃ proba, s1.self.predictProba lib eps n E = .ok proba ∧ s2.self.predictProba lib eps n E' = .ok proba) ∧
        (∃ labels, s1.self.predict lib eps n E = .ok labels ∧ s2.self.predict lib eps n E' = .ok labels) ∧
        ∃ A, s1.self.apply lib n E = .ok A ∧ s2.self.apply lib n E' = .ok A) := by
  have hp' : ParamsValid s.self (nCols X') := ⟨hp.1, hp.2, hp.3, ⟨fun i hi => (by rw [hmf] at hi; cases hi), (by rw [hmf]; simp)⟩, hp.5, hp.6, hp.7⟩
  obtain ⟨s1, hs1, -, -, -, hans1⟩ := C118_classifier hlib hp hd ht hrefit hst hdir hF
  obtain ⟨s2, hs2, -, -, -, hans2⟩ := C118_classifier (a := { a with X := X', categorical := cf' }) hlib hp' hd' ht hrefit hst hdir hF
  rw [← sortedUnique_length] at hrefit hst hF
  obtain ⟨e1, o1, he1, hfit1, hfacts1⟩ := fitClassifier_ok (okW := fun _ => True) hlib hp hd ht hrefit hdir hst hF (fun _ _ => trivial)
  obtain ⟨e2, o2, he2, hfit2, hfacts2⟩ := fitClassifier_ok (a := { a with X := X', categorical := cf' }) (okW := fun _ => True) hlib hp' hd' ht hrefit hdir hst hF
    (fun _ _ => trivial)
  have hself1 : s1.self = o1.est := by rw [hs1] at hfit1; rw [(Prod.mk.inj hfit1).2]
  change Outcome lib { a with X := X', categorical := cf' } (preparedOf lib s.self y (weightsOf a s)) e2 s.np at o2
  have hself2 : s2.self = o2.est := congrArg World.self (Prod.mk.inj (hs2.symm.trans hfit2)).2
  refine ⟨s1, s2, hs1, hs2, fun hnew => ?_⟩
  have hdd : e1.dirichlet = s.self.dirichlet := by rw [he1]; rfl
  obtain ⟨h1, -, h3⟩ := Extra.outcome_x hL hirr (X' := X') (cf' := cf') (e := e1) (e' := e2) ⟨e2.categoricalFeatures, by rw [he1, he2]; rfl⟩
    (by rw [he1]; exact hmf) hd.rows.1 hd.columns hd.good hd'.good hX.1 hX.2 o1 o2 hfacts1 hfacts2 (by
      rcases hnew with h | ⟨j, ⟨hj, h1, h2⟩, h3⟩
      · exact .inr h
      · refine .inl ⟨j, hj, h1, h2, fun hcat => ?_⟩
        exact Extra.classOrders_det fun hr => by rw [← hself1, h3 hr] at hcat; cases hcat)
  rw [← hself1, ← hself2] at h1 h3
  refine ⟨?_, fun N' _ eps n E E' hn hE hE' hadd hA hA' => ?_⟩
  · clear h3 hans1 hans2 hs1 hs2 hnew
    generalize s1.self.trees = l1 at h1
    generalize s2.self.trees = l2 at h1
    induction h1 with
    | nil => rfl
    | cons h _ ih => rw [List.map_cons, List.map_cons, ih, h.arr]
  · obtain ⟨⟨p, hp, -⟩, ⟨l, hl, -⟩, A, hap, -⟩ := hans1 N' eps n E hn hE hA
    obtain ⟨⟨p', hp', -⟩, ⟨l', hl', -⟩, A', hap', -⟩ := hans2 N' eps n E' hn hE' hA'
    have hrel := h3 N' n E E' hn hE hE' hadd
    have hpp : p = p' := by
      have hb1 : s2.self.fitted = true := by rw [hself2]; exact hfacts2.fitted
      have hb2 : s1.self.fitted = true := by rw [hself1]; exact hfacts1.fitted
      have hb3 : s2.self.ovr = s1.self.ovr := by rw [hself1, hself2]; show e2.ovr = e1.ovr; rw [he1, he2]; rfl
      have hb4 : s2.self.nClasses = s1.self.nClasses := by rw [hself1, hself2]; show e2.nClasses = e1.nClasses; rw [he1, he2]; rfl
      have hb5 : s2.self.nEstimators = s1.self.nEstimators := by rw [hself1, hself2]; show e2.nEstimators = e1.nEstimators; rw [he1, he2]; rfl
      unfold Est.predictProba at hp hp'
      rw [hb1, hb3, hb4, hb5] at hp'
      rw [hb2] at hp
      refine (hrel.bind (S' := (· = ·)) fun b b' hb => ?_) p p' hp hp'
      simp only [Bool.not_true, Bool.false_eq_true, if_false]
      split
      · exact Extra.predictProbaOvr_x eps _ _ h1 hb
      · exact Extra.predictProba_x _ h1 hb
    subst hpp
    have hcl : s2.self.classes = s1.self.classes := by rw [hself1, hself2]; show e2.classes = e1.classes; rw [he1, he2]; rfl
    refine ⟨⟨p, hp, hp'⟩, ⟨l, hl, ?_⟩, A, hap, ?_⟩
    · unfold Est.predict at hl ⊢
      rw [hp, bind_ok] at hl
      rw [hp', bind_ok, hcl, hl]
    · rw [hap', (hrel.bind (S' := (· = ·)) fun b b' hb => Extra.applyAll_x h1 hb) A A' hap hap']

/-- **C121** Regressor: copies of categorical columns are covered too. -/
theorem C121_regressor (hL : GainLaws F) (hirr : LtIrrefl F) {lib : Lib V K F G W} {a : FitArgs N V} {y : List F} {s : World L V K F F G W}
    {X' : Dataset N V} {cf' : CatFeatures}
    (hlib : LibOK lib a.nRows) (hp : ParamsValid s.self (nCols a.X)) (hd : DataValid lib.conv a s y.length)
    (hd' : DataValid lib.conv { a with X := X', categorical := cf' } s y.length) (hmf : s.self.maxFeatures = .none) (hX : Extends a.X a.categorical X' cf')
    (hnew : ConstantColumn X' a.nRows (nCols a.X) ∨ ∃ j, CopiesColumn a.X a.categorical X' cf' j) :
    ∃ s1 s2, fitRegressor lib a y s = (.ok (), s1) ∧ fitRegressor lib { a with X := X', categorical := cf' } y s = (.ok (), s2) ∧
      s2.self.trees.map TreeObj.arr = s1.self.trees.map TreeObj.arr ∧
      ∀ (N' : Type) [DecidableEq N'] (n : Nat) (E E' : Dataset N' V), 0 < n → GoodInput n E → GoodInput n E' → AddsColumn E E' →
        AcceptedBy lib s1.self E → AcceptedBy lib s2.self E' →
        (∃ out, s1.self.predictReg lib n E = .ok out ∧ s2.self.predictReg lib n E' = .ok out) ∧
        ∃ A, s1.self.apply lib n E = .ok A ∧ s2.self.apply lib n E' = .ok A := by
  have hp' : ParamsValid s.self (nCols X') := ⟨hp.1, hp.2, hp.3, ⟨fun i hi => (by rw [hmf] at hi; cases hi), (by rw [hmf]; simp)⟩, hp.5, hp.6, hp.7⟩
  obtain ⟨s1, hs1, -, hans1⟩ := C118_regressor hlib hp hd
  obtain ⟨s2, hs2, -, hans2⟩ := C118_regressor (a := { a with X := X', categorical := cf' }) hlib hp' hd'
  obtain ⟨e1, o1, he1, hfit1, hfacts1⟩ := fitRegressor_ok hlib hp hd
  obtain ⟨e2, o2, he2, hfit2, hfacts2⟩ := fitRegressor_ok (a := { a with X := X', categorical := cf' }) hlib hp' hd'
  have hself1 : s1.self = o1.est := by rw [hs1] at hfit1; rw [(Prod.mk.inj hfit1).2]
  change Outcome lib { a with X := X', categorical := cf' } (⟨fun _ => regressorTask lib.argsort, false, [y], [weightsOf a s]⟩) e2 s.np at o2
  have hself2 : s2.self = o2.est := congrArg World.self (Prod.mk.inj (hs2.symm.trans hfit2)).2
  refine ⟨s1, s2, hs1, hs2, ?_⟩
  obtain ⟨h1, -, h3⟩ := Extra.outcome_x hL hirr (X' := X') (cf' := cf') (e := e1) (e' := e2) ⟨e2.categoricalFeatures, by rw [he1, he2]; rfl⟩
    (by rw [he1]; exact hmf) hd.rows.1 hd.columns hd.good hd'.good hX.1 hX.2 o1 o2 hfacts1 hfacts2 (by
      rcases hnew with h | ⟨j, hj, h1, h2⟩
      · exact .inr h
      · exact .inl ⟨j, hj, h1, h2, fun _ => Extra.regOrders_det⟩)
  rw [← hself1, ← hself2] at h1 h3
  refine ⟨?_, fun N' _ n E E' hn hE hE' hadd hA hA' => ?_⟩
  · clear h3 hans1 hans2 hs1 hs2 hnew
    generalize s1.self.trees = l1 at h1
    generalize s2.self.trees = l2 at h1
    induction h1 with
    | nil => rfl
    | cons h _ ih => rw [List.map_cons, List.map_cons, ih, h.arr]
  · obtain ⟨⟨p, hp, -⟩, ⟨A, hap, -⟩, -⟩ := hans1 N' n E hn hE hA
    obtain ⟨⟨p', hp', -⟩, ⟨A', hap', -⟩, -⟩ := hans2 N' n E' hn hE' hA'
    have hrel := h3 N' n E E' hn hE hE' hadd
    refine ⟨⟨p, hp, ?_⟩, A, hap, ?_⟩
    · rw [hp', (hrel.bind (S' := (· = ·)) fun b b' hb => Extra.forestPredict_x h1 hb) p p' hp hp']
    · rw [hap', (hrel.bind (S' := (· = ·)) fun b b' hb => Extra.applyAll_x h1 hb) A A' hap hap']

end

/-- The table of `estX` with another column. -/
def estMore (c : Series Nat) : Dataset String Nat :=
  .frame [("a", { kind := .uif, cells := [some 0, some 1, some 2, some 3, some 4, some 5] }),
          ("b", { kind := .bOSU, cells := [some 2, some 0, some 1, some 2, none, some 0] }), ("c", c)]

theorem estMore_valid {P : Type} {ovr balanced : Bool} {cf : CatFeatures} {np : Nat} (w : Option Bool) (r : Bool) {c : Series Nat} (h1 : c.cells.length = 6) (h0 : c.dtypeCats = [])
    (h2 : c.kind = .uif ∨ c.kind = .bOSU) :
    DataValid estLib.conv { estArgs w r with X := estMore c, categorical := .none } (estWorld P ovr balanced cf np) 6 where
  rows := by simp [estArgs]
  labels := rfl
  columns := by simp [estMore, nCols]
  weights _ := by simp [estWorld, realW, estArgs]
  good := by
    refine ⟨by simp, ?_⟩
    intro p hp
    simp at hp
    rcases hp with rfl | rfl | rfl
    · simp [GoodSeries, estArgs]
    · simp [GoodSeries, estArgs]
    · refine ⟨h1, fun h => ?_⟩
      rcases h2 with h2 | h2 <;> rw [h2] at h <;> cases h
  small := by
    intro p hp
    simp at hp
    rcases hp with rfl | rfl | rfl
    · simp
    · simp
    · simp [h0]
  fittable := by
    refine ⟨none, rfl, ?_⟩
    intro p hp
    simp at hp
    rcases hp with rfl | rfl | rfl
    · simp [estLib, exConv]
    · simp [estLib, exConv]
    · rcases h2 with h2 | h2 <;> simp [estLib, exConv, h2]

theorem estMore_extends (c : Series Nat) : Extends estX .none (estMore c) .none := ⟨⟨_, rfl⟩, fun _ _ => rfl⟩

/-- The hypotheses of `C121_regressor` hold: a copy of the second column, and a constant column, do not change the trees. -/
example : ∃ s1 s2 s3, fitRegressor estLib (estArgs none false) realY (estWorld _ false false .none 0) = (.ok (), s1) ∧
    fitRegressor estLib { estArgs none false with X := estMore { kind := .bOSU, cells := [some 2, some 0, some 1, some 2, none, some 0] }, categorical := .none } realY
      (estWorld _ false false .none 0) = (.ok (), s2) ∧
    fitRegressor estLib { estArgs none false with X := estMore { kind := .uif, cells := List.replicate 6 (some 3) }, categorical := .none } realY
      (estWorld _ false false .none 0) = (.ok (), s3) ∧
    s2.self.trees.map TreeObj.arr = s1.self.trees.map TreeObj.arr ∧ s3.self.trees.map TreeObj.arr = s1.self.trees.map TreeObj.arr := by
  have hd := estData_valid (P := ℝ) (ovr := false) (balanced := false) (cf := .none) (np := 0) none false
  have hlib : LibOK estLib (estArgs none false).nRows := estLib_ok (n := 6) (by norm_num)
  obtain ⟨s1, s2, h1, h2, h3, -⟩ := C121_regressor (y := realY) real_gainLaws real_irrefl hlib (estToy_valid _) hd
    (estMore_valid none false (c := { kind := .bOSU, cells := [some 2, some 0, some 1, some 2, none, some 0] }) rfl rfl (.inr rfl)) rfl (estMore_extends _)
    (.inr ⟨1, by decide, ⟨_, _, rfl, rfl, rfl⟩, rfl⟩)
  obtain ⟨s1', s3, h1', h4, h5, -⟩ := C121_regressor (y := realY) real_gainLaws real_irrefl hlib (estToy_valid _) hd
    (estMore_valid none false (c := { kind := .uif, cells := List.replicate 6 (some 3) }) rfl rfl (.inl rfl)) rfl (estMore_extends _)
    (.inl ⟨(by rintro ⟨p, hp, hk⟩; cases hp; cases hk), 3, fun i hi => by
      change i < 6 at hi
      interval_cases i <;> rfl⟩)
  obtain ⟨-, rfl⟩ := Prod.mk.inj (h1.symm.trans h1')
  exact ⟨s1, s2, s3, h1, h2, h4, h3, h5⟩

/-- The hypotheses of `C121_classifier` hold: a copy of the first column does not change the trees. -/
example : ∃ s1 s2, fitClassifier estLib (estArgs (some true) true) [3, 3, 5, 5, 8, 8] (estWorld _ true true .none 0) = (.ok (), s1) ∧
    fitClassifier estLib { estArgs (some true) true with X := estMore { kind := .uif, cells := [some 0, some 1, some 2, some 3, some 4, some 5] }, categorical := .none }
      [3, 3, 5, 5, 8, 8] (estWorld _ true true .none 0) = (.ok (), s2) ∧ s2.self.trees.map TreeObj.arr = s1.self.trees.map TreeObj.arr := by
  have hd := estData_valid (P := List ℝ) (ovr := true) (balanced := true) (cf := .none) (np := 0) (some true) true
  have hlib : LibOK estLib (estArgs (some true) true).nRows := estLib_ok (n := 6) (by norm_num)
  obtain ⟨s1, s2, h1, h2, h3⟩ := C121_classifier (y := [3, 3, 5, 5, 8, 8]) real_gainLaws real_irrefl hlib (estToy_valid _) hd
    (estMore_valid (some true) true (c := { kind := .uif, cells := [some 0, some 1, some 2, some 3, some 4, some 5] }) rfl rfl (.inl rfl)) rfl (fun _ h => by cases h)
    est_strategy (by intro _; norm_num [estWorld, estToy, Num.le, Num.zero]) (fun k _ => by simp [Num.toNat, Num.ofNat]) rfl (estMore_extends _)
  exact ⟨s1, s2, h1, h2, (h3 (.inr ⟨0, ⟨by decide, ⟨_, _, rfl, rfl, rfl⟩, rfl⟩, fun h => by cases h⟩)).1⟩

end Verif
