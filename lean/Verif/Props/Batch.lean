import Verif.Props.EndToEnd

/-! # C58: the prediction for a row does not depend on the other rows of the batch -/
set_option linter.unusedSectionVars false
namespace Verif

open Spec

section
variable {L V K G W N : Type} [LinearOrder L] [DecidableEq V] [DecidableEq N] [LinearOrder K] [Field K] [IsStrictOrderedRing K] [FloorSemiring K]

/-- **C58** Classifier: take any two acceptable datasets, both dataframes, or both arrays of the same kind. Rows with the same cells
have the same probabilities and the same predicted label in both, whatever the other rows and the numbers of rows. -/
theorem C58_classifier {lib : Lib V K ℝ G W} {a : FitArgs N V} {y : List L} {s : World L V K ℝ (List ℝ) G W}
    (hlib : LibOK lib a.nRows) (hp : ParamsValid s.self (nCols a.X)) (hd : DataValid lib.conv a s y.length) (ht : a.targetsOK = true)
    (hrefit : s.self.ovr = true → s.self.fitted = true → 2 < y.dedup.length) (hst : StrategyOK y.dedup.length s.self.strategy)
    (hagg : s.self.aggregation = true → s.self.dirichlet ≠ 0) :
    ∃ s', fitClassifier lib a y s = (.ok (), s') ∧
      ∀ (N' : Type) [DecidableEq N'] (eps : ℝ) (n1 n2 : Nat) (X1 X2 : Dataset N' V), 0 < n1 → 0 < n2 → GoodInput n1 X1 → GoodInput n2 X2 →
        AcceptedBy lib s'.self X1 → AcceptedBy lib s'.self X2 → numOf lib.conv X1 = numOf lib.conv X2 →
        ∃ p1 p2 l1 l2, s'.self.predictProba lib eps n1 X1 = .ok p1 ∧ s'.self.predictProba lib eps n2 X2 = .ok p2 ∧
          s'.self.predict lib eps n1 X1 = .ok l1 ∧ s'.self.predict lib eps n2 X2 = .ok l2 ∧
          p1.length = n1 ∧ p2.length = n2 ∧ l1.length = n1 ∧ l2.length = n2 ∧
          ∀ i1 i2, i1 < n1 → i2 < n2 → (∀ j, cell X1 i1 j = cell X2 i2 j) → p1[i1]? = p2[i2]? ∧ l1[i1]? = l2[i2]? := by
  obtain ⟨e0, o, -, hfit, hfacts⟩ := fitClassifier_ok (okW := fun _ => True) hlib hp hd ht (by rw [sortedUnique_length]; exact hrefit)
    (fun h h2 => by simp only [Num.le, Num.zero, decide_eq_true_eq] at h2; exact hagg h (le_antisymm h2.1 h2.2))
    (by rw [sortedUnique_length]; exact hst) (fun k _ => by simp [Num.toNat, Num.ofNat]) (fun _ _ => trivial)
  have hform : ∃ f : (Nat → Nat) → Nat → Nat → ℝ → ℝ, ∃ m : Nat, 0 < m ∧ m = o.est.classes.length ∧
      ∀ (N' : Type) [DecidableEq N'] (eps : ℝ) (n : Nat) (X : Dataset N' V), 0 < n → GoodInput n X → AcceptedBy lib o.est X →
        ∃ fba, o.est.encode lib n X = .ok fba ∧
          o.est.predictProba lib eps n X = .ok ((List.range n).map fun i => (List.range m).map fun j => f (binsOf fba i) m j eps) := by
    have hpos : ∀ s' : World L V K ℝ (List ℝ) G W, fitClassifier lib a y s = (.ok (), s') → s'.self = o.est := by
      intro s' h; rw [hfit] at h; rw [← (Prod.mk.inj h).2]
    have hc : 0 < o.est.classes.length := by
      obtain ⟨s', h1, -, h2⟩ := fit_class_labels hlib hp hd ht hrefit hst hagg
      rw [← hpos s' h1, h2]
      exact sortedUnique_pos (by intro h0; have := hd.labels; have := hd.rows.1; rw [h0] at *; simp_all)
    by_cases hm : s.self.ovr = true ∧ 2 < y.dedup.length
    · obtain ⟨s', h1, train, g, -, -, h2⟩ := C57_ovr hlib hp hd ht hst hagg hm
      rw [hpos s' h1] at h2
      exact ⟨fun x m j eps => normalised eps m (fun c =>
            ∑ r ∈ Finset.range s.self.nEstimators,
              probValue ⟨a.nRows, binsOf train, rowWeight (givenWeights a s) s.self.balanced a.nRows (fun i => if classOf o.est.classes y i = c then 1 else 0),
                  (g (c * s.self.nEstimators + r)).draws⟩ (g (c * s.self.nEstimators + r))
                s.self.aggregation s.self.step s.self.dirichlet 2 (fun i => if classOf o.est.classes y i = c then 1 else 0) x 1) j,
          o.est.classes.length, hc, rfl, fun N' _ eps n X hn hX hA => h2 N' eps n X hn hX hA⟩
    · obtain ⟨s', h1, train, g, -, -, h2⟩ := C57_multinomial hlib hp hd ht hrefit hst hagg (by
        cases h : s.self.ovr
        · exact .inl rfl
        · exact .inr (by by_contra h'; exact hm ⟨h, by omega⟩))
      rw [hpos s' h1] at h2
      exact ⟨fun x m j eps => (∑ t ∈ Finset.range s.self.nEstimators,
              probValue ⟨a.nRows, binsOf train, rowWeight (givenWeights a s) s.self.balanced a.nRows (classOf o.est.classes y), (g t).draws⟩ (g t)
                s.self.aggregation s.self.step s.self.dirichlet m (classOf o.est.classes y) x j) / s.self.nEstimators,
          o.est.classes.length, hc, rfl, fun N' _ eps n X hn hX hA => h2 N' eps n X hn hX hA⟩
  obtain ⟨f, m, hm0, hm, hf⟩ := hform
  refine ⟨_, hfit, fun N' _ eps n1 n2 X1 X2 hn1 hn2 hX1 hX2 hA1 hA2 hnum => ?_⟩
  obtain ⟨b1, e1, q1⟩ := hf N' eps n1 X1 hn1 hX1 hA1
  obtain ⟨b2, e2, q2⟩ := hf N' eps n2 X2 hn2 hX2 hA2
  obtain ⟨l1, r1, r1', r1''⟩ := C31_argmax (classes := o.est.classes)
    (proba := (List.range n1).map fun i => (List.range m).map fun j => f (binsOf b1 i) m j eps) (List.length_pos_iff.1 (by omega)) (by simp [hm])
  obtain ⟨l2, r2, r2', r2''⟩ := C31_argmax (classes := o.est.classes)
    (proba := (List.range n2).map fun i => (List.range m).map fun j => f (binsOf b2 i) m j eps) (List.length_pos_iff.1 (by omega)) (by simp [hm])
  refine ⟨_, _, l1, l2, q1, q2, by unfold Est.predict; simp only; rw [q1, bind_ok]; exact r1, by unfold Est.predict; simp only; rw [q2, bind_ok]; exact r2,
    by simp, by simp, by simpa using r1', by simpa using r2', fun i1 i2 hi1 hi2 hrow => ?_⟩
  have hb := hfacts.same_bins hn1 hn2 hX1 hX2 e1 e2 hnum hi1 hi2 hrow
  have hp1 : ((List.range n1).map fun i => (List.range m).map fun j => f (binsOf b1 i) m j eps)[i1]? =
      some ((List.range m).map fun j => f (binsOf b1 i1) m j eps) := by simp [hi1]
  have hp2 : ((List.range n2).map fun i => (List.range m).map fun j => f (binsOf b2 i) m j eps)[i2]? =
      some ((List.range m).map fun j => f (binsOf b1 i1) m j eps) := by simp [hi2, hb]
  refine ⟨hp1.trans hp2.symm, ?_⟩
  obtain ⟨k1, g1, hk1, a1, b1⟩ := r1'' i1 _ hp1
  obtain ⟨k2, g2, hk2, a2, b2⟩ := r2'' i2 _ hp2
  have : k1 = k2 := by
    rcases Nat.lt_trichotomy k1 k2 with h | h | h
    · exact absurd (a1 k2 hk2) (not_le.2 (b2 k1 h))
    · exact h
    · exact absurd (a2 k1 hk1) (not_le.2 (b1 k2 h))
  rw [g1, g2, this]

/-- **C58** Regressor. -/
theorem C58_regressor {lib : Lib V K ℝ G W} {a : FitArgs N V} {y : List ℝ} {s : World L V K ℝ ℝ G W}
    (hlib : LibOK lib a.nRows) (hp : ParamsValid s.self (nCols a.X)) (hd : DataValid lib.conv a s y.length) (ho : s.self.ovr = false) :
    ∃ s', fitRegressor lib a y s = (.ok (), s') ∧
      ∀ (N' : Type) [DecidableEq N'] (n1 n2 : Nat) (X1 X2 : Dataset N' V), 0 < n1 → 0 < n2 → GoodInput n1 X1 → GoodInput n2 X2 →
        AcceptedBy lib s'.self X1 → AcceptedBy lib s'.self X2 → numOf lib.conv X1 = numOf lib.conv X2 →
        ∃ p1 p2, s'.self.predictReg lib n1 X1 = .ok p1 ∧ s'.self.predictReg lib n2 X2 = .ok p2 ∧ p1.length = n1 ∧ p2.length = n2 ∧
          ∀ i1 i2, i1 < n1 → i2 < n2 → (∀ j, cell X1 i1 j = cell X2 i2 j) → p1[i1]? = p2[i2]? := by
  obtain ⟨e0, o, -, hfit, hfacts⟩ := fitRegressor_ok hlib hp hd
  obtain ⟨s', h1, train, g, -, -, h2⟩ := C57_regressor hlib hp hd ho
  rw [hfit] at h1
  obtain ⟨-, rfl⟩ := Prod.mk.inj h1
  refine ⟨_, hfit, fun N' _ n1 n2 X1 X2 hn1 hn2 hX1 hX2 hA1 hA2 hnum => ?_⟩
  obtain ⟨b1, e1, q1⟩ := h2 N' n1 X1 hn1 hX1 hA1
  obtain ⟨b2, e2, q2⟩ := h2 N' n2 X2 hn2 hX2 hA2
  refine ⟨_, _, q1, q2, by simp, by simp, fun i1 i2 hi1 hi2 hrow => ?_⟩
  have hb := hfacts.same_bins hn1 hn2 hX1 hX2 e1 e2 hnum hi1 hi2 hrow
  simp [hi1, hi2, hb]

end

/-- The fourth row of the data, alone. -/
def estX1 : Dataset String Nat :=
  .frame [("a", { kind := .uif, cells := [some 3] }), ("b", { kind := .bOSU, cells := [some 2] })]

theorem estX1_good : GoodInput 1 estX1 := by
  refine ⟨by decide, ?_⟩
  intro p hp
  simp at hp
  rcases hp with rfl | rfl <;> simp [GoodSeries]

theorem estX1_accepted {P L : Type} {e : Est L Nat ℚ ℝ P Nat} (h : AcceptedBy estLib e estX) : AcceptedBy estLib e estX1 := by
  obtain ⟨cfg, enc, he, h1, -, h3⟩ := h
  refine ⟨cfg, enc, he, h1, fun i j v thr _ _ => by simp [numOf, estX1, estLib, exConv], fun hu j p cs hj hcs v hv => ?_⟩
  match j, hj with
  | 0, hj =>
    injection hj with hj
    subst hj
    refine h3 hu 0 _ cs rfl hcs v (?_ : v ∈ ([some 0, some 1, some 2, some 3, some 4, some 5].filterMap id).dedup)
    have hv : v ∈ ([some 3].filterMap id).dedup := hv
    simp at hv ⊢
    omega
  | 1, hj =>
    injection hj with hj
    subst hj
    refine h3 hu 1 _ cs rfl hcs v (?_ : v ∈ ([some 2, some 0, some 1, some 2, none, some 0].filterMap id).dedup)
    have hv : v ∈ ([some 2].filterMap id).dedup := hv
    simp at hv ⊢
    omega
  | j + 2, hj => cases hj

/-- The fourth row has the same probabilities and label alone as in the training data. -/
example : ∃ s' p1 p2 l1 l2, fitClassifier estLib (estArgs (some true) true) [3, 3, 5, 5, 8, 8] (estWorld _ true true .none 0) = (.ok (), s') ∧
    s'.self.predictProba estLib (1 / 1000) 6 estX = .ok p1 ∧ s'.self.predictProba estLib (1 / 1000) 1 estX1 = .ok p2 ∧
    s'.self.predict estLib (1 / 1000) 6 estX = .ok l1 ∧ s'.self.predict estLib (1 / 1000) 1 estX1 = .ok l2 ∧ p1[3]? = p2[0]? ∧ l1[3]? = l2[0]? ∧
    p1.length = 6 ∧ p2.length = 1 := by
  have hd := estData_valid (P := List ℝ) (ovr := true) (balanced := true) (cf := .none) (np := 0) (some true) true
  have hlib : LibOK estLib (estArgs (some true) true).nRows := estLib_ok (n := 6) (by norm_num)
  obtain ⟨s', h1, hacc, -⟩ := fit_class_labels hlib (estToy_valid _) hd (y := [3, 3, 5, 5, 8, 8]) rfl (fun _ h => by cases h)
    est_strategy (fun _ => by norm_num [estWorld, estToy])
  obtain ⟨s'', h1', hpred⟩ := C58_classifier hlib (estToy_valid _) hd (y := [3, 3, 5, 5, 8, 8]) rfl (fun _ h => by cases h)
    est_strategy (fun _ => by norm_num [estWorld, estToy])
  rw [h1] at h1'
  obtain ⟨-, rfl⟩ := Prod.mk.inj h1'
  obtain ⟨p1, p2, l1, l2, a1, a2, a3, a4, a5, a6, -, -, a9⟩ := hpred String (1 / 1000) 6 1 estX estX1 (by norm_num) (by norm_num) estX_good estX1_good hacc
    (estX1_accepted hacc) rfl
  obtain ⟨b1, b2⟩ := a9 3 0 (by norm_num) (by norm_num) (fun j => by
    match j with
    | 0 => rfl
    | 1 => rfl
    | j + 2 => rfl)
  exact ⟨s', p1, p2, l1, l2, h1, a1, a2, a3, a4, b1, b2, a5, a6⟩

/-- The same for a regressor. -/
example : ∃ s' p1 p2, fitRegressor estLib (estArgs none false) realY (estWorld _ false false .none 4) = (.ok (), s') ∧
    s'.self.predictReg estLib 6 estX = .ok p1 ∧ s'.self.predictReg estLib 1 estX1 = .ok p2 ∧ p1[3]? = p2[0]? ∧ p1.length = 6 ∧ p2.length = 1 := by
  have hd := estData_valid (P := ℝ) (ovr := false) (balanced := false) (cf := .none) (np := 4) none false
  obtain ⟨s', h1, -, hacc, -⟩ := C54_regressor (L := Nat) (lo := 0) (hi := 1) (a := estArgs none false) (y := realY)
    (s := estWorld _ false false .none 4) (estLib_ok (n := 6) (by norm_num)) (estToy_valid _) hd rfl (fun w h => realW_pos w h) (by
      intro v hv
      simp only [realY, List.mem_cons, List.not_mem_nil, or_false] at hv
      rcases hv with rfl | rfl | rfl | rfl | rfl | rfl <;> norm_num)
  obtain ⟨s'', h1', hpred⟩ := C58_regressor (y := realY) (estLib_ok (n := 6) (by norm_num)) (estToy_valid _) hd rfl
  rw [h1] at h1'
  obtain ⟨-, rfl⟩ := Prod.mk.inj h1'
  obtain ⟨p1, p2, a1, a2, a3, a4, a5⟩ := hpred String 6 1 estX estX1 (by norm_num) (by norm_num) estX_good estX1_good hacc (estX1_accepted hacc) rfl
  exact ⟨s', p1, p2, h1, a1, a2, a5 3 0 (by norm_num) (by norm_num) (fun j => by
    match j with
    | 0 => rfl
    | 1 => rfl
    | j + 2 => rfl), a3, a4⟩

end Verif
