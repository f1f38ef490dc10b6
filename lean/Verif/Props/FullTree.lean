import Verif.Proofs.FullForest
import Verif.Props.InspectForest
import Verif.Props.Estimator

/-! # C79: trees without limits fit their bootstrap exactly -/
set_option linter.unusedSectionVars false
namespace Verif

open Spec

section
variable {L V K G W N : Type} [LinearOrder L] [DecidableEq V] [DecidableEq N] [LinearOrder K] [Field K] [IsStrictOrderedRing K] [FloorSemiring K]

/-- **C79** With `aggregation=False`, no limits for the growth of the trees, all features tried at each split and exact arithmetic, every tree of a classifier
(multinomial mode, or at most two classes) separates the rows of its bootstrap: for a drawn row, the column of `predict_proba_trees` that belongs to its own
label is the strictly largest one, unless another drawn row has the same bins and another label. With `dirichlet=0` it is one, and the probability that the forest
gives to the label of a row is at least the share of trees whose bootstrap contains the row. -/
theorem C79_multinomial {lib : Lib V K ℝ G W} {a : FitArgs N V} {y : List L} {s : World L V K ℝ (List ℝ) G W}
    (hlib : LibOK lib a.nRows) (hs : ArgsortSorts lib.argsort) (hp : ParamsValid s.self (nCols a.X)) (hd : DataValid lib.conv a s y.length)
    (ht : a.targetsOK = true) (hrefit : s.self.ovr = true → s.self.fitted = true → 2 < y.dedup.length) (hst : StrategyOK y.dedup.length s.self.strategy)
    (hdir : 0 ≤ s.self.dirichlet) (hw : ∀ w ∈ s.weights, 0 < w) (hmode : s.self.ovr = false ∨ y.dedup.length ≤ 2) (hno : NoLimits s.self a) :
    ∃ s' train, ∃ draws : Nat → List Nat, ∃ v : Nat → Nat → Nat → ℝ, fitClassifier lib a y s = (.ok (), s') ∧ s'.self.encode lib a.nRows a.X = .ok train ∧
      (∀ t < s.self.nEstimators, ∃ seed, s'.self.seeds[t]? = some seed ∧ BootstrapOf (lib.boot a.nRows) a.nRows seed (draws t)) ∧
      s'.self.predictProbaTrees lib a.nRows a.X = .ok ((List.range s.self.nEstimators).map fun t => (List.range a.nRows).map fun i =>
        (List.range s'.self.classes.length).map (v t i)) ∧
      (∀ eps, s'.self.predictProba lib eps a.nRows a.X = .ok ((List.range a.nRows).map fun i => (List.range s'.self.classes.length).map fun j =>
        (∑ t ∈ Finset.range s.self.nEstimators, v t i j) / s.self.nEstimators)) ∧
      (∀ t < s.self.nEstimators, ∀ i < a.nRows, i ∈ draws t → Consistent (nCols a.X) (binsOf train) (classOf s'.self.classes y) (draws t) i →
        (∀ j < s'.self.classes.length, j ≠ classOf s'.self.classes y i → v t i j < v t i (classOf s'.self.classes y i)) ∧
        (s.self.dirichlet = 0 → v t i (classOf s'.self.classes y i) = 1)) ∧
      (s.self.dirichlet = 0 → ∀ i < a.nRows, Consistent (nCols a.X) (binsOf train) (classOf s'.self.classes y) (List.range a.nRows) i →
        timesInBag s.self.nEstimators draws i / s.self.nEstimators ≤
          (∑ t ∈ Finset.range s.self.nEstimators, v t i (classOf s'.self.classes y i)) / s.self.nEstimators) := by
  have hov : staysOvr s.self y = false := by
    unfold staysOvr
    rcases hmode with h | h
    · rw [h]; rfl
    · rw [sortedUnique_length, decide_eq_false (by omega), Bool.and_false]
  have hag : s.self.aggregation ≠ true := by rw [hno.aggregation]; simp
  obtain ⟨s', hfit, hlen, htrees⟩ := C60_trees_partial hlib hp hd ht hrefit hst (fun h => absurd h hag) hmode
  obtain ⟨s1, hfit1, -, hcl, -, -, -, -, -, -, -, -, hdist⟩ := fit_class_facts hlib hp hd ht hrefit hst hdir (fun h => absurd h hag)
    (fun w h => (hw w h).le) (.inr hw)
  obtain ⟨-, rfl⟩ := Prod.mk.inj (hfit.symm.trans hfit1)
  obtain ⟨train, draws, htr, hrows, hacc, hall⟩ := class_full hlib hs hp hd ht hrefit hst hw hno hfit
  rw [hov] at hall hdist
  simp only [Bool.false_eq_true, if_false, treeLabel] at hall hdist
  obtain ⟨fba, v, g1, g2, g3, -⟩ := htrees N 0 a.nRows a.X hd.rows.1 hd.good hacc
  obtain rfl : fba = train := Except.ok.inj (g1.symm.trans htr)
  obtain ⟨fba', k1, k2, k3⟩ := hdist N a.nRows a.X hd.rows.1 hd.good hacc
  obtain rfl : fba' = fba := Except.ok.inj (k1.symm.trans htr)
  rw [← hcl] at hall k3
  have hval : ∀ t < s.self.nEstimators, ∀ i < a.nRows, i ∈ draws t →
      Consistent (nCols a.X) (binsOf fba') (classOf s'.self.classes y) (draws t) i →
      ∃ wt : ℝ, 0 < wt ∧ ∀ j < s'.self.classes.length, v t i j = (wt * (if classOf s'.self.classes y i = j then 1 else 0) + s.self.dirichlet) /
        (wt + s'.self.classes.length * s.self.dirichlet) := by
    intro t ht' i hi hid hc
    obtain ⟨-, u, hu, hu2⟩ := hall t _ (List.getElem?_eq_getElem (by rw [hlen]; exact ht'))
    obtain ⟨wt, hwt, hj⟩ := hu2 i hi hid hc
    refine ⟨wt, hwt, fun j hj' => ?_⟩
    rw [← hj]
    have h2 := g3 t _ (List.getElem?_eq_getElem (by rw [hlen]; exact ht'))
    have h3 := Except.ok.inj (h2.symm.trans hu)
    rw [List.map_inj_left] at h3
    have h4 := h3 i (List.mem_range.2 hi)
    rw [List.map_inj_left] at h4
    exact h4 j (List.mem_range.2 hj')
  have hclass : ∀ i < a.nRows, classOf s'.self.classes y i < s'.self.classes.length := fun i hi => by
    have := treeLabel_lt (b := false) (k := 0) (y := y) (i := i) (by rw [hd.labels]; exact hi)
    simpa [treeLabel, hcl] using this
  refine ⟨s', fba', draws, v, hfit, htr, fun t ht' => (hall t _ (List.getElem?_eq_getElem (by rw [hlen]; exact ht'))).1, g2, fun eps => ?_, ?_, ?_⟩
  · obtain ⟨fba2, v', e1, -, e3, e4⟩ := htrees N eps a.nRows a.X hd.rows.1 hd.good hacc
    obtain rfl : fba2 = fba' := Except.ok.inj (e1.symm.trans htr)
    rw [e4]
    congr 1
    refine List.map_congr_left fun i hi => List.map_congr_left fun j hj => ?_
    congr 1
    refine Finset.sum_congr rfl fun t ht' => ?_
    have ht'' : t < s'.self.trees.length := by rw [hlen]; exact Finset.mem_range.1 ht'
    have h3 := Except.ok.inj ((e3 t _ (List.getElem?_eq_getElem ht'')).symm.trans (g3 t _ (List.getElem?_eq_getElem ht'')))
    rw [List.map_inj_left] at h3
    have h4 := h3 i hi
    rw [List.map_inj_left] at h4
    exact h4 j hj
  · intro t ht' i hi hid hc
    obtain ⟨wt, hwt, hj⟩ := hval t ht' i hi hid hc
    have hpos : 0 < wt + s'.self.classes.length * s.self.dirichlet := by positivity
    refine ⟨fun j hj' hne => ?_, fun h0 => ?_⟩
    · rw [hj j hj', hj _ (hclass i hi), if_neg (Ne.symm hne), if_pos rfl]
      exact div_lt_div_of_pos_right (by linarith) hpos
    · rw [hj _ (hclass i hi), if_pos rfl, h0, mul_one, mul_zero, add_zero, div_self hwt.ne']
  · intro h0 i hi hc
    refine div_le_div_of_nonneg_right ?_ (Nat.cast_nonneg _)
    have hsum : (timesInBag s.self.nEstimators draws i : ℝ) = ∑ t ∈ Finset.range s.self.nEstimators, if i ∈ draws t then 1 else 0 := by
      rw [Finset.sum_boole, timesInBag]
      congr 1
    rw [hsum]
    refine Finset.sum_le_sum fun t ht' => ?_
    have ht'' : t < s'.self.trees.length := by rw [hlen]; exact Finset.mem_range.1 ht'
    split
    · rename_i hid
      obtain ⟨wt, hwt, hj⟩ := hval t (Finset.mem_range.1 ht') i hi hid (fun r hr hb => by
        obtain ⟨⟨seed, -, m, h1, -⟩, -⟩ := hall t _ (List.getElem?_eq_getElem ht'')
        refine hc r (List.mem_range.2 ?_) hb
        rw [h1] at hr
        exact (hlib.boot _).2 r hr)
      rw [hj _ (hclass i hi), if_pos rfl, h0, mul_one, mul_zero, add_zero, div_self hwt.ne']
    · obtain ⟨p, hp1, hp2, hp3⟩ := k3 _ (List.getElem_mem ht'')
      have := Except.ok.inj (hp1.symm.trans (g3 t _ (List.getElem?_eq_getElem ht'')))
      have hm : (List.range s'.self.classes.length).map (v t i) ∈ p := by
        rw [this]; exact List.mem_map.2 ⟨i, List.mem_range.2 hi, rfl⟩
      exact ((hp3 _ hm).2.1 _ (List.mem_map.2 ⟨_, List.mem_range.2 (hclass i hi), rfl⟩)).1

/-- **C79** With `dirichlet=0`, `predict` gives every training row that is in the bootstrap of more than half of the trees its own label, unless another row has the same
bins and another label. -/
theorem C79_majority {lib : Lib V K ℝ G W} {a : FitArgs N V} {y : List L} {s : World L V K ℝ (List ℝ) G W} {eps : ℝ} (heps : 0 ≤ eps)
    (hlib : LibOK lib a.nRows) (hs : ArgsortSorts lib.argsort) (hp : ParamsValid s.self (nCols a.X)) (hd : DataValid lib.conv a s y.length)
    (ht : a.targetsOK = true) (hrefit : s.self.ovr = true → s.self.fitted = true → 2 < y.dedup.length) (hst : StrategyOK y.dedup.length s.self.strategy)
    (hdir : s.self.dirichlet = 0) (hw : ∀ w ∈ s.weights, 0 < w) (hmode : s.self.ovr = false ∨ y.dedup.length ≤ 2) (hno : NoLimits s.self a) :
    ∃ s' train labels, ∃ draws : Nat → List Nat, fitClassifier lib a y s = (.ok (), s') ∧ s'.self.encode lib a.nRows a.X = .ok train ∧
      (∀ t < s.self.nEstimators, ∃ seed, s'.self.seeds[t]? = some seed ∧ BootstrapOf (lib.boot a.nRows) a.nRows seed (draws t)) ∧
      s'.self.predict lib eps a.nRows a.X = .ok labels ∧ labels.length = a.nRows ∧
      ∀ i < a.nRows, Consistent (nCols a.X) (binsOf train) (fun i => y[i]?) (List.range a.nRows) i →
        s.self.nEstimators < 2 * timesInBag s.self.nEstimators draws i → labels[i]? = y[i]? := by
  obtain ⟨s', train, draws, v, h1, h2, h3, h4, h5, h6, h7⟩ := C79_multinomial hlib hs hp hd ht hrefit hst hdir.ge hw hmode hno
  have hag : s.self.aggregation ≠ true := by rw [hno.aggregation]; simp
  obtain ⟨s1, g1, -, gmem, gacc, g4⟩ := C54_classifier heps hlib hp hd ht hrefit hst hdir.ge (fun h => absurd h hag) (fun w h => (hw w h).le) (.inr hw)
  obtain ⟨-, rfl⟩ := Prod.mk.inj (h1.symm.trans g1)
  obtain ⟨proba, labels, k1, k2, k3, k4, k5, k6⟩ := g4 N a.nRows a.X hd.rows.1 hd.good gacc
  refine ⟨s', train, labels, draws, h1, h2, h3, k4, k5, fun i hi hc hT => ?_⟩
  have hpr := Except.ok.inj (k1.symm.trans (h5 eps))
  have hyi : i < y.length := by rw [hd.labels]; exact hi
  have hq := h7 hdir i hi (fun r hr hb => by
    have := hc r hr hb
    simp only [classOf] at this ⊢
    rw [this])
  have hE : (0 : ℝ) < s.self.nEstimators := by exact_mod_cast hp.estimators
  have hhalf : (1 : ℝ) / 2 < (∑ t ∈ Finset.range s.self.nEstimators, v t i (classOf s'.self.classes y i)) / s.self.nEstimators := by
    refine lt_of_lt_of_le ?_ hq
    rw [div_lt_div_iff₀ (by norm_num) hE]
    have : (s.self.nEstimators : ℝ) < 2 * timesInBag s.self.nEstimators draws i := by exact_mod_cast hT
    linarith
  have hmemc : y[i] ∈ s'.self.classes := (gmem _).2 (List.getElem_mem hyi)
  have hco : classOf s'.self.classes y i = s'.self.classes.idxOf y[i] := by simp only [classOf, List.getElem?_eq_getElem hyi]
  have hclt : classOf s'.self.classes y i < s'.self.classes.length := by rw [hco]; exact List.idxOf_lt_length_of_mem hmemc
  obtain ⟨p, hp'⟩ : ∃ p, proba[i]? = some p := ⟨_, List.getElem?_eq_getElem (by rw [k2]; exact hi)⟩
  have hpe : p = (List.range s'.self.classes.length).map fun j => (∑ t ∈ Finset.range s.self.nEstimators, v t i j) / s.self.nEstimators := by
    rw [hpr, List.getElem?_map, List.getElem?_range hi] at hp'
    exact (Option.some.inj hp').symm
  obtain ⟨k, l, q1, q2, -, hk, qmax, -⟩ := k6 i p hp'
  obtain ⟨q4, q5, q6⟩ := k3 p (List.mem_of_getElem? hp')
  have hkc : k = classOf s'.self.classes y i := by
    by_contra hne
    have hcp : classOf s'.self.classes y i < p.length := by rw [q4]; exact hclt
    have hv1 : p[classOf s'.self.classes y i] = (∑ t ∈ Finset.range s.self.nEstimators, v t i (classOf s'.self.classes y i)) / s.self.nEstimators := by
      simp only [hpe, List.getElem_map, List.getElem_range]
    have hv2 := qmax _ hcp
    have hsum : p[classOf s'.self.classes y i] + p[k] ≤ 1 := by
      rw [← q6, ← Fin.sum_univ_getElem p, ← Finset.sum_pair (f := fun j : Fin p.length => p[j.1]) (a := ⟨_, hcp⟩) (b := ⟨k, hk⟩) (fun e => hne (by
        have := congrArg Fin.val e; exact this.symm))]
      exact Finset.sum_le_sum_of_subset_of_nonneg (Finset.subset_univ _) fun j _ _ => (q5 _ (List.getElem_mem _)).1
    rw [hv1] at hsum hv2
    linarith
  rw [q1, ← q2, hkc, hco, List.getElem?_eq_getElem (List.idxOf_lt_length_of_mem hmemc), List.getElem_idxOf, List.getElem?_eq_getElem hyi]

/-- **C79** In one-versus-rest mode with more than two classes, the trees of class `c` separate this class from the rest. -/
theorem C79_ovr {lib : Lib V K ℝ G W} {a : FitArgs N V} {y : List L} {s : World L V K ℝ (List ℝ) G W}
    (hlib : LibOK lib a.nRows) (hs : ArgsortSorts lib.argsort) (hp : ParamsValid s.self (nCols a.X)) (hd : DataValid lib.conv a s y.length)
    (ht : a.targetsOK = true) (hst : StrategyOK y.dedup.length s.self.strategy)
    (hdir : 0 ≤ s.self.dirichlet) (hw : ∀ w ∈ s.weights, 0 < w) (hmode : s.self.ovr = true ∧ 2 < y.dedup.length) (hno : NoLimits s.self a) :
    ∃ s' train, ∃ draws : Nat → List Nat, ∃ v : Nat → Nat → Nat → ℝ, fitClassifier lib a y s = (.ok (), s') ∧ s'.self.encode lib a.nRows a.X = .ok train ∧
      (∀ t < s'.self.classes.length * s.self.nEstimators, ∃ seed, s'.self.seeds[t]? = some seed ∧ BootstrapOf (lib.boot a.nRows) a.nRows seed (draws t)) ∧
      s'.self.predictProbaTrees lib a.nRows a.X = .ok ((List.range (s'.self.classes.length * s.self.nEstimators)).map fun t => (List.range a.nRows).map fun i =>
        [v t i 0, v t i 1]) ∧
      ∀ t < s'.self.classes.length * s.self.nEstimators, ∀ i < a.nRows, i ∈ draws t →
        Consistent (nCols a.X) (binsOf train) (fun i => decide (classOf s'.self.classes y i = t / s.self.nEstimators)) (draws t) i →
        if classOf s'.self.classes y i = t / s.self.nEstimators then v t i 0 < v t i 1 else v t i 1 < v t i 0 := by
  have hov : staysOvr s.self y = true := by
    unfold staysOvr
    rw [hmode.1, sortedUnique_length, decide_eq_true hmode.2]; rfl
  have hag : s.self.aggregation ≠ true := by rw [hno.aggregation]; simp
  obtain ⟨s', hfit, -, -, hcl, -, hlen, htrees⟩ := class_trees hlib hp hd ht (fun _ _ => hmode.2) hst (fun h => absurd h hag)
  obtain ⟨train, draws, htr, hrows, hacc, hall⟩ := class_full hlib hs hp hd ht (fun _ _ => hmode.2) hst hw hno hfit
  rw [hov] at hall hlen htrees
  simp only [if_true, treeLabel] at hall hlen htrees
  obtain ⟨fba, v, g1, g2, g3, g4⟩ := htrees N a.nRows a.X hd.rows.1 hd.good hacc
  obtain rfl : fba = train := Except.ok.inj (g1.symm.trans htr)
  rw [← hcl, Nat.mul_comm] at hlen
  rw [← hcl] at hall
  refine ⟨s', fba, draws, v, hfit, htr, fun t ht' => (hall t _ (List.getElem?_eq_getElem (by rw [hlen]; exact ht'))).1, by rw [g3, hlen]; rfl, ?_⟩
  intro t ht' i hi hid hc
  have hto : s'.self.trees[t]? = some (s'.self.trees[t]'(by rw [hlen]; exact ht')) := List.getElem?_eq_getElem _
  obtain ⟨-, u, hu, hu2⟩ := hall t _ hto
  obtain ⟨wt, hwt, hj⟩ := hu2 i hi hid (fun r hr hb => by
    have h : decide (classOf s'.self.classes y r = t / s.self.nEstimators) = decide (classOf s'.self.classes y i = t / s.self.nEstimators) := hc r hr hb
    simp only [treeLabel, if_true]
    by_cases h1 : classOf s'.self.classes y i = t / s.self.nEstimators
    · rw [decide_eq_true h1, decide_eq_true_eq] at h
      rw [if_pos h1, if_pos h]
    · rw [decide_eq_false h1, decide_eq_false_iff_not] at h
      rw [if_neg h1, if_neg h])
  have hvu : ∀ j < 2, v t i j = u i j := fun j hj => by
    have h2 := g4 t (by rw [hlen]; exact ht')
    rw [g2] at h2
    have h3 := Except.ok.inj (h2.symm.trans hu)
    rw [List.map_inj_left] at h3
    have h4 := h3 i (List.mem_range.2 hi)
    rw [List.map_inj_left] at h4
    exact h4 j (List.mem_range.2 hj)
  have hpos : 0 < wt + ((2 : Nat) : ℝ) * s.self.dirichlet := by positivity
  rw [hvu 0 (by omega), hvu 1 (by omega), hj 0, hj 1]
  split
  · simp only [one_ne_zero, if_true, if_false]
    exact div_lt_div_of_pos_right (by linarith) hpos
  · simp only [zero_ne_one, if_true, if_false]
    exact div_lt_div_of_pos_right (by linarith) hpos

/-- **C79** Under the same conditions, every tree of a regressor predicts for a drawn row exactly its label, unless another drawn row has the same bins and another label. -/
theorem C79_regressor {lib : Lib V K ℝ G W} {a : FitArgs N V} {y : List ℝ} {s : World L V K ℝ ℝ G W}
    (hlib : LibOK lib a.nRows) (hs : ArgsortSorts lib.argsort) (hp : ParamsValid s.self (nCols a.X)) (hd : DataValid lib.conv a s y.length)
    (hw : ∀ w ∈ s.weights, 0 < w) (ho : s.self.ovr = false) (hno : NoLimits s.self a) :
    ∃ s' train, ∃ draws : Nat → List Nat, ∃ v : Nat → Nat → ℝ, fitRegressor lib a y s = (.ok (), s') ∧ s'.self.encode lib a.nRows a.X = .ok train ∧
      (∀ t < s.self.nEstimators, ∃ seed, s'.self.seeds[t]? = some seed ∧ BootstrapOf (lib.boot a.nRows) a.nRows seed (draws t)) ∧
      (∀ (t : Nat) (o : TreeObj ℝ ℝ G), s'.self.trees[t]? = some o → o.predict mixF train = .ok ((List.range a.nRows).map (v t))) ∧
      s'.self.predictReg lib a.nRows a.X = .ok ((List.range a.nRows).map fun i => (∑ t ∈ Finset.range s.self.nEstimators, v t i) / s.self.nEstimators) ∧
      ∀ t < s.self.nEstimators, ∀ i < a.nRows, i ∈ draws t → Consistent (nCols a.X) (binsOf train) (fun i => y[i]?) (draws t) i → some (v t i) = y[i]? := by
  obtain ⟨e0, o, he0, hfit, hfacts⟩ := fitRegressor_ok hlib hp hd
  obtain ⟨train, draws, u, h1, h2, h3, h4⟩ := reg_full hlib hs hp hd hw ho hno hfit
  refine ⟨_, train, draws, u, hfit, h1, fun t ht => (h4 t _ (List.getElem?_eq_getElem (by rw [h2]; exact ht))).1, fun t o hob => (h4 t o hob).2.1, h3, ?_⟩
  intro t ht i hi hid hc
  have hyi : i < y.length := by rw [hd.labels]; exact hi
  rw [(h4 t _ (List.getElem?_eq_getElem (by rw [h2]; exact ht))).2.2 i hi hid (fun r hr hb => by
    have := hc r hr hb
    simp only [List.getD_eq_getElem?_getD] at this ⊢
    rw [this])]
  simp [List.getD_eq_getElem?_getD, List.getElem?_eq_getElem hyi]

end

/-- The bins of the categorical column of the example. -/
theorem est_bins {F Y P : Type} [Num F] {lib : Lib Nat ℚ F Nat Nat} (hc : lib.conv = exConv) {w : Option Bool} {r : Bool} {p : FitData F Y P Nat} {lab : F → Prop}
    {okW : List F → Prop} {e e' : Est Nat Nat ℚ F P Nat} (h : FitFacts lib (estArgs w r) p lab okW e e') {train : FBA}
    (ht : e'.encode lib 6 estX = .ok train) : binsOf train 0 1 = 1 ∧ binsOf train 1 1 = 2 ∧ binsOf train 2 1 = 0 ∧ binsOf train 3 1 = 1 := by
  obtain ⟨cfg, enc, he, hF, hm, h63, hlen, -, -⟩ := h.encoder
  obtain ⟨_, hok, -⟩ := encoderFit_ok hm hF
  obtain ⟨subset, hfit, -⟩ := hF
  have h1 : enc[1]? = some (.cat [1, 2, 0]) := by
    change fitDataFrame lib.conv cfg subset [_, _] = _ at hfit
    unfold fitDataFrame at hfit
    replace hfit : List.mapM (fun p => fitSeries lib.conv cfg subset p.1 p.2) 
        [(0, { kind := .uif, cells := [some 0, some 1, some 2, some 3, some 4, some 5] }),
          (1, { kind := .bOSU, cells := [some 2, some 0, some 1, some 2, none, some 0] })] = .ok enc := by
      simp only at hfit
      split at hfit
      · split at hfit
        · cases hfit
        · exact hfit
      · exact hfit
    have hall := mapM_eq_ok.1 hfit
    have hlen2 : 1 < enc.length := by rw [← hall.length_eq]; simp
    have hser := hall.get (i := 1) (by simp) hlen2
    simp only [List.get_eq_getElem, List.getElem_cons_succ, List.getElem_cons_zero] at hser
    rw [List.getElem?_eq_getElem hlen2]
    unfold fitSeries at hser
    rw [bind_eq_ok] at hser
    obtain ⟨d, -, hser⟩ := hser
    have hk : ∀ (d : Option Bool) m k, isSeriesCategorical .bOSU d m k = .ok .toCategory := by
      intro d m k
      unfold isSeriesCategorical
      rcases d with _ | _ | _ <;> simp
    rw [hk, bind_ok] at hser
    rw [← Except.ok.inj hser, hc]
    congr 2
  have htr : encoderTransform lib.conv cfg enc lib.words 6 estX = .ok train := by
    simp only [Est.encode, he] at ht; exact ht
  obtain ⟨-, -, -, -, -, -, h7⟩ := encoderTransform_ok hok h63 (by norm_num) estX_good htr
  have key : ∀ i c, cell estX i 1 = some c → ∀ b, cellBin (numOf lib.conv estX) (.cat [1, 2, 0]) c = some b → binsOf train i 1 = b := by
    intro i c hc b hb
    obtain ⟨-, fc, v, g1, g2, g3, -⟩ := h7 i 1 c hc
    obtain rfl := Option.some.inj (h1.symm.trans g1)
    obtain rfl := Option.some.inj (hb.symm.trans g2)
    simp only [binsOf, g3]
  exact ⟨key 0 (some 2) rfl 1 rfl, key 1 (some 0) rfl 2 rfl, key 2 (some 1) rfl 0 rfl, key 3 (some 2) rfl 1 rfl⟩

theorem est_bootstrap_rows {seed : Nat} {draws : List Nat} (h : BootstrapOf (estLib.boot 6) 6 seed draws) : draws = [0, 0, 1, 2, 3, 3] := by
  obtain ⟨m, h1, -⟩ := h
  rw [h1]
  rfl

/-- The estimator of the examples without limits. -/
noncomputable def estFull (P : Type) (ovr : Bool) (dir : ℝ) : Est Nat Nat ℚ ℝ P Nat :=
  { estToy P ovr false .none none with aggregation := false, dirichlet := dir }

theorem estFull_valid {P : Type} {ovr : Bool} {dir : ℝ} (d : Nat) : ParamsValid (estFull P ovr dir) d :=
  have h := estToy_valid (P := P) (ovr := ovr) (balanced := false) (cf := .none) (sub := none) d
  ⟨h.1, h.2, h.3, h.4, h.5, h.6, h.7⟩

theorem estFull_noLimits {P : Type} {ovr : Bool} {dir : ℝ} : NoLimits (estFull P ovr dir) (estArgs (some true) false) := ⟨rfl, ⟨rfl, rfl⟩, rfl, rfl, rfl⟩

theorem estFull_data {P : Type} {ovr : Bool} {dir : ℝ} : DataValid estLib.conv (estArgs (some true) false) (⟨estFull P ovr dir, realW, 0⟩ : World Nat Nat ℚ ℝ P Nat Nat) 6 :=
  have h := estData_valid (P := P) (ovr := ovr) (balanced := false) (cf := .none) (np := 0) (some true) false
  ⟨h.1, h.2, h.3, fun _ => by simp [realW, estArgs], h.5, h.6, h.7⟩

/-- In the examples row 2 has a consistent label, whatever the labels are. -/
theorem est_consistent {α : Type} {train : FBA} {lab : Nat → α}
    (hb : binsOf train 0 1 = 1 ∧ binsOf train 1 1 = 2 ∧ binsOf train 2 1 = 0 ∧ binsOf train 3 1 = 1) :
    Consistent 2 (binsOf train) lab [0, 0, 1, 2, 3, 3] 2 := by
  intro r hr h
  have h1 := h 1 (by norm_num)
  simp only [List.mem_cons, List.not_mem_nil, or_false] at hr
  rcases hr with rfl | rfl | rfl | rfl | rfl | rfl
  · omega
  · omega
  · omega
  · rfl
  · omega
  · omega

/-- The hypotheses of `C79_multinomial` and `C79_majority` hold for three classes; row 2 has consistent labels among the drawn rows, both trees give its label the
probability one, and so does the forest. -/
example : ∃ s' P, fitClassifier estLib (estArgs (some true) false) [3, 3, 5, 5, 8, 8] ⟨estFull _ false 0, realW, 0⟩ = (.ok (), s') ∧ s'.self.classes = [3, 5, 8] ∧
    s'.self.predictProba estLib (1 / 1000) 6 estX = .ok P ∧ (P[2]?.bind fun p => p[1]?) = some 1 := by
  have hlib : LibOK estLib (estArgs (some true) false).nRows := estLib_ok (n := 6) (by norm_num)
  obtain ⟨s', train, draws, v, h1, h2, h3, h4, h5, h6, -⟩ := C79_multinomial (y := [3, 3, 5, 5, 8, 8]) (s := ⟨estFull _ false 0, realW, 0⟩) hlib
    realArgsort_sorts (estFull_valid _) estFull_data rfl (fun _ h => by cases h) est_strategy (by simp [estFull]) realW_pos (.inl rfl) estFull_noLimits
  obtain ⟨e0, o, he0, hfit, hfacts⟩ := fitClassifier_ok (okW := fun _ => True) (y := [3, 3, 5, 5, 8, 8]) (s := ⟨estFull _ false 0, realW, 0⟩) hlib
    (estFull_valid _) estFull_data rfl (fun _ h => by cases h) (fun h => by cases h) est_strategy (fun k _ => by simp [Num.toNat, Num.ofNat]) (fun _ _ => trivial)
  subst he0
  have hs := (Prod.mk.inj (h1.symm.trans hfit)).2
  have hb := est_bins rfl hfacts (train := train) (by rw [show o.est = s'.self by rw [hs]]; exact h2)
  have hc : s'.self.classes = [3, 5, 8] := by rw [hs]; change sortedUnique [3, 3, 5, 5, 8, 8] = _; decide
  refine ⟨s', _, h1, hc, h5 _, ?_⟩
  have hv : ∀ t < 2, v t 2 1 = 1 := by
    intro t ht
    obtain ⟨seed, -, hbs⟩ := h3 t ht
    have hd := est_bootstrap_rows hbs
    have := (h6 t ht 2 (by norm_num [estArgs]) (by rw [hd]; simp) (by rw [hd]; exact est_consistent hb)).2 rfl
    rwa [show classOf s'.self.classes [3, 3, 5, 5, 8, 8] 2 = 1 by rw [hc]; decide] at this
  rw [hc]
  simp [estArgs, List.range_succ, estFull, estToy, Finset.sum_range_succ, hv 0 (by norm_num), hv 1 (by norm_num)]

/-- The hypotheses of `C79_ovr` hold: tree 2, for the class of row 2, prefers this class in row 2. -/
example : ∃ s', ∃ v : Nat → Nat → Nat → ℝ, fitClassifier estLib (estArgs (some true) false) [3, 3, 5, 5, 8, 8] ⟨estFull _ true 1, realW, 0⟩ = (.ok (), s') ∧
    s'.self.predictProbaTrees estLib 6 estX = .ok ((List.range 6).map fun t => (List.range 6).map fun i => [v t i 0, v t i 1]) ∧ v 2 2 0 < v 2 2 1 := by
  have hlib : LibOK estLib (estArgs (some true) false).nRows := estLib_ok (n := 6) (by norm_num)
  obtain ⟨s', train, draws, v, h1, h2, h3, h4, h5⟩ := C79_ovr (y := [3, 3, 5, 5, 8, 8]) (s := ⟨estFull _ true 1, realW, 0⟩) hlib
    realArgsort_sorts (estFull_valid _) estFull_data rfl est_strategy (by simp [estFull]) realW_pos ⟨rfl, by decide⟩ estFull_noLimits
  obtain ⟨e0, o, he0, hfit, hfacts⟩ := fitClassifier_ok (okW := fun _ => True) (y := [3, 3, 5, 5, 8, 8]) (s := ⟨estFull _ true 1, realW, 0⟩) hlib
    (estFull_valid _) estFull_data rfl (fun _ h => by cases h) (fun h => by cases h) est_strategy (fun k _ => by simp [Num.toNat, Num.ofNat]) (fun _ _ => trivial)
  subst he0
  have hs := (Prod.mk.inj (h1.symm.trans hfit)).2
  have hb := est_bins rfl hfacts (train := train) (by rw [show o.est = s'.self by rw [hs]]; exact h2)
  have hc : s'.self.classes = [3, 5, 8] := by rw [hs]; change sortedUnique [3, 3, 5, 5, 8, 8] = _; decide
  rw [hc] at h3 h4 h5
  refine ⟨s', v, h1, h4, ?_⟩
  obtain ⟨seed, -, hbs⟩ := h3 2 (by simp [estFull, estToy])
  have hd := est_bootstrap_rows hbs
  have := h5 2 (by simp [estFull, estToy]) 2 (by norm_num [estArgs]) (by rw [hd]; simp) (by rw [hd]; exact est_consistent hb)
  rwa [if_pos (by simp [estFull, estToy]; decide)] at this

/-- The hypotheses of `C79_regressor` hold: the prediction for row 2 is its label. -/
example : ∃ s' p, fitRegressor estLib (estArgs (some true) false) realY ⟨estFull _ false 0, realW, 0⟩ = (.ok (), s') ∧
    s'.self.predictReg estLib 6 estX = .ok p ∧ p[2]? = some 1 := by
  have hlib : LibOK estLib (estArgs (some true) false).nRows := estLib_ok (n := 6) (by norm_num)
  obtain ⟨s', train, draws, v, h1, h2, h3, -, h5, h6⟩ := C79_regressor (y := realY) (s := ⟨estFull _ false 0, realW, 0⟩) hlib
    realArgsort_sorts (estFull_valid _) estFull_data realW_pos rfl estFull_noLimits
  obtain ⟨e0, o, -, hfit, hfacts⟩ := fitRegressor_ok (y := realY) (s := ⟨estFull _ false 0, realW, 0⟩) hlib (estFull_valid _) estFull_data
  have hs := (Prod.mk.inj (h1.symm.trans hfit)).2
  have hb := est_bins rfl hfacts (train := train) (by rw [show o.est = s'.self by rw [hs]]; exact h2)
  refine ⟨s', _, h1, h5, ?_⟩
  have hv : ∀ t < 2, v t 2 = 1 := by
    intro t ht
    obtain ⟨seed, -, hbs⟩ := h3 t ht
    have hd := est_bootstrap_rows hbs
    have := h6 t ht 2 (by norm_num [estArgs]) (by rw [hd]; simp) (by rw [hd]; exact est_consistent hb)
    simpa [realY] using this
  simp [estArgs, List.range_succ, estFull, estToy, Finset.sum_range_succ, hv 0 (by norm_num), hv 1 (by norm_num)]

end Verif
