import Verif.Proofs.BestFit
import Verif.Props.FullTree

/-! # C98: without aggregation every tree is the best fit to its bootstrap -/
set_option linter.unusedSectionVars false
namespace Verif

open Spec

theorem _root_.Verif.Spec.BestProba.congr {P : Type} {S : Sample} {g : GrownTree P} {nC : Nat} {dir : ℝ} {lab : Nat → Nat} {p q : Nat → Nat → ℝ}
    (h : BestProba S g nC dir lab p) (he : ∀ i < S.n, ∀ j < nC, q i j = p i j) : BestProba S g nC dir lab q := by
  obtain ⟨⟨m, h1, h2⟩, h3⟩ := h
  exact ⟨⟨m, fun i hi j hj => (he i hi j hj).trans (h1 i hi j hj), h2⟩, fun i hi j hj => by rw [he i hi j hj]; exact h3 i hi j hj⟩

section
variable {L V K G W N : Type} [LinearOrder L] [DecidableEq V] [DecidableEq N] [LinearOrder K] [Field K] [IsStrictOrderedRing K] [FloorSemiring K]

/-- **C98** With `aggregation=False`, `dirichlet≥0` and weights that are not negative, in multinomial mode or with at most two classes, and in exact arithmetic: the probabilities
that tree `t` returns in `predict_proba_trees` for the training rows depend only on the leaf of the row, and among all such probabilities they have the largest likelihood
on the bootstrap of the tree times a Dirichlet prior at every leaf. With `dirichlet=0`, every leaf has the class frequencies of its rows in the bootstrap. -/
theorem C98_multinomial {lib : Lib V K ℝ G W} {a : FitArgs N V} {y : List L} {s : World L V K ℝ (List ℝ) G W}
    (hlib : LibOK lib a.nRows) (hp : ParamsValid s.self (nCols a.X)) (hd : DataValid lib.conv a s y.length)
    (ht : a.targetsOK = true) (hrefit : s.self.ovr = true → s.self.fitted = true → 2 < y.dedup.length) (hst : StrategyOK y.dedup.length s.self.strategy)
    (hdir : 0 ≤ s.self.dirichlet) (hw : ∀ w ∈ s.weights, 0 ≤ w) (hagg : s.self.aggregation = false) (hml : 1 ≤ s.self.minLeaf)
    (hmode : s.self.ovr = false ∨ y.dedup.length ≤ 2) :
    ∃ s' train, ∃ g : Nat → GrownTree (List ℝ), ∃ v : Nat → Nat → Nat → ℝ, fitClassifier lib a y s = (.ok (), s') ∧
      s'.self.encode lib a.nRows a.X = .ok train ∧
      s'.self.predictProbaTrees lib a.nRows a.X = .ok ((List.range s.self.nEstimators).map fun t => (List.range a.nRows).map fun i =>
        (List.range s'.self.classes.length).map (v t i)) ∧
      ∀ t < s.self.nEstimators, GrownIn (lib.boot a.nRows) a.nRows s'.self.trees s'.self.seeds t (g t) ∧
        BestProba ⟨a.nRows, binsOf train, rowWeight (givenWeights a s) s.self.balanced a.nRows (classOf s'.self.classes y), (g t).draws⟩ (g t)
          s'.self.classes.length s.self.dirichlet (classOf s'.self.classes y) (v t) := by
  have hov : staysOvr s.self y = false := by
    unfold staysOvr
    rcases hmode with h | h
    · rw [h]; rfl
    · rw [sortedUnique_length, decide_eq_false (by omega), Bool.and_false]
  obtain ⟨s', hfit, -, -, hcl, -, hlen, htrees⟩ := class_trees hlib hp hd ht hrefit hst (fun h => by rw [hagg] at h; cases h)
  obtain ⟨train, g, htr, hacc, hall⟩ := class_bestFit hlib hp hd ht hrefit hst hdir hw hagg hml hfit
  rw [hov] at hall hlen htrees
  simp only [Bool.false_eq_true, if_false, ← hcl] at hall hlen htrees
  obtain ⟨fba, v, g1, g2, g3, g4⟩ := htrees N a.nRows a.X hd.rows.1 hd.good hacc
  obtain rfl : fba = train := Except.ok.inj (g1.symm.trans htr)
  refine ⟨s', fba, g, v, hfit, htr, by rw [g3, hlen], fun t ht' => ?_⟩
  have hto : s'.self.trees[t]? = some (s'.self.trees[t]'(by rw [hlen]; exact ht')) := List.getElem?_eq_getElem _
  obtain ⟨hg, u, hu, hu2⟩ := hall t _ hto
  obtain ⟨hlt, hor⟩ := hu2 (classOf s'.self.classes y) rfl
  refine ⟨hg, (hor _ rfl).congr fun i hi j hj => ?_⟩
  have h2 := g4 t (by rw [hlen]; exact ht')
  rw [g2] at h2
  have h3 := Except.ok.inj (h2.symm.trans hu)
  rw [List.map_inj_left] at h3
  have h4 := h3 i (List.mem_range.2 hi)
  rw [List.map_inj_left] at h4
  exact h4 _ (List.mem_range.2 hj)

/-- **C98** In one-versus-rest mode with more than two classes the same holds for the trees of class `c` and the labels that are one for the rows of this class and zero
for the others. -/
theorem C98_ovr {lib : Lib V K ℝ G W} {a : FitArgs N V} {y : List L} {s : World L V K ℝ (List ℝ) G W}
    (hlib : LibOK lib a.nRows) (hp : ParamsValid s.self (nCols a.X)) (hd : DataValid lib.conv a s y.length)
    (ht : a.targetsOK = true) (hst : StrategyOK y.dedup.length s.self.strategy)
    (hdir : 0 ≤ s.self.dirichlet) (hw : ∀ w ∈ s.weights, 0 ≤ w) (hagg : s.self.aggregation = false) (hml : 1 ≤ s.self.minLeaf)
    (hmode : s.self.ovr = true ∧ 2 < y.dedup.length) :
    ∃ s' train, ∃ g : Nat → GrownTree (List ℝ), ∃ v : Nat → Nat → Nat → ℝ, fitClassifier lib a y s = (.ok (), s') ∧
      s'.self.encode lib a.nRows a.X = .ok train ∧
      s'.self.predictProbaTrees lib a.nRows a.X = .ok ((List.range (s'.self.classes.length * s.self.nEstimators)).map fun t => (List.range a.nRows).map fun i =>
        [v t i 0, v t i 1]) ∧
      ∀ t < s'.self.classes.length * s.self.nEstimators, GrownIn (lib.boot a.nRows) a.nRows s'.self.trees s'.self.seeds t (g t) ∧
        BestProba ⟨a.nRows, binsOf train,
            rowWeight (givenWeights a s) s.self.balanced a.nRows (fun i => if classOf s'.self.classes y i = t / s.self.nEstimators then 1 else 0), (g t).draws⟩ (g t)
          2 s.self.dirichlet (fun i => if classOf s'.self.classes y i = t / s.self.nEstimators then 1 else 0) (v t) := by
  have hov : staysOvr s.self y = true := by
    unfold staysOvr
    rw [hmode.1, sortedUnique_length, decide_eq_true hmode.2]; rfl
  obtain ⟨s', hfit, -, -, hcl, -, hlen, htrees⟩ := class_trees hlib hp hd ht (fun _ _ => hmode.2) hst (fun h => by rw [hagg] at h; cases h)
  obtain ⟨train, g, htr, hacc, hall⟩ := class_bestFit hlib hp hd ht (fun _ _ => hmode.2) hst hdir hw hagg hml hfit
  rw [hov] at hall hlen htrees
  simp only [if_true, ← hcl] at hall hlen htrees
  rw [Nat.mul_comm] at hlen
  obtain ⟨fba, v, g1, g2, g3, g4⟩ := htrees N a.nRows a.X hd.rows.1 hd.good hacc
  obtain rfl : fba = train := Except.ok.inj (g1.symm.trans htr)
  refine ⟨s', fba, g, v, hfit, htr, by rw [g3, hlen]; rfl, fun t ht' => ?_⟩
  have hto : s'.self.trees[t]? = some (s'.self.trees[t]'(by rw [hlen]; exact ht')) := List.getElem?_eq_getElem _
  obtain ⟨hg, u, hu, hu2⟩ := hall t _ hto
  obtain ⟨hlt, hor⟩ := hu2 (fun i => if classOf s'.self.classes y i = t / s.self.nEstimators then 1 else 0) rfl
  refine ⟨hg, (hor _ rfl).congr fun i hi j hj => ?_⟩
  have h2 := g4 t (by rw [hlen]; exact ht')
  rw [g2] at h2
  have h3 := Except.ok.inj (h2.symm.trans hu)
  rw [List.map_inj_left] at h3
  have h4 := h3 i (List.mem_range.2 hi)
  rw [List.map_inj_left] at h4
  exact h4 _ (List.mem_range.2 hj)

/-- **C98** For a regressor the same holds for the square loss of the predictions of every tree. -/
theorem C98_regressor {lib : Lib V K ℝ G W} {a : FitArgs N V} {y : List ℝ} {s : World L V K ℝ ℝ G W}
    (hlib : LibOK lib a.nRows) (hp : ParamsValid s.self (nCols a.X)) (hd : DataValid lib.conv a s y.length)
    (hw : ∀ w ∈ s.weights, 0 ≤ w) (ho : s.self.ovr = false) (hagg : s.self.aggregation = false) (hml : 1 ≤ s.self.minLeaf) :
    ∃ s' train, ∃ g : Nat → GrownTree ℝ, ∃ v : Nat → Nat → ℝ, fitRegressor lib a y s = (.ok (), s') ∧ s'.self.encode lib a.nRows a.X = .ok train ∧
      s'.self.predictReg lib a.nRows a.X = .ok ((List.range a.nRows).map fun i => (∑ t ∈ Finset.range s.self.nEstimators, v t i) / s.self.nEstimators) ∧
      ∀ t < s.self.nEstimators, GrownIn (lib.boot a.nRows) a.nRows s'.self.trees s'.self.seeds t (g t) ∧
        (∃ o, s'.self.trees[t]? = some o ∧ o.predict mixF train = .ok ((List.range a.nRows).map (v t))) ∧
        LeastSquares ⟨a.nRows, binsOf train, fun i => (givenWeights a s).getD i 0, (g t).draws⟩ (g t) (fun i => y.getD i 0) (v t) := by
  obtain ⟨e0, o, he0, hfit, hfacts⟩ := fitRegressor_ok hlib hp hd
  obtain ⟨train, g, u, h1, h2, h3, h4⟩ := reg_bestFit hlib hp hd hw ho hagg hml hfit
  refine ⟨_, train, g, u, hfit, h1, h3, fun t ht => ?_⟩
  obtain ⟨hg, k1, k2⟩ := h4 t _ (List.getElem?_eq_getElem (by rw [h2]; exact ht))
  exact ⟨hg, ⟨_, List.getElem?_eq_getElem _, k1⟩, k2 _ rfl⟩

end

/-- The hypotheses of `C98_multinomial` hold for three classes; without a prior, both trees give row 2 the class frequencies of its leaf. -/
example : ∃ s' train, ∃ g : Nat → GrownTree (List ℝ), ∃ v : Nat → Nat → Nat → ℝ,
    fitClassifier estLib (estArgs (some true) false) [3, 3, 5, 5, 8, 8] ⟨estFull _ false 0, realW, 0⟩ = (.ok (), s') ∧
    s'.self.predictProbaTrees estLib 6 estX = .ok ((List.range 2).map fun t => (List.range 6).map fun i => (List.range 3).map (v t i)) ∧
    ∀ t < 2, ∃ S : Sample, S.draws = [0, 0, 1, 2, 3, 3] ∧ S.X = binsOf train ∧ ∀ j < 3, S.atLeaf (g t) ((g t).leafOf (S.X 2)) (fun _ => 1) * v t 2 j =
      S.atLeaf (g t) ((g t).leafOf (S.X 2)) (fun r => if classOf [3, 5, 8] [3, 3, 5, 5, 8, 8] r = j then 1 else 0) := by
  have hlib : LibOK estLib (estArgs (some true) false).nRows := estLib_ok (n := 6) (by norm_num)
  obtain ⟨s', train, g, v, h1, h2, h3, h4⟩ := C98_multinomial (y := [3, 3, 5, 5, 8, 8]) (s := ⟨estFull _ false 0, realW, 0⟩) hlib (estFull_valid _) estFull_data rfl
    (fun _ h => by cases h) est_strategy (by simp [estFull]) (fun w h => (realW_pos w h).le) rfl (by norm_num [estFull, estToy]) (.inl rfl)
  have hc : s'.self.classes = [3, 5, 8] := by
    obtain ⟨e0, o, he0, hfit, -⟩ := fitClassifier_ok (okW := fun _ => True) (y := [3, 3, 5, 5, 8, 8]) (s := ⟨estFull _ false 0, realW, 0⟩) hlib
      (estFull_valid _) estFull_data rfl (fun _ h => by cases h) (fun h => by cases h) est_strategy (fun k _ => by simp [Num.toNat, Num.ofNat]) (fun _ _ => trivial)
    subst he0
    rw [(Prod.mk.inj (h1.symm.trans hfit)).2]; change sortedUnique [3, 3, 5, 5, 8, 8] = _; decide
  rw [hc] at h3 h4
  refine ⟨s', train, g, v, h1, h3, fun t ht => ?_⟩
  obtain ⟨hg, hn⟩ := h4 t ht
  refine ⟨⟨6, binsOf train, rowWeight realW false 6 (classOf [3, 5, 8] [3, 3, 5, 5, 8, 8]), (g t).draws⟩, ?_, rfl, fun j hj => ?_⟩
  rotate_left
  · have := hn.calibrated 2 (by norm_num [estArgs]) j hj
    simp only [estFull, mul_zero, add_zero] at this
    exact this
  · obtain ⟨-, seed, -, -, -, -, hb⟩ := hg
    exact est_bootstrap_rows hb

/-- The hypotheses of `C98_ovr` hold; tree 3 belongs to the class `5`. -/
example : ∃ s' train, ∃ g : Nat → GrownTree (List ℝ), ∃ v : Nat → Nat → Nat → ℝ,
    fitClassifier estLib (estArgs (some true) false) [3, 3, 5, 5, 8, 8] ⟨estFull _ true (1 / 2), realW, 0⟩ = (.ok (), s') ∧
    s'.self.predictProbaTrees estLib 6 estX = .ok ((List.range 6).map fun t => (List.range 6).map fun i => [v t i 0, v t i 1]) ∧
    BestProba ⟨6, binsOf train, rowWeight realW false 6 (fun i => if classOf [3, 5, 8] [3, 3, 5, 5, 8, 8] i = 1 then 1 else 0), (g 3).draws⟩ (g 3) 2 (1 / 2)
      (fun i => if classOf [3, 5, 8] [3, 3, 5, 5, 8, 8] i = 1 then 1 else 0) (v 3) := by
  have hlib : LibOK estLib (estArgs (some true) false).nRows := estLib_ok (n := 6) (by norm_num)
  obtain ⟨s', train, g, v, h1, h2, h3, h4⟩ := C98_ovr (y := [3, 3, 5, 5, 8, 8]) (s := ⟨estFull _ true (1 / 2), realW, 0⟩) hlib (estFull_valid _) estFull_data rfl
    est_strategy (by norm_num [estFull]) (fun w h => (realW_pos w h).le) rfl (by norm_num [estFull, estToy]) ⟨rfl, by decide⟩
  have hc : s'.self.classes = [3, 5, 8] := by
    obtain ⟨e0, o, he0, hfit, -⟩ := fitClassifier_ok (okW := fun _ => True) (y := [3, 3, 5, 5, 8, 8]) (s := ⟨estFull _ true (1 / 2), realW, 0⟩) hlib
      (estFull_valid _) estFull_data rfl (fun _ h => by cases h) (fun h => by cases h) est_strategy (fun k _ => by simp [Num.toNat, Num.ofNat]) (fun _ _ => trivial)
    subst he0
    rw [(Prod.mk.inj (h1.symm.trans hfit)).2]; change sortedUnique [3, 3, 5, 5, 8, 8] = _; decide
  rw [hc] at h3 h4
  refine ⟨s', train, g, v, h1, h3, ?_⟩
  have := (h4 3 (by norm_num [estFull, estToy])).2
  exact this

/-- The hypotheses of `C98_regressor` hold: no constant has a smaller square loss on the bootstrap than the tree. -/
example : ∃ s' train, ∃ g : Nat → GrownTree ℝ, ∃ v : Nat → Nat → ℝ,
    fitRegressor estLib (estArgs (some true) false) realY (⟨estFull _ false 0, realW, 0⟩ : World Nat Nat ℚ ℝ ℝ Nat Nat) = (.ok (), s') ∧
    ∀ t < 2, ∀ c, ∃ S : Sample, S = ⟨6, binsOf train, fun i => realW.getD i 0, (g t).draws⟩ ∧
      S.total (fun i => (realY.getD i 0 - v t i) ^ 2) ≤ S.total (fun i => (realY.getD i 0 - c) ^ 2) := by
  have hlib : LibOK estLib (estArgs (some true) false).nRows := estLib_ok (n := 6) (by norm_num)
  obtain ⟨s', train, g, v, h1, h2, h3, h4⟩ := C98_regressor (L := Nat) (y := realY) (s := ⟨estFull _ false 0, realW, 0⟩) hlib (estFull_valid _)
    estFull_data (fun w h => (realW_pos w h).le) rfl rfl (by norm_num [estFull, estToy])
  exact ⟨s', train, g, v, h1, fun t ht c => ⟨_, rfl, (h4 t ht).2.2.best fun _ => c⟩⟩

end Verif
