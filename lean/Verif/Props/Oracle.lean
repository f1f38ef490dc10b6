import Verif.Proofs.OracleForest
import Verif.Props.FullTree

/-! # C81: aggregation is almost as good as the best pruning -/
set_option linter.unusedSectionVars false
namespace Verif

open Spec

section
variable {L V K G W N : Type} [LinearOrder L] [DecidableEq V] [DecidableEq N] [LinearOrder K] [Field K] [IsStrictOrderedRing K] [FloorSemiring K]

/-- **C81** With `aggregation=True`, `step>0` and `dirichlet>0`, in multinomial mode or with at most two classes, and in exact arithmetic: on its out-of-bag rows the
logarithmic loss of the probabilities that tree `t` returns in `predict_proba_trees` exceeds the one of any pruning of the tree at most by `log 2 / step` times the number
of nodes of the pruning that are not leaves of the tree. In particular it exceeds the one of the class frequencies of the bootstrap at most by `log 2 / step`, and the one
of the same tree without aggregation at most by `log 2 / step` times the number of its splits. -/
theorem C81_multinomial {lib : Lib V K ℝ G W} {a : FitArgs N V} {y : List L} {s : World L V K ℝ (List ℝ) G W}
    (hlib : LibOK lib a.nRows) (hp : ParamsValid s.self (nCols a.X)) (hd : DataValid lib.conv a s y.length)
    (ht : a.targetsOK = true) (hrefit : s.self.ovr = true → s.self.fitted = true → 2 < y.dedup.length) (hst : StrategyOK y.dedup.length s.self.strategy)
    (hdir : 0 < s.self.dirichlet) (hw : ∀ w ∈ s.weights, 0 ≤ w) (hagg : s.self.aggregation = true) (hstep : 0 < s.self.step) (hml : 1 ≤ s.self.minLeaf)
    (hmode : s.self.ovr = false ∨ y.dedup.length ≤ 2) :
    ∃ s' train, ∃ g : Nat → GrownTree (List ℝ), ∃ v : Nat → Nat → Nat → ℝ, fitClassifier lib a y s = (.ok (), s') ∧
      s'.self.encode lib a.nRows a.X = .ok train ∧
      s'.self.predictProbaTrees lib a.nRows a.X = .ok ((List.range s.self.nEstimators).map fun t => (List.range a.nRows).map fun i =>
        (List.range s'.self.classes.length).map (v t i)) ∧
      ∀ t < s.self.nEstimators, GrownIn (lib.boot a.nRows) a.nRows s'.self.trees s'.self.seeds t (g t) ∧
        NearBestLog ⟨a.nRows, binsOf train, rowWeight (givenWeights a s) s.self.balanced a.nRows (classOf s'.self.classes y), (g t).draws⟩ (g t)
          s.self.step s.self.dirichlet s'.self.classes.length (classOf s'.self.classes y) (v t) := by
  have hov : staysOvr s.self y = false := by
    unfold staysOvr
    rcases hmode with h | h
    · rw [h]; rfl
    · rw [sortedUnique_length, decide_eq_false (by omega), Bool.and_false]
  obtain ⟨s', hfit, -, -, hcl, -, hlen, htrees⟩ := class_trees hlib hp hd ht hrefit hst (fun _ => hdir.ne')
  obtain ⟨train, g, htr, hacc, hall⟩ := class_oracle hlib hp hd ht hrefit hst hdir hw hagg hstep hml hfit
  rw [hov] at hall hlen htrees
  simp only [Bool.false_eq_true, if_false, ← hcl] at hall hlen htrees
  obtain ⟨fba, v, g1, g2, g3, g4⟩ := htrees N a.nRows a.X hd.rows.1 hd.good hacc
  obtain rfl : fba = train := Except.ok.inj (g1.symm.trans htr)
  refine ⟨s', fba, g, v, hfit, htr, by rw [g3, hlen], fun t ht' => ?_⟩
  have hto : s'.self.trees[t]? = some (s'.self.trees[t]'(by rw [hlen]; exact ht')) := List.getElem?_eq_getElem _
  obtain ⟨hg, u, hu, hu2⟩ := hall t _ hto
  obtain ⟨hlt, hor⟩ := hu2 (classOf s'.self.classes y) rfl
  refine ⟨hg, .of hstep hg.shape fun q hq => ?_⟩
  rw [outOfBagLog_congr fun i hi => ?_]
  · exact hor _ rfl q hq
  have h2 := g4 t (by rw [hlen]; exact ht')
  rw [g2] at h2
  have h3 := Except.ok.inj (h2.symm.trans hu)
  rw [List.map_inj_left] at h3
  have h4 := h3 i (List.mem_range.2 hi)
  rw [List.map_inj_left] at h4
  exact h4 _ (List.mem_range.2 (hlt i hi))

/-- **C81** In one-versus-rest mode with more than two classes the same holds for the trees of class `c` and the labels that are one for the rows of this class and zero
for the others. -/
theorem C81_ovr {lib : Lib V K ℝ G W} {a : FitArgs N V} {y : List L} {s : World L V K ℝ (List ℝ) G W}
    (hlib : LibOK lib a.nRows) (hp : ParamsValid s.self (nCols a.X)) (hd : DataValid lib.conv a s y.length)
    (ht : a.targetsOK = true) (hst : StrategyOK y.dedup.length s.self.strategy)
    (hdir : 0 < s.self.dirichlet) (hw : ∀ w ∈ s.weights, 0 ≤ w) (hagg : s.self.aggregation = true) (hstep : 0 < s.self.step) (hml : 1 ≤ s.self.minLeaf)
    (hmode : s.self.ovr = true ∧ 2 < y.dedup.length) :
    ∃ s' train, ∃ g : Nat → GrownTree (List ℝ), ∃ v : Nat → Nat → Nat → ℝ, fitClassifier lib a y s = (.ok (), s') ∧
      s'.self.encode lib a.nRows a.X = .ok train ∧
      s'.self.predictProbaTrees lib a.nRows a.X = .ok ((List.range (s'.self.classes.length * s.self.nEstimators)).map fun t => (List.range a.nRows).map fun i =>
        [v t i 0, v t i 1]) ∧
      ∀ t < s'.self.classes.length * s.self.nEstimators, GrownIn (lib.boot a.nRows) a.nRows s'.self.trees s'.self.seeds t (g t) ∧
        NearBestLog ⟨a.nRows, binsOf train,
            rowWeight (givenWeights a s) s.self.balanced a.nRows (fun i => if classOf s'.self.classes y i = t / s.self.nEstimators then 1 else 0), (g t).draws⟩ (g t)
          s.self.step s.self.dirichlet 2 (fun i => if classOf s'.self.classes y i = t / s.self.nEstimators then 1 else 0) (v t) := by
  have hov : staysOvr s.self y = true := by
    unfold staysOvr
    rw [hmode.1, sortedUnique_length, decide_eq_true hmode.2]; rfl
  obtain ⟨s', hfit, -, -, hcl, -, hlen, htrees⟩ := class_trees hlib hp hd ht (fun _ _ => hmode.2) hst (fun _ => hdir.ne')
  obtain ⟨train, g, htr, hacc, hall⟩ := class_oracle hlib hp hd ht (fun _ _ => hmode.2) hst hdir hw hagg hstep hml hfit
  rw [hov] at hall hlen htrees
  simp only [if_true, ← hcl] at hall hlen htrees
  rw [Nat.mul_comm] at hlen
  obtain ⟨fba, v, g1, g2, g3, g4⟩ := htrees N a.nRows a.X hd.rows.1 hd.good hacc
  obtain rfl : fba = train := Except.ok.inj (g1.symm.trans htr)
  refine ⟨s', fba, g, v, hfit, htr, by rw [g3, hlen]; rfl, fun t ht' => ?_⟩
  have hto : s'.self.trees[t]? = some (s'.self.trees[t]'(by rw [hlen]; exact ht')) := List.getElem?_eq_getElem _
  obtain ⟨hg, u, hu, hu2⟩ := hall t _ hto
  obtain ⟨hlt, hor⟩ := hu2 (fun i => if classOf s'.self.classes y i = t / s.self.nEstimators then 1 else 0) rfl
  refine ⟨hg, .of hstep hg.shape fun q hq => ?_⟩
  rw [outOfBagLog_congr fun i hi => ?_]
  · exact hor _ rfl q hq
  have h2 := g4 t (by rw [hlen]; exact ht')
  rw [g2] at h2
  have h3 := Except.ok.inj (h2.symm.trans hu)
  rw [List.map_inj_left] at h3
  have h4 := h3 i (List.mem_range.2 hi)
  rw [List.map_inj_left] at h4
  exact h4 _ (List.mem_range.2 (hlt i hi))

/-- **C81** For a regressor the same holds for the square loss of the predictions of every tree. -/
theorem C81_regressor {lib : Lib V K ℝ G W} {a : FitArgs N V} {y : List ℝ} {s : World L V K ℝ ℝ G W}
    (hlib : LibOK lib a.nRows) (hp : ParamsValid s.self (nCols a.X)) (hd : DataValid lib.conv a s y.length)
    (hw : ∀ w ∈ s.weights, 0 ≤ w) (ho : s.self.ovr = false) (hagg : s.self.aggregation = true) (hstep : 0 < s.self.step) (hml : 1 ≤ s.self.minLeaf) :
    ∃ s' train, ∃ g : Nat → GrownTree ℝ, ∃ v : Nat → Nat → ℝ, fitRegressor lib a y s = (.ok (), s') ∧ s'.self.encode lib a.nRows a.X = .ok train ∧
      s'.self.predictReg lib a.nRows a.X = .ok ((List.range a.nRows).map fun i => (∑ t ∈ Finset.range s.self.nEstimators, v t i) / s.self.nEstimators) ∧
      ∀ t < s.self.nEstimators, GrownIn (lib.boot a.nRows) a.nRows s'.self.trees s'.self.seeds t (g t) ∧
        (∃ o, s'.self.trees[t]? = some o ∧ o.predict mixF train = .ok ((List.range a.nRows).map (v t))) ∧
        NearBestSquare ⟨a.nRows, binsOf train, fun i => (givenWeights a s).getD i 0, (g t).draws⟩ (g t) s.self.step (fun i => y.getD i 0) (v t) := by
  obtain ⟨e0, o, he0, hfit, hfacts⟩ := fitRegressor_ok hlib hp hd
  obtain ⟨train, g, u, h1, h2, h3, h4⟩ := reg_oracle hlib hp hd hw ho hagg hstep hml hfit
  refine ⟨_, train, g, u, hfit, h1, h3, fun t ht => ?_⟩
  obtain ⟨hg, k1, k2⟩ := h4 t _ (List.getElem?_eq_getElem (by rw [h2]; exact ht))
  exact ⟨hg, ⟨_, List.getElem?_eq_getElem _, k1⟩, .of hstep hg.shape (k2 _ rfl)⟩

end

/-- The hypotheses of `C81_multinomial` hold: for both trees and three classes, the loss is at most `log 2` above the one of the frequencies of the bootstrap. -/
example : ∃ s' train, ∃ g : Nat → GrownTree (List ℝ), ∃ v : Nat → Nat → Nat → ℝ,
    fitClassifier estLib (estArgs (some true) true) [3, 3, 5, 5, 8, 8] (estWorld _ false true .none 0) = (.ok (), s') ∧ s'.self.classes = [3, 5, 8] ∧
    s'.self.predictProbaTrees estLib 6 estX = .ok ((List.range 2).map fun t => (List.range 6).map fun i => (List.range 3).map (v t i)) ∧
    ∀ t < 2, (g t).draws = [0, 0, 1, 2, 3, 3] ∧
      NearBestLog ⟨6, binsOf train, rowWeight realW true 6 (classOf [3, 5, 8] [3, 3, 5, 5, 8, 8]), [0, 0, 1, 2, 3, 3]⟩ (g t) 1 (1 / 2) 3
        (classOf [3, 5, 8] [3, 3, 5, 5, 8, 8]) (v t) := by
  obtain ⟨s', train, g, v, h1, h2, h3, h4⟩ := C81_multinomial (estLib_ok (n := 6) (by norm_num)) (estToy_valid _)
    (estData_valid (P := List ℝ) (ovr := false) (balanced := true) (cf := .none) (np := 0) (some true) true) (y := [3, 3, 5, 5, 8, 8]) rfl
    (fun _ h => by cases h) est_strategy (by norm_num [estWorld, estToy]) (fun w h => (realW_pos w h).le) rfl (by norm_num [estWorld, estToy])
    (by norm_num [estWorld, estToy]) (.inl rfl)
  have hc : s'.self.classes = [3, 5, 8] := by
    obtain ⟨s'', h1', -, h3, -⟩ := fit_class_facts (estLib_ok (n := 6) (by norm_num)) (estToy_valid _)
      (estData_valid (P := List ℝ) (ovr := false) (balanced := true) (cf := .none) (np := 0) (some true) true) (y := [3, 3, 5, 5, 8, 8]) rfl
      (fun _ h => by cases h) est_strategy (by norm_num [estWorld, estToy]) (fun _ => by norm_num [estWorld, estToy]) (fun w h => (realW_pos w h).le)
      (.inl (by norm_num [estWorld, estToy]))
    obtain ⟨-, rfl⟩ := Prod.mk.inj (h1.symm.trans h1')
    rw [h3]; decide
  rw [hc] at h3 h4
  refine ⟨s', train, g, v, h1, hc, h3, fun t ht => ?_⟩
  obtain ⟨hg, hn⟩ := h4 t ht
  have hdr : (g t).draws = [0, 0, 1, 2, 3, 3] := by
    obtain ⟨-, seed, -, -, -, -, hb⟩ := hg
    exact est_bootstrap_rows hb
  rw [hdr] at hn
  exact ⟨hdr, hn⟩

/-- The hypotheses of `C81_ovr` hold; tree 3 belongs to the class `5`. -/
example : ∃ s' train, ∃ g : Nat → GrownTree (List ℝ), ∃ v : Nat → Nat → Nat → ℝ,
    fitClassifier estLib (estArgs (some true) true) [3, 3, 5, 5, 8, 8] (estWorld _ true false .none 0) = (.ok (), s') ∧
    s'.self.predictProbaTrees estLib 6 estX = .ok ((List.range 6).map fun t => (List.range 6).map fun i => [v t i 0, v t i 1]) ∧
    NearBestLog ⟨6, binsOf train, rowWeight realW false 6 (fun i => if classOf [3, 5, 8] [3, 3, 5, 5, 8, 8] i = 1 then 1 else 0), (g 3).draws⟩ (g 3) 1 (1 / 2) 2
      (fun i => if classOf [3, 5, 8] [3, 3, 5, 5, 8, 8] i = 1 then 1 else 0) (v 3) := by
  obtain ⟨s', train, g, v, h1, h2, h3, h4⟩ := C81_ovr (estLib_ok (n := 6) (by norm_num)) (estToy_valid _)
    (estData_valid (P := List ℝ) (ovr := true) (balanced := false) (cf := .none) (np := 0) (some true) true) (y := [3, 3, 5, 5, 8, 8]) rfl
    est_strategy (by norm_num [estWorld, estToy]) (fun w h => (realW_pos w h).le) rfl (by norm_num [estWorld, estToy])
    (by norm_num [estWorld, estToy]) ⟨rfl, by decide⟩
  have hc : s'.self.classes = [3, 5, 8] := by
    obtain ⟨s'', h1', -, h3, -⟩ := fit_class_facts (estLib_ok (n := 6) (by norm_num)) (estToy_valid _)
      (estData_valid (P := List ℝ) (ovr := true) (balanced := false) (cf := .none) (np := 0) (some true) true) (y := [3, 3, 5, 5, 8, 8]) rfl
      (fun _ h => by cases h) est_strategy (by norm_num [estWorld, estToy]) (fun _ => by norm_num [estWorld, estToy]) (fun w h => (realW_pos w h).le)
      (.inl (by norm_num [estWorld, estToy]))
    obtain ⟨-, rfl⟩ := Prod.mk.inj (h1.symm.trans h1')
    rw [h3]; decide
  rw [hc] at h3 h4
  exact ⟨s', train, g, v, h1, h3, (h4 3 (by norm_num [estWorld, estToy])).2⟩

/-- The hypotheses of `C81_regressor` hold. -/
example : ∃ s' train, ∃ g : Nat → GrownTree ℝ, ∃ v : Nat → Nat → ℝ,
    fitRegressor estLib (estArgs (some true) false) realY (estWorld _ false false .none 4) = (.ok (), s') ∧
    s'.self.predictReg estLib 6 estX = .ok ((List.range 6).map fun i => (∑ t ∈ Finset.range 2, v t i) / (2 : Nat)) ∧
    ∀ t < 2, NearBestSquare ⟨6, binsOf train, fun i => realW.getD i 0, (g t).draws⟩ (g t) 1 (fun i => realY.getD i 0) (v t) := by
  obtain ⟨s', train, g, v, h1, h2, h3, h4⟩ := C81_regressor (L := Nat) (y := realY) (estLib_ok (n := 6) (by norm_num)) (estToy_valid _)
    (estData_valid (P := ℝ) (ovr := false) (balanced := false) (cf := .none) (np := 4) (some true) false) (fun w h => (realW_pos w h).le) rfl rfl
    (by norm_num [estWorld, estToy]) (by norm_num [estWorld, estToy])
  exact ⟨s', train, g, v, h1, h3, fun t ht => (h4 t ht).2.2⟩

end Verif
