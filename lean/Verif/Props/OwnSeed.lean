import Verif.Proofs.OwnSeed
import Verif.Proofs.RecodeEst
import Verif.Proofs.EstToy

/-! # C40: every tree uses its own seed -/
set_option linter.unusedSectionVars false
namespace Verif

open Spec

section
variable {L V K F G W N : Type} [LinearOrder L] [DecidableEq V] [DecidableEq N] [LinearOrder K] [Field K] [IsStrictOrderedRing K]
  [FloorSemiring K] [Num F]

/-- **C40** Each tree depends on the generator of the trees only through the state that its own seed gives. Let the function from seeds to states be
replaced by another one (the numbers drawn from a given state stay the same): two successful fits of a classifier have the same seeds and the same encoder,
and tree `i` is the same in both if the two functions agree on seed number `i`, whatever they do on the seeds of the other trees. -/
theorem C40_own_seed_classifier {lib : Lib V K F G W} {R : Rng G} (hR : R.randint = lib.rng.randint) {a : FitArgs N V} {y : List L}
    {s s1 s2 : World L V K F (List F) G W} (h1 : fitClassifier lib a y s = (.ok (), s1))
    (h2 : fitClassifier { lib with rng := R } a y s = (.ok (), s2)) :
    s2.self.seeds = s1.self.seeds ∧ s2.self.encoder = s1.self.encoder ∧
    ∀ (i seed : Nat), s1.self.seeds[i]? = some seed → R.seed seed = lib.rng.seed seed → s2.self.trees[i]? = s1.self.trees[i]? := by
  unfold fitClassifier at h1 h2
  obtain ⟨sw, t1, g1, h1⟩ := Py.bind_inv h1
  obtain ⟨p, t2, g2, h1⟩ := Py.bind_inv h1
  rw [Py.bind_of_ok g1, prepClassifier_randint hR, Py.bind_of_ok g2] at h2
  exact fitRest_seed hR h1 h2

/-- **C40** The same for regressors. -/
theorem C40_own_seed_regressor {lib : Lib V K F G W} {R : Rng G} (hR : R.randint = lib.rng.randint) {a : FitArgs N V} {y : List F}
    {s s1 s2 : World L V K F F G W} (h1 : fitRegressor lib a y s = (.ok (), s1))
    (h2 : fitRegressor { lib with rng := R } a y s = (.ok (), s2)) :
    s2.self.seeds = s1.self.seeds ∧ s2.self.encoder = s1.self.encoder ∧
    ∀ (i seed : Nat), s1.self.seeds[i]? = some seed → R.seed seed = lib.rng.seed seed → s2.self.trees[i]? = s1.self.trees[i]? := by
  unfold fitRegressor at h1 h2
  obtain ⟨sw, t1, g1, h1⟩ := Py.bind_inv h1
  obtain ⟨p, t2, g2, h1⟩ := Py.bind_inv h1
  rw [Py.bind_of_ok g1] at h2
  rw [show prepRegressor (L := L) { lib with rng := R } y sw = prepRegressor lib y sw from rfl, Py.bind_of_ok g2] at h2
  exact fitRest_seed hR h1 h2

end

/-- A generator that differs from `toyRng` on seed 8. -/
def toyRng8 : Rng Nat := { toyRng with seed := fun s => if s = 8 then 5 else toyRng.seed s }

/-- Two trees with the seeds 7 and 8: the first one does not see what the generator does with seed 8. -/
example : ∃ s1 s2, fitRegressor estLib (estArgs none false) realY (estWorld _ false false .none 0) = (.ok (), s1) ∧
    fitRegressor { estLib with rng := toyRng8 } (estArgs none false) realY (estWorld _ false false .none 0) = (.ok (), s2) ∧
    s1.self.seeds = [7, 8] ∧ toyRng8.seed 8 ≠ toyRng.seed 8 ∧ s2.self.trees[0]? = s1.self.trees[0]? ∧ s1.self.trees.length = 2 := by
  have hlib := estLib_ok (n := 6) (by norm_num)
  obtain ⟨e0, o, rfl, h, hf⟩ := fitRegressor_ok (L := Nat) (a := estArgs none false) (y := realY) (s := estWorld _ false false .none 0)
    hlib (estToy_valid _) (estData_valid _ _)
  obtain ⟨e1, o1, -, h', -⟩ := fitRegressor_ok (lib := { estLib with rng := toyRng8 }) (L := Nat) (a := estArgs none false) (y := realY)
    (s := estWorld _ false false .none 0) ⟨hlib.1, hlib.2, hlib.3, hlib.4, hlib.5, hlib.6⟩ (estToy_valid _) (estData_valid _ _)
  refine ⟨_, _, h, h', rfl, by decide, (C40_own_seed_regressor (R := toyRng8) rfl h h').2.2 0 7 rfl rfl, ?_⟩
  exact hf.nTrees
example : ∃ s1 s2, fitClassifier estLib (estArgs none false) [3, 3, 5, 5, 8, 8] (estWorld _ true true .none 0) = (.ok (), s1) ∧
    fitClassifier { estLib with rng := toyRng8 } (estArgs none false) [3, 3, 5, 5, 8, 8] (estWorld _ true true .none 0) = (.ok (), s2) ∧
    s2.self.seeds = s1.self.seeds := by
  have hlib := estLib_ok (n := 6) (by norm_num)
  obtain ⟨s1, h1, -⟩ := fit_class_facts (lib := estLib) (a := estArgs none false) hlib (estToy_valid _)
    (estData_valid (P := List ℝ) (ovr := true) (balanced := true) (cf := .none) (np := 0) none false) (y := [3, 3, 5, 5, 8, 8]) rfl
    (fun _ h => by cases h) est_strategy (by norm_num [estWorld, estToy]) (fun _ => by norm_num [estWorld, estToy])
    (fun w h => (realW_pos w h).le) (.inl (by norm_num [estWorld, estToy]))
  obtain ⟨s2, h2, -⟩ := fit_class_facts (lib := { estLib with rng := toyRng8 }) (a := estArgs none false) ⟨hlib.1, hlib.2, hlib.3, hlib.4, hlib.5, hlib.6⟩ (estToy_valid _)
    (estData_valid (P := List ℝ) (ovr := true) (balanced := true) (cf := .none) (np := 0) none false) (y := [3, 3, 5, 5, 8, 8]) rfl
    (fun _ h => by cases h) est_strategy (by norm_num [estWorld, estToy]) (fun _ => by norm_num [estWorld, estToy])
    (fun w h => (realW_pos w h).le) (.inl (by norm_num [estWorld, estToy]))
  exact ⟨s1, s2, h1, h2, (C40_own_seed_classifier (R := toyRng8) rfl h1 h2).1⟩

end Verif
