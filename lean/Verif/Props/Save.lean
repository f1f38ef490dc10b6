import Verif.Proofs.Save
import Verif.Props.Life

/-! # C122: saving and loading forests -/
set_option linter.unusedSectionVars false
namespace Verif

open Spec

section
variable {L V K F G W N : Type} [LinearOrder L] [DecidableEq V] [DecidableEq N] [LinearOrder K] [Field K] [IsStrictOrderedRing K] [FloorSemiring K] [Num F]

/-- **C122** A classifier is fitted, with any arithmetic. Then values are assigned to its attributes, and at any moments it is saved to a file and replaced by what is loaded
from the file, perhaps in another process, with any content of the uninitialised memory. No saving or loading raises an exception, every assignment returns or raises what it
would return or raise without the files, all attributes other than the trees are equal at the end, and the classifier gives the same answers. -/
theorem C122_classifier {lib : Lib V K F G W} {a : FitArgs N V} {y : List L} {s s' : World L V K F (List F) G W} (h : fitClassifier lib a y s = (.ok (), s'))
    {x : Nat → TreeExtra F (List F)} (hx : TreeAttrs lib true s'.self x) (nF : Nat) (events : List (Event (ClsAssign F K) F (List F) G)) :
    ∃ e, lifeOf (Est.assignCls lib) x nF events s'.self = .ok (replies (Est.assignCls lib) (events.filterMap Event.assigned?) s'.self, e) ∧
      SameClassifier lib e (attempts (Est.assignCls lib) (events.filterMap Event.assigned?) s'.self) ∧
      e = { attempts (Est.assignCls lib) (events.filterMap Event.assigned?) s'.self with trees := e.trees } ∧
      List.Forall₂ SameAttrs (attempts (Est.assignCls lib) (events.filterMap Event.assigned?) s'.self).trees e.trees := by
  obtain ⟨p, s1, -, h, -⟩ := fitClassifier_split h
  obtain ⟨-, fba, hf, ht⟩ := fitRest_treesOK h hx
  obtain ⟨e, h1, h2⟩ := Alike.life hf (fun a h => h.assignCls (lib := lib) a) nF events (Alike.refl ht)
  exact ⟨e, h1, h2.classifier, h2.rest, h2.trees⟩

/-- **C122** The same for a regressor. -/
theorem C122_regressor {lib : Lib V K F G W} {a : FitArgs N V} {y : List F} {s s' : World L V K F F G W} (h : fitRegressor lib a y s = (.ok (), s'))
    {x : Nat → TreeExtra F F} (hx : TreeAttrs lib false s'.self x) (nF : Nat) (events : List (Event (Assign F K) F F G)) :
    ∃ e, lifeOf Est.assign x nF events s'.self = .ok (replies Est.assign (events.filterMap Event.assigned?) s'.self, e) ∧
      SameRegressor lib e (attempts Est.assign (events.filterMap Event.assigned?) s'.self) ∧
      e = { attempts Est.assign (events.filterMap Event.assigned?) s'.self with trees := e.trees } ∧
      List.Forall₂ SameAttrs (attempts Est.assign (events.filterMap Event.assigned?) s'.self).trees e.trees := by
  obtain ⟨p, s1, -, h, -⟩ := fitRegressor_split h
  obtain ⟨-, fba, hf, ht⟩ := fitRest_treesOK h hx
  obtain ⟨e, h1, h2⟩ := Alike.life hf (fun a h => h.assign a) nF events (Alike.refl ht)
  exact ⟨e, h1, h2.regressor, h2.rest, h2.trees⟩

end

/-- A file between any two assignments. -/
def withFiles {A F P G : Type} (zeroP : P) (g : Nat → PickleGarbage) (w : Nat → Work G) : List A → List (Event A F P G)
  | [] => [.saveLoad zeroP g w]
  | a :: l => .saveLoad zeroP g w :: .assign a :: withFiles zeroP g w l

theorem withFiles_assigned {A F P G : Type} (zeroP : P) (g : Nat → PickleGarbage) (w : Nat → Work G) (l : List A) :
    (withFiles (F := F) zeroP g w l).filterMap Event.assigned? = l := by
  induction l with
  | nil => rfl
  | cons a l ih => exact congrArg (a :: ·) ih

/-- The hypotheses of `C122_classifier` hold: three classes, aggregation, a categorical and a numerical column, and a file before and after every assignment of `lifeHist`;
the classifier at the end is as good as one that is fitted with the last accepted values. -/
example (zeroP : List ℝ) (g : Nat → PickleGarbage) (w : Nat → Work Nat) (x0 : TreeExtra ℝ (List ℝ)) : ∃ (s1 s2 : World Nat Nat ℚ ℝ (List ℝ) Nat Nat) (x : Nat → TreeExtra ℝ (List ℝ)) (e : Est Nat Nat ℚ ℝ (List ℝ) Nat),
    fitClassifier estLib (estArgs none false) [3, 3, 5, 5, 8, 8] (estWorld _ false true .none 0) = (.ok (), s1) ∧
    fitClassifier estLib (estArgs none false) [3, 3, 5, 5, 8, 8]
      { estWorld (List ℝ) false true .none 0 with self := { (estWorld (List ℝ) false true .none 0).self with step := 3, dirichlet := 2 } } = (.ok (), s2) ∧
    TreeAttrs estLib true s1.self x ∧ lifeOf (Est.assignCls estLib) x 2 (withFiles zeroP g w lifeHist) s1.self = .ok (replies (Est.assignCls estLib) lifeHist s1.self, e) ∧
    ∀ (n : Nat) (X : Dataset Nat Nat), e.predictProba estLib 0 n X = s2.self.predictProba estLib 0 n X := by
  have hd := estData_valid (P := List ℝ) (ovr := false) (balanced := true) (cf := .none) (np := 0) none false
  have hp := estToy_valid (P := List ℝ) (ovr := false) (balanced := true) (cf := .none) (sub := none) 2
  have hlib : LibOK estLib (estArgs none false).nRows := estLib_ok (n := 6) (by norm_num)
  obtain ⟨s1, s2, h1, h2, h3, -⟩ := C99_classifier (s := estWorld (List ℝ) false true .none 0) (y := [3, 3, 5, 5, 8, 8]) hlib hp hd rfl (fun h _ => by cases h)
    est_strategy (fun _ => by norm_num [estWorld, estToy]) lifeHist (fun _ => by rw [lifeHist_dirichlet]; norm_num)
  rw [lifeHist_step, lifeHist_dirichlet] at h2
  obtain ⟨x, hx⟩ := exists_treeAttrs estLib true s1.self x0
  obtain ⟨e, g1, g2, -⟩ := C122_classifier h1 hx 2 (withFiles zeroP g w lifeHist)
  rw [withFiles_assigned] at g1 g2
  exact ⟨s1, s2, x, e, h1, h2, hx, g1, fun n X => (g2.proba Nat 0 n X).trans (h3.proba Nat 0 n X)⟩

/-- The hypotheses of `C122_regressor` hold. -/
example (g : Nat → PickleGarbage) (w : Nat → Work Nat) (x0 : TreeExtra ℝ ℝ) : ∃ (s1 : World Nat Nat ℚ ℝ ℝ Nat Nat) (x : Nat → TreeExtra ℝ ℝ) (e : Est Nat Nat ℚ ℝ ℝ Nat),
    fitRegressor estLib (estArgs none false) realY (estWorld _ false true .none 4) = (.ok (), s1) ∧ TreeAttrs estLib false s1.self x ∧
    lifeOf Est.assign x 2 (withFiles 0 g w (lifeHist.filterMap baseOf)) s1.self = .ok (replies Est.assign (lifeHist.filterMap baseOf) s1.self, e) ∧
    SameRegressor estLib e (attempts Est.assign (lifeHist.filterMap baseOf) s1.self) := by
  have hd := estData_valid (P := ℝ) (ovr := false) (balanced := true) (cf := .none) (np := 4) none false
  have hp := estToy_valid (P := ℝ) (ovr := false) (balanced := true) (cf := .none) (sub := none) 2
  have hlib : LibOK estLib (estArgs none false).nRows := estLib_ok (n := 6) (by norm_num)
  obtain ⟨e0, o, he0, hfit, hfacts⟩ := fitRegressor_ok (s := estWorld ℝ false true .none 4) (y := realY) hlib hp hd
  obtain ⟨x, hx⟩ := exists_treeAttrs estLib false o.est x0
  obtain ⟨e, g1, g2, -⟩ := C122_regressor hfit hx 2 (withFiles 0 g w (lifeHist.filterMap baseOf))
  rw [withFiles_assigned] at g1 g2
  exact ⟨_, x, e, hfit, hx, g1, g2⟩

end Verif
