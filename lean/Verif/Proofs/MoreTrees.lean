import Verif.Proofs.EstSeeds
import Verif.Proofs.OutOfBagEst
import Verif.Model.Inspect

/-! Fits that differ in the number of trees. -/
set_option linter.unusedSectionVars false
namespace Verif

open Spec

theorem take_zip {α β : Type} (k : Nat) (l : List α) (m : List β) : (l.zip m).take k = (l.take k).zip (m.take k) := by
  induction k generalizing l m with
  | zero => simp
  | succ k ih => cases l <;> cases m <;> simp [ih]

theorem take_zipIdx {α : Type} (k : Nat) (l : List α) (n : Nat) : (l.zipIdx n).take k = (l.take k).zipIdx n := by
  induction k generalizing l n with
  | zero => simp
  | succ k ih => cases l <;> simp [ih]

theorem mapM_take {α β : Type} {f : α → M β} {l : List α} {r : List β} (k : Nat) (h : l.mapM f = .ok r) : (l.take k).mapM f = .ok (r.take k) := by
  rw [mapM_eq_ok] at h ⊢
  exact List.forall₂_iff_get.2 ⟨by simp [h.length_eq], fun i h1 h2 => by
    simp only [List.get_eq_getElem, List.getElem_take]
    exact h.get (by simp at h1; omega) (by simp at h2; omega)⟩

section
variable {L V K F Y P G W N : Type} [LinearOrder L] [DecidableEq V] [DecidableEq N] [LinearOrder K] [Field K] [IsStrictOrderedRing K] [FloorSemiring K]
  [Num F]

theorem depthsOf_take (lib : Lib V K F G W) (r : Bool) (d : Nat) {k m : Nat} (h : k ≤ m) (np : W) :
    (depthsOf lib r d m np).1.take k = (depthsOf lib r d k np).1 := by
  induction k generalizing m np with
  | zero => simp [depthsOf]
  | succ k ih =>
    obtain ⟨m, rfl⟩ : ∃ m', m = m' + 1 := ⟨m - 1, by omega⟩
    simp only [depthsOf, List.take_succ_cons]
    rw [ih (by omega)]

/-- The estimator with another number of trees. -/
def withTrees (m t : Nat) (e : Est L V K F P G) : Est L V K F P G := { e with nEstimators := m, nTrees := t }

/-- Without one-versus-rest mode, the fit with fewer trees gives the first ones. -/
theorem Outcome.take {lib : Lib V K F G W} {a : FitArgs N V} {p : FitData F Y P G} {e : Est L V K F P G} {np : W} {m t : Nat} (o1 : Outcome lib a p e np)
    (o2 : Outcome lib a p (withTrees m t e) np) (hov : e.ovr = false) (hpo : p.ovr = false) {r : Nat} (hr : e.randomState = some (some r))
    (hk : e.nEstimators ≤ m) (hl : ∀ k, (lib.seeded r k).length = k) (hs : lib.seeded r e.nEstimators = (lib.seeded r m).take e.nEstimators) :
    o1.est.trees = o2.est.trees.take e.nEstimators ∧ o1.est.encoder = o2.est.encoder := by
  have hs1 : seedsOf lib e np = (lib.seeded r e.nEstimators, np) := by unfold seedsOf; rw [hr, hov]; rfl
  have hs2 : seedsOf lib (withTrees m t e) np = (lib.seeded r m, np) := by
    unfold seedsOf
    rw [show (withTrees m t e).randomState = some (some r) from hr, show (withTrees m t e).ovr = false from hov]; rfl
  obtain ⟨mf, ic, enc, fba, trees, hmf, hrs, hic, hacc, henc, hfba, htrees⟩ := o1
  obtain ⟨mf2, ic2, enc2, fba2, trees2, hmf2, hrs2, hic2, hacc2, henc2, hfba2, htrees2⟩ := o2
  obtain rfl : mf = mf2 := Except.ok.inj (hmf.symm.trans hmf2)
  obtain rfl : ic = ic2 := Except.ok.inj (hic.symm.trans hic2)
  rw [hs2] at henc2 htrees2
  rw [hs1] at henc htrees
  obtain rfl : enc = enc2 := Except.ok.inj (henc.symm.trans henc2)
  obtain rfl : fba = fba2 := Except.ok.inj (hfba.symm.trans hfba2)
  refine ⟨?_, rfl⟩
  change trees = trees2.take e.nEstimators
  have h2 := mapM_take e.nEstimators htrees2
  rw [take_zipIdx, take_zip, ← hs, hl m, depthsOf_take lib _ _ hk] at h2
  refine Except.ok.inj (htrees.symm.trans ?_)
  rw [← h2]
  unfold growTrees
  simp only [hpo, hl]
  rfl

/-- What the two fits have in common. -/
structure FirstTrees (k : Nat) (e1 e2 : Est L V K F P G) : Prop where
  trees : e1.trees = e2.trees.take k
  encoder : e1.encoder = e2.encoder
  nClasses : e1.nClasses = e2.nClasses
  ovr : e1.ovr = e2.ovr
  nFeatures : e1.nFeatures = e2.nFeatures
  fitted : e1.fitted = e2.fitted

/-- The two fits of a classifier. -/
theorem class_take {lib : Lib V K F G W} {a : FitArgs N V} {y : List L} {s s1 s2 : World L V K F (List F) G W} {m r : Nat} (hy : y ≠ [])
    (h1 : fitClassifier lib a y s = (.ok (), s1)) (h2 : fitClassifier lib a y { s with self := { s.self with nEstimators := m } } = (.ok (), s2))
    (hr : s.self.randomState = some (some r)) (hov : staysOvr s.self y = false) (hk : s.self.nEstimators ≤ m) (hl : ∀ k, (lib.seeded r k).length = k)
    (hs : lib.seeded r s.self.nEstimators = (lib.seeded r m).take s.self.nEstimators) : FirstTrees s.self.nEstimators s1.self s2.self := by
  unfold fitClassifier at h1 h2
  obtain ⟨sw, u, a1, h1⟩ := Py.bind_inv h1
  obtain ⟨sw', u', a2, h2⟩ := Py.bind_inv h2
  obtain ⟨-, -, rfl, rfl⟩ := fitChecks_inv a1
  obtain ⟨-, -, rfl, rfl⟩ := fitChecks_inv a2
  obtain ⟨p, v, b1, h1⟩ := Py.bind_inv h1
  obtain ⟨p', v', b2, h2⟩ := Py.bind_inv h2
  obtain ⟨rfl, rfl⟩ := prepClassifier_inv hy b1
  obtain ⟨rfl, rfl⟩ := prepClassifier_inv hy b2
  obtain ⟨o1, rfl⟩ := fitRest_inv h1
  obtain ⟨o2, rfl⟩ := fitRest_inv h2
  have := Outcome.take (m := m) (t := if staysOvr s.self y then (sortedUnique y).length * m else m) o1 o2 hov hov (r := r) hr hk hl hs
  exact ⟨this.1, this.2, rfl, rfl, rfl, rfl⟩

/-- The two fits of a regressor. -/
theorem reg_take {lib : Lib V K F G W} {a : FitArgs N V} {y : List F} {s s1 s2 : World L V K F F G W} {m r : Nat}
    (h1 : fitRegressor lib a y s = (.ok (), s1)) (h2 : fitRegressor lib a y { s with self := { s.self with nEstimators := m } } = (.ok (), s2))
    (hr : s.self.randomState = some (some r)) (hov : s.self.ovr = false) (hk : s.self.nEstimators ≤ m) (hl : ∀ k, (lib.seeded r k).length = k)
    (hs : lib.seeded r s.self.nEstimators = (lib.seeded r m).take s.self.nEstimators) : FirstTrees s.self.nEstimators s1.self s2.self := by
  unfold fitRegressor at h1 h2
  obtain ⟨sw, u, a1, h1⟩ := Py.bind_inv h1
  obtain ⟨sw', u', a2, h2⟩ := Py.bind_inv h2
  obtain ⟨-, -, rfl, rfl⟩ := fitChecks_inv a1
  obtain ⟨-, -, rfl, rfl⟩ := fitChecks_inv a2
  obtain ⟨p, v, b1, h1⟩ := Py.bind_inv h1
  obtain ⟨p', v', b2, h2⟩ := Py.bind_inv h2
  cases b1
  cases b2
  obtain ⟨o1, rfl⟩ := fitRest_inv h1
  obtain ⟨o2, rfl⟩ := fitRest_inv h2
  have := Outcome.take (m := m) (t := s.self.nTrees) o1 o2 hov rfl (r := r) hr hk hl hs
  exact ⟨this.1, this.2, rfl, rfl, rfl, rfl⟩

theorem FirstTrees.apply {k : Nat} {e1 e2 : Est L V K F P G} (h : FirstTrees k e1 e2) {lib : Lib V K F G W} {n : Nat} {X : Dataset N V} {l : List (List Nat)}
    (ha : e2.apply lib n X = .ok l) : e1.apply lib n X = .ok (l.take k) := by
  unfold Est.apply at ha ⊢
  rw [bind_eq_ok] at ha ⊢
  obtain ⟨fba, h1, h2⟩ := ha
  refine ⟨fba, ?_, ?_⟩
  · unfold Est.encode at h1 ⊢
    rw [h.encoder]; exact h1
  · rw [h.trees]; exact mapM_take k h2

theorem FirstTrees.probaTrees {k : Nat} {e1 e2 : Est L V K F (List F) G} (h : FirstTrees k e1 e2) {lib : Lib V K F G W} {n : Nat} {X : Dataset N V}
    {l : List (List (List F))} (ha : e2.predictProbaTrees lib n X = .ok l) : e1.predictProbaTrees lib n X = .ok (l.take k) := by
  unfold Est.predictProbaTrees Est.checkNFeatures at ha ⊢
  rw [h.fitted, h.nFeatures]
  rw [bind_eq_ok] at ha ⊢
  obtain ⟨u, h0, ha⟩ := ha
  refine ⟨u, h0, ?_⟩
  rw [bind_eq_ok] at ha ⊢
  obtain ⟨fba, h1, h2⟩ := ha
  refine ⟨fba, ?_, ?_⟩
  · unfold Est.encode at h1 ⊢
    rw [h.encoder]; exact h1
  · rw [h.trees, h.nClasses, h.ovr]; exact mapM_take k h2

theorem FirstTrees.depth {k : Nat} {e1 e2 : Est L V K F F G} (h : FirstTrees k e1 e2) {lib : Lib V K F G W} {n : Nat} {X : Dataset N V}
    {l : List (List F)} (ha : e2.weightedDepth lib n X = .ok l) : e1.weightedDepth lib n X = .ok (l.take k) := by
  unfold Est.weightedDepth at ha ⊢
  rw [bind_eq_ok] at ha ⊢
  obtain ⟨fba, h1, h2⟩ := ha
  refine ⟨fba, ?_, ?_⟩
  · unfold Est.encode at h1 ⊢
    rw [h.encoder]; exact h1
  · rw [h.trees]; exact mapM_take k h2

end

end Verif
