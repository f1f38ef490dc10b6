import Verif.Proofs.EstEnd

/-! # A tree sees only the generator state of its own seed -/
set_option linter.unusedSectionVars false
namespace Verif

open Spec

section
variable {L V K F Y P G W N : Type} [LinearOrder L] [DecidableEq V] [DecidableEq N] [LinearOrder K] [Field K] [IsStrictOrderedRing K]
  [FloorSemiring K] [Num F]

theorem growStep_randint {R R' : Rng G} (h : R'.randint = R.randint) (T : Task F Y P G) (c : Ctx F) (gb : Garbage F) (s : GState F P G) :
    growStep R' T c gb s = growStep R T c gb s := by
  cases R; cases R'
  simp only at h
  subst h
  rfl

theorem growLoop_randint {R R' : Rng G} (h : R'.randint = R.randint) (T : Task F Y P G) (c : Ctx F) (gb : Garbage F) (fuel : Nat) (s : GState F P G) :
    growLoop R' T c gb fuel s = growLoop R T c gb fuel s := by
  induction fuel generalizing s with
  | zero => rfl
  | succ fuel ih => simp only [growLoop, growStep_randint h, ih]

theorem fitTree_seed {R R' : Rng G} (h : R'.randint = R.randint) {seed : Nat} (hs : R'.seed seed = R.seed seed) (T : Task F Y P G) (c : Ctx F)
    (gb : Garbage F) (train valid : List Nat) : fitTree R' T c gb seed train valid = fitTree R T c gb seed train valid := by
  unfold fitTree grow
  have : initWork R' c gb seed train valid = initWork R c gb seed train valid := by simp only [initWork, hs]
  rw [this]
  simp only [growLoop_randint h]

theorem buildTree_seed {R R' : Rng G} (h : R'.randint = R.randint) {seed : Nat} (hs : R'.seed seed = R.seed seed) (T : F → Task F Y P G)
    (draw : Nat → List Nat) (depth : Nat) (c : Ctx F) (gb : Garbage F) (d : F) :
    buildTree R' T draw depth c gb d seed = buildTree R T draw depth c gb d seed := by
  unfold buildTree TreeObj.fit
  simp only [fitTree_seed h hs]

theorem classifierTask_randint {R R' : Rng G} (h : R'.randint = R.randint) (argsort : List F → List Nat) (n : Nat) (d : F) (c : Criterion)
    (s : CatStrategy) : classifierTask R' argsort n d c s = classifierTask R argsort n d c s := by
  cases R; cases R'
  simp only at h
  subst h
  rfl

theorem prepClassifier_randint {lib : Lib V K F G W} {R' : Rng G} (h : R'.randint = lib.rng.randint) (a : FitArgs N V) (y : List L) (sw : List F) :
    prepClassifier { lib with rng := R' } a y sw = prepClassifier lib a y sw := by
  unfold prepClassifier
  simp only [classifierTask_randint h]

theorem depthsOf_rng (lib : Lib V K F G W) (R' : Rng G) (r : Bool) (d k : Nat) (np : W) :
    depthsOf { lib with rng := R' } r d k np = depthsOf lib r d k np := by
  induction k generalizing np with
  | zero => rfl
  | succ k ih => simp only [depthsOf, ih]

/-- The trees of two runs of the second half of `fit`. -/
theorem fitRest_seed {lib : Lib V K F G W} {R' : Rng G} (h : R'.randint = lib.rng.randint) {a : FitArgs N V} {p : FitData F Y P G}
    {s s1 s2 : World L V K F P G W} (h1 : fitRest lib a p s = (.ok (), s1)) (h2 : fitRest { lib with rng := R' } a p s = (.ok (), s2)) :
    s2.self.seeds = s1.self.seeds ∧ s2.self.encoder = s1.self.encoder ∧
    ∀ (i : Nat) (seed : Nat), s1.self.seeds[i]? = some seed → R'.seed seed = lib.rng.seed seed → s2.self.trees[i]? = s1.self.trees[i]? := by
  obtain ⟨o, rfl⟩ := fitRest_inv h1
  obtain ⟨o', rfl⟩ := fitRest_inv h2
  have hic : o'.ic = o.ic := Except.ok.inj (o'.hic.symm.trans o.hic)
  have hmf : o'.mf = o.mf := Except.ok.inj (o'.hmf.symm.trans o.hmf)
  have henc : o'.enc = o.enc := by
    have := o'.henc
    rw [hic] at this
    exact Except.ok.inj (this.symm.trans o.henc)
  have hfba : o'.fba = o.fba := by
    have := o'.hfba
    rw [hic, henc] at this
    exact Except.ok.inj (this.symm.trans o.hfba)
  refine ⟨rfl, by simp only [Outcome.est, hic, henc]; rfl, fun i seed hi hs => ?_⟩
  simp only [Outcome.est]
  have hl : o'.trees.length = o.trees.length := by
    have e1 := (mapM_eq_ok.1 o.htrees).length_eq
    have e2 := (mapM_eq_ok.1 o'.htrees).length_eq
    rw [← e1, ← e2, depthsOf_rng]
    rfl
  by_cases hlt : i < o.trees.length
  · obtain ⟨sd, dp, y, w, g1, g2, g3, g4, g5⟩ := growTrees_getElem? o.htrees (List.getElem?_eq_getElem hlt)
    obtain ⟨sd', dp', y', w', g1', g2', g3', g4', g5'⟩ := growTrees_getElem? o'.htrees (List.getElem?_eq_getElem (hl ▸ hlt))
    rw [List.getElem?_eq_getElem hlt, List.getElem?_eq_getElem (hl ▸ hlt)]
    have hsd : sd = seed := Option.some.inj (g1.symm.trans hi)
    have hsd' : sd' = seed := Option.some.inj (g1'.symm.trans hi)
    subst hsd hsd'
    have e2 : dp' = dp := by
      rw [depthsOf_rng] at g2'
      exact Option.some.inj (g2'.symm.trans g2)
    have e3 : y' = y := Option.some.inj (g3'.symm.trans g3)
    have e4 : w' = w := Option.some.inj (g4'.symm.trans g4)
    subst e2 e3 e4
    rw [hfba, hmf, henc] at g5'
    simp only at g5'
    rw [buildTree_seed h hs] at g5'
    exact congrArg some (Except.ok.inj (g5'.symm.trans g5))
  · rw [List.getElem?_eq_none (by omega), List.getElem?_eq_none (by omega)]

end

end Verif
