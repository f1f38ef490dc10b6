import Verif.Proofs.RescaleEst
import Verif.Spec.ZeroWeight

set_option linter.unusedSectionVars false

/-! Labels of rows of weight zero: the two fits compute the same numbers, see Proofs/Rescale.lean. -/
namespace Verif

open Spec

variable {G : Type}

/-- Regression. -/
noncomputable def regZero (argsort : List ℝ → List Nat) : TaskSim (regressorTask (G := G) argsort) (regressorTask argsort) where
  κ := 1
  μ := 1
  lam := 1
  NZ _ := True
  RL v l l' := v = 0 ∨ l' = l
  RY _ y y' := y' = y
  RA _ p p' := p' = p
  RP _ p p' := p' = p
  κ_pos := one_pos
  μ_pos := one_pos
  mulL h m := h.imp (fun h => by rw [h, zero_mul]) id
  zeroY := rfl
  addY := by
    rintro w y y' l l' rfl v (rfl | rfl)
    · simp only [regressorTask, SameResult, Num.add, Num.mul]
      simp
    · rw [one_mul]; exact SameResult.same.mono fun _ _ h => h.symm
  plusY := by rintro w y y' v z z' rfl rfl; rfl
  minusY := by rintro w y y' v z z' rfl rfl; rfl
  zeroA := rfl
  zeroP := rfl
  addP := by
    rintro w y y' l l' rfl v (rfl | rfl)
    · simp only [regressorTask, SameResult, Num.add, Num.mul]
      simp
    · rw [one_mul]; exact SameResult.same.mono fun _ _ h => h.symm
  endP := by
    rintro w p p' rfl
    rw [one_mul]; exact SameResult.same.mono fun _ _ h => h.symm
  addLoss := by
    rintro w p p' x x' l l' rfl hx v (rfl | rfl)
    · simp only [regressorTask, SameResult, Num.add, Num.mul, Num.sub]
      intro _
      rw [hx trivial]
      ring
    · rw [one_mul, hx trivial, one_mul]; exact SameResult.same.mono fun _ _ h _ => by rw [one_mul]; exact h.symm
  childs := by
    rintro w y y' v z z' rfl rfl
    simp only [one_mul]
    exact SameResult.same.mono fun _ _ h => h.symm

theorem regZero_orders (argsort : List ℝ → List Nat) : SameOrders (regZero (G := G) argsort) := by
  intro h h' hh g
  have hs : h'.ySum = h.ySum := by
    refine List.ext_getElem hh.lenY fun i h1 h2 => ?_
    have hw : i < h.wTrain.length := by rw [← hh.lenWY]; exact h2
    exact hh.ySum (List.getElem?_eq_getElem hw) (List.getElem?_eq_getElem h2) (List.getElem?_eq_getElem h1)
  rw [hs]

/-- Adding a sample of weight zero. -/
theorem addClass_zero {n : Nat} {y : List ℝ} (hy : y.length = n) {l : ℝ} (hl : Num.toNat l < n) : addClass y 0 l = .ok y := by
  unfold addClass
  have hl' : Num.toNat l < y.length := by rw [hy]; exact hl
  rw [rd_ok.2 (List.getElem?_eq_getElem hl'), bind_ok]
  unfold wr
  rw [if_pos hl', show Num.add y[Num.toNat l] 0 = y[Num.toNat l] from add_zero _, List.set_getElem_self]

theorem addClass_length {y z : List ℝ} {v l : ℝ} (h : addClass y v l = .ok z) : z.length = y.length := by
  unfold addClass at h
  rw [bind_eq_ok] at h
  obtain ⟨x, -, h⟩ := h
  unfold wr at h
  split at h
  · rw [← Except.ok.inj h, List.length_set]
  · cases h

/-- Classification. -/
noncomputable def classZero (R : Rng G) (argsort : List ℝ → List Nat) {n n' : Nat} (hn : n' = n) (d : ℝ) (cr : Criterion) (st : CatStrategy) :
    TaskSim (classifierTask R argsort n d cr st) (classifierTask R argsort n' d cr st) where
  κ := 1
  μ := 1
  lam := 1
  NZ _ := True
  RL v l l' := (v = 0 ∨ l' = l) ∧ Num.toNat l < n ∧ Num.toNat l' < n
  RY _ y y' := y' = y ∧ y.length = n
  RA _ p p' := p' = p ∧ p.length = n
  RP _ p p' := p' = p ∧ p.length = n
  κ_pos := one_pos
  μ_pos := one_pos
  mulL h m := ⟨h.1.imp (fun h => by rw [h, zero_mul]) id, h.2⟩
  zeroY := by subst hn; exact ⟨rfl, List.length_replicate⟩
  addY := by
    rintro w y y' l l' ⟨rfl, hy⟩ v ⟨rfl | rfl, h1, h2⟩
    · show SameResult _ (addClass y' 0 l) (addClass y' (1 * 0) l')
      rw [mul_zero, addClass_zero hy h1, addClass_zero hy h2]
      exact ⟨rfl, hy⟩
    · show SameResult _ (addClass y' v l') (addClass y' (1 * v) l')
      rw [one_mul]
      exact (SameResult.same.and (Q := fun z => z.length = n) fun z hz => (addClass_length hz).trans hy).mono fun _ _ h => ⟨h.1.symm, h.2⟩
  plusY := by
    rintro w y y' v z z' ⟨rfl, h1⟩ ⟨rfl, h2⟩
    exact ⟨rfl, by simp [classifierTask, h1, h2]⟩
  minusY := by
    rintro w y y' v z z' ⟨rfl, h1⟩ ⟨rfl, h2⟩
    exact ⟨rfl, by simp [classifierTask, h1, h2]⟩
  zeroA := by subst hn; exact ⟨rfl, List.length_replicate⟩
  zeroP := by subst hn; exact ⟨rfl, List.length_replicate⟩
  addP := by
    rintro w y y' l l' ⟨rfl, hy⟩ v ⟨rfl | rfl, h1, h2⟩
    · show SameResult _ (addClass y' 0 l) (addClass y' (1 * 0) l')
      rw [mul_zero, addClass_zero hy h1, addClass_zero hy h2]
      exact ⟨rfl, hy⟩
    · show SameResult _ (addClass y' v l') (addClass y' (1 * v) l')
      rw [one_mul]
      exact (SameResult.same.and (Q := fun z => z.length = n) fun z hz => (addClass_length hz).trans hy).mono fun _ _ h => ⟨h.1.symm, h.2⟩
  endP := by
    subst hn
    rintro w p p' ⟨rfl, hp⟩
    rw [one_mul]
    refine (SameResult.same.and (Q := fun z => z.length = n') fun z hz => ?_).mono fun _ _ h => ⟨h.1.symm, h.2⟩
    have e := Except.ok.inj ((show finishClassPred n' d p' w = .ok z from hz).symm.trans (finishClassPred_real _ _ hp))
    rw [e, List.length_map, hp]
  addLoss := by
    rintro w p p' x x' l l' ⟨rfl, hp⟩ hx v ⟨rfl | rfl, h1, h2⟩
    · show SameResult _ (addClassLoss p' x 0 l) (addClassLoss p' x' (1 * 0) l')
      unfold addClassLoss
      rw [rd_ok.2 (List.getElem?_eq_getElem (by rw [hp]; exact h1)), rd_ok.2 (List.getElem?_eq_getElem (by rw [hp]; exact h2)), bind_ok, bind_ok]
      refine SameResult.pure fun _ => ?_
      rw [hx trivial]
      show 1 * x - 1 * 0 * _ = 1 * (x - 0 * _)
      ring
    · rw [one_mul, hx trivial, one_mul]; exact SameResult.same.mono fun _ _ h _ => by rw [one_mul]; exact h.symm
  childs := by
    subst hn
    rintro w y y' v z z' ⟨rfl, -⟩ ⟨rfl, -⟩
    simp only [one_mul]
    exact SameResult.same.mono fun _ _ h => h.symm

theorem classZero_orders (R : Rng G) (argsort : List ℝ → List Nat) {n n' : Nat} (hn : n' = n) (d : ℝ) (cr : Criterion) (st : CatStrategy) :
    SameOrders (classZero R argsort hn d cr st) := by
  intro h h' hh g
  have hs : h'.ySum = h.ySum := by
    refine List.ext_getElem hh.lenY fun i h1 h2 => ?_
    have hw : i < h.wTrain.length := by rw [← hh.lenWY]; exact h2
    exact (hh.ySum (List.getElem?_eq_getElem hw) (List.getElem?_eq_getElem h2) (List.getElem?_eq_getElem h1)).1
  subst hn
  rw [hs]

section
variable {L V K W N : Type} [LinearOrder L] [DecidableEq V] [DecidableEq N] [LinearOrder K] [Field K] [IsStrictOrderedRing K]
  [FloorSemiring K]

theorem reg_zero {lib : Lib V K ℝ G W} {a : FitArgs N V} {y y' : List ℝ} {s : World L V K ℝ ℝ G W}
    (hlib : LibOK lib a.nRows) (hp : ParamsValid s.self (nCols a.X)) (hd : DataValid lib.conv a s y.length)
    (hovr : s.self.ovr = false) (hy : AgreeWeighted (weightsOf a s) y y') :
    ∃ t t', fitRegressor lib a y s = (.ok (), t) ∧ fitRegressor lib a y' s = (.ok (), t') ∧
      ∀ n (E : Dataset N V), t'.self.predictReg lib n E = t.self.predictReg lib n E ∧ t'.self.apply lib n E = t.self.apply lib n E := by
  obtain ⟨_, o, rfl, h1, hf⟩ := fitRegressor_ok hlib hp hd
  obtain ⟨_, o', rfl, h2, -⟩ := fitRegressor_ok (a := a) (y := y') (s := s) hlib hp (by rw [hy.1]; exact hd)
  refine ⟨_, _, h1, h2, fun n E => ?_⟩
  have hT : ValidTask (regressorTask (G := G) lib.argsort) (fun _ => True) := .regressor hlib.argsort
  have hp' : ParamsValid (withCategorical a.categorical s.self) (nCols a.X) := ⟨hp.1, hp.2, hp.3, hp.4, hp.5, hp.6, hp.7⟩
  obtain ⟨e1, e2⟩ := rest_sim (st := s.self.step) (di := s.self.dirichlet) (cl := s.self.classes) o o' hf hlib hp' hd
    (regZero lib.argsort)
    (fun i _ => ⟨y, weightsOf a s, rfl, rfl, hd.labels, weightsOf_length hd, fun _ _ => trivial, .inl fun _ => trivial⟩) rfl
    (by
      intro i y1 y2 w1 g1 g2 g3
      match i with
      | 0 =>
        obtain rfl : y = y1 := by simpa using g1
        obtain rfl : y' = y2 := by simpa using g2
        obtain rfl : weightsOf a s = w1 := by simpa using g3
        refine ⟨hy.1, fun j l l' v h1 h2 h3 => ?_⟩
        by_cases hv : v = 0
        · exact .inl hv
        · refine .inr ?_
          have := hy.2 j fun u hu => by rw [h3] at hu; rw [← Option.some.inj hu]; exact hv
          rw [h1, h2] at this
          exact Option.some.inj this
      | i + 1 => simp at g1)
    (by show [weightsOf a s] = [(weightsOf a s).map (1 * ·)]; simp) hT
    (.inr (regZero_orders _)) (mul_one _)
    (RF := fun p p' => p' = 1 * p + 0) (fun w p p' hw h => by rw [one_mul, add_zero]; exact h) (mix := mixF)
    (by rintro x u _ v _ rfl rfl; simp only [one_mul, add_zero])
  have hne : o.est.trees ≠ [] := by
    have h3 := hf.nTrees
    intro h0
    rw [h0, show (withCategorical a.categorical s.self).ovr = false from hovr] at h3
    have h4 := hp.estimators
    have h3 : 0 = s.self.nEstimators := h3
    omega
  refine ⟨(predictReg_of e1 (reg_sim e2 hne) n E).trans ?_, apply_of e1 e2 n E⟩
  simp only [one_mul, add_zero]
  cases o.est.predictReg lib n E with
  | error _ => rfl
  | ok p => exact congrArg Except.ok (List.map_id p)

/-- Classification, for two arrays of labels with as many classes. -/
theorem class_sim {lib : Lib V K ℝ G W} {a : FitArgs N V} {y y' : List L} {s : World L V K ℝ (List ℝ) G W}
    (hlib : LibOK lib a.nRows) (hp : ParamsValid s.self (nCols a.X)) (hd : DataValid lib.conv a s y.length) (ht : a.targetsOK = true)
    (hrefit : s.self.ovr = true → s.self.fitted = true → 2 < (sortedUnique y).length)
    (hdir : s.self.aggregation = true → s.self.dirichlet ≠ 0)
    (hst : StrategyOK (sortedUnique y).length s.self.strategy) (hlen : y'.length = y.length) (hn : (sortedUnique y').length = (sortedUnique y).length)
    (S : TaskSim (classifierTask lib.rng lib.argsort (if staysOvr s.self y then 2 else (sortedUnique y).length) s.self.dirichlet s.self.criterion s.self.strategy)
      (classifierTask lib.rng lib.argsort (if staysOvr s.self y' then 2 else (sortedUnique y').length) s.self.dirichlet s.self.criterion s.self.strategy))
    (hNZ : ∀ x, S.NZ x) (hκ : S.κ = 1) (hlam : S.lam = 1)
    (hws : classWeights s.self y' (weightsOf a s) = classWeights s.self y (weightsOf a s))
    (hys : ∀ (i : Nat) c c' w, (codesOf s.self y)[i]? = some c → (codesOf s.self y')[i]? = some c' →
      (classWeights s.self y (weightsOf a s))[i]? = some w →
      ∀ (j : Nat) k k' v, c[j]? = some k → c'[j]? = some k' → w[j]? = some v → S.RL v (Num.ofNat k) (Num.ofNat k'))
    {RF : List ℝ → List ℝ → Prop} (hRF : ∀ w p p', S.RP w p p' → RF p p')
    (hmix : ∀ x a a' b b', RF a a' → RF b b' → RF (mixV x a b) (mixV x a' b')) :
    ∃ t t', fitClassifier lib a y s = (.ok (), t) ∧ fitClassifier lib a y' s = (.ok (), t') ∧ t.self.classes = sortedUnique y ∧
      t'.self.classes = sortedUnique y' ∧ t'.self.fitted = t.self.fitted ∧ t'.self.ovr = t.self.ovr ∧ t'.self.nClasses = t.self.nClasses ∧
      t'.self.nEstimators = t.self.nEstimators ∧ t'.self.encoder = t.self.encoder ∧ t.self.ovr = staysOvr s.self y ∧
      t.self.nClasses = (sortedUnique y).length ∧
      ((∀ b ∈ t.self.isCategorical_, b = false) ∨ SameOrders S → List.Forall₂ (TreesSim RF mixV) t.self.trees t'.self.trees) := by
  have hF : ∀ n k, k < max 2 n → Num.toNat (Num.ofNat k : ℝ) = k := fun _ k _ => Nat.floor_natCast k
  have hz : ∀ x : ℝ, x ≠ 0 → ¬(Num.le x Num.zero = true ∧ Num.le Num.zero x = true) := fun x hx ⟨h1, h2⟩ =>
    hx (le_antisymm (of_decide_eq_true h1) (of_decide_eq_true h2))
  obtain ⟨_, o, rfl, h1, hf⟩ := fitClassifier_ok (okW := fun _ => True) hlib hp hd ht hrefit (fun h => hz _ (hdir h)) hst (hF _) (fun _ _ => trivial)
  obtain ⟨e0', o', he, h2, -⟩ := fitClassifier_ok (a := a) (y := y') (okW := fun _ => True) (s := s) hlib hp (by rw [hlen]; exact hd) ht
    (by rw [hn]; exact hrefit) (fun h => hz _ (hdir h)) (by rw [hn]; exact hst) (hF _) (fun _ _ => trivial)
  have hso : staysOvr s.self y' = staysOvr s.self y := by unfold staysOvr; rw [hn]
  have he : e0' = { preparedEst (withCategorical a.categorical s.self) y with classes := sortedUnique y' } := by
    rw [he]
    unfold preparedEst encodedEst
    rw [show staysOvr (withCategorical a.categorical s.self) y' = staysOvr (withCategorical a.categorical s.self) y from hso, hn]
  subst he
  have hp' : ParamsValid (preparedEst (withCategorical a.categorical s.self) y) (nCols a.X) := ⟨hp.1, hp.2, hp.3, hp.4, hp.5, hp.6, hp.7⟩
  have hrest := fun ho => rest_sim (st := s.self.step) (di := s.self.dirichlet) (cl := sortedUnique y') (RF := RF) (mix := mixV) o o' hf hlib hp' hd S
    (codes_prep hd.labels (weightsOf_length hd) (hF _) fun _ _ => .inl hNZ) hso
    (by
      intro i c c' w g1 g2 g3
      change ((codesOf s.self y).map fun y => y.map (Num.ofNat : Nat → ℝ))[i]? = _ at g1
      change ((codesOf s.self y').map fun y => y.map (Num.ofNat : Nat → ℝ))[i]? = _ at g2
      rw [List.getElem?_map, Option.map_eq_some_iff] at g1 g2
      obtain ⟨d, g1, rfl⟩ := g1
      obtain ⟨d', g2, rfl⟩ := g2
      refine ⟨?_, fun j l l' v e1 e2 e3 => ?_⟩
      · have hcl : ∀ z : List L, ∀ c ∈ codesOf s.self z, c.length = z.length := by
          intro z c hc
          unfold codesOf at hc
          split at hc
          · obtain ⟨k, _, rfl⟩ := List.mem_map.1 hc; simp [oneHot]
          · rw [List.mem_singleton] at hc; subst hc; simp [labelCodes]
        rw [List.length_map, List.length_map, hcl _ _ (List.mem_of_getElem? g1), hcl _ _ (List.mem_of_getElem? g2), hlen]
      · rw [List.getElem?_map, Option.map_eq_some_iff] at e1 e2
        obtain ⟨k, e1, rfl⟩ := e1
        obtain ⟨k', e2, rfl⟩ := e2
        exact hys i d d' w g1 g2 g3 j k k' v e1 e2 e3)
    (by
      show classWeights s.self y' (weightsOf a s) = (classWeights s.self y (weightsOf a s)).map _
      rw [hws, hκ]
      simp)
    (.classifier lib.rng _ _ _ hlib.argsort (strategy_tree hst _)) ho (by rw [hlam]; exact mul_one _) (fun w p p' _ h => hRF w p p' h) hmix
  refine ⟨_, _, h1, h2, rfl, rfl, rfl, rfl, rfl, rfl, ?_, rfl, rfl, fun ho => (hrest ho).2⟩
  have hic : o'.ic = o.ic := Except.ok.inj (o'.hic.symm.trans o.hic)
  have henc : o'.enc = o.enc := by
    have h1 := o'.henc
    rw [hic] at h1
    exact Except.ok.inj (h1.symm.trans o.henc)
  simp only [Outcome.est, hic, henc]
  rfl

theorem class_zero {lib : Lib V K ℝ G W} {a : FitArgs N V} {y y' : List L} {s : World L V K ℝ (List ℝ) G W}
    (hlib : LibOK lib a.nRows) (hp : ParamsValid s.self (nCols a.X)) (hd : DataValid lib.conv a s y.length) (ht : a.targetsOK = true)
    (hrefit : s.self.ovr = true → s.self.fitted = true → 2 < (sortedUnique y).length)
    (hdir : s.self.aggregation = true → s.self.dirichlet ≠ 0)
    (hst : StrategyOK (sortedUnique y).length s.self.strategy) (hbal : s.self.balanced = false)
    (hy : AgreeWeighted (weightsOf a s) y y') (hcl : sortedUnique y' = sortedUnique y) :
    ∃ t t', fitClassifier lib a y s = (.ok (), t) ∧ fitClassifier lib a y' s = (.ok (), t') ∧
      ∀ eps n (E : Dataset N V), t'.self.predictProba lib eps n E = t.self.predictProba lib eps n E ∧
        t'.self.predict lib eps n E = t.self.predict lib eps n E ∧ t'.self.apply lib n E = t.self.apply lib n E := by
  have hso : staysOvr s.self y' = staysOvr s.self y := by unfold staysOvr; rw [hcl]
  have hlt : ∀ z : List L, ∀ c ∈ codesOf s.self z, ∀ k ∈ c, k < if staysOvr s.self z then 2 else (sortedUnique z).length := by
    intro z c hc v hv
    unfold codesOf at hc
    split at hc
    · rename_i hh
      rw [if_pos hh]
      obtain ⟨k, _, rfl⟩ := List.mem_map.1 hc
      obtain ⟨l, _, rfl⟩ := List.mem_map.1 hv
      split <;> omega
    · rename_i hh
      rw [if_neg hh]
      rw [List.mem_singleton] at hc; subst hc
      exact labelCodes_lt v hv
  have hws : classWeights s.self y' (weightsOf a s) = classWeights s.self y (weightsOf a s) := by
    unfold classWeights codesOf
    rw [hbal, hso, hcl]
    cases staysOvr s.self y <;> simp [Function.comp_def]
  obtain ⟨t, t', h1, h2, c1, c2, c3, c4, c5, c6, c7, -, -, h3⟩ := class_sim hlib hp hd ht hrefit hdir hst hy.1 (by rw [hcl])
    (classZero lib.rng lib.argsort (by rw [hso, hcl]) s.self.dirichlet s.self.criterion s.self.strategy) (fun _ => trivial) rfl rfl hws
    (RF := fun p p' => p' = p) (by
      intro i c c' w g1 g2 g3 j k k' v e1 e2 e3
      have r1 := hlt y c (List.mem_of_getElem? g1) k (List.mem_of_getElem? e1)
      have r2 := hlt y' c' (List.mem_of_getElem? g2) k' (List.mem_of_getElem? e2)
      rw [hso, hcl] at r2
      refine ⟨?_, by rw [show Num.toNat (Num.ofNat k : ℝ) = k from Nat.floor_natCast k]; exact r1,
        by rw [show Num.toNat (Num.ofNat k' : ℝ) = k' from Nat.floor_natCast k']; exact r2⟩
      by_cases hv : v = 0
      · exact .inl hv
      refine .inr ?_
      have hw : w = weightsOf a s := by
        unfold classWeights at g3
        rw [hbal] at g3
        simp only [Bool.false_eq_true, if_false, List.getElem?_map, Option.map_eq_some_iff] at g3
        exact g3.choose_spec.2.symm
      subst hw
      have hj := hy.2 j fun u hu => by rw [e3] at hu; rw [← Option.some.inj hu]; exact hv
      congr 1
      unfold codesOf at g1 g2
      rw [hso, hcl] at g2
      split at g1
      · rename_i hh
        rw [if_pos hh] at g2
        rw [List.getElem?_map, Option.map_eq_some_iff] at g1 g2
        obtain ⟨q, q1, rfl⟩ := g1
        obtain ⟨q', q2, rfl⟩ := g2
        obtain rfl := Option.some.inj (q1.symm.trans q2)
        simp only [oneHot, List.getElem?_map] at e1 e2
        rw [hj, e1] at e2
        exact (Option.some.inj e2).symm
      · rename_i hh
        rw [if_neg hh] at g2
        match i with
        | 0 =>
          simp only [List.getElem?_cons_zero, Option.some.injEq] at g1 g2
          subst g1 g2
          simp only [labelCodes, List.getElem?_map] at e1 e2
          rw [hj, e1] at e2
          exact (Option.some.inj e2).symm
        | i + 1 => simp at g1)
    (fun w p p' h => h.1) (by rintro x u _ v _ rfl rfl; rfl)
  have h3 := h3 (.inr (classZero_orders _ _ _ _ _ _))
  refine ⟨t, t', h1, h2, fun eps n E => ?_⟩
  have hpr : t'.self.predictProba lib eps n E = t.self.predictProba lib eps n E := predictProba_of c7 c3 c4 c5 c6 h3 eps n E
  refine ⟨hpr, ?_, apply_of c7 h3 n E⟩
  unfold Est.predict
  rw [hpr, c2, c1, hcl]

end

end Verif
