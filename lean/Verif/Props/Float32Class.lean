import Verif.Proofs.Float32Class
import Verif.Props.Float32Fit

/-! # C94: classifiers without limits in single precision -/
set_option linter.unusedSectionVars false
namespace Verif

open Spec

section
variable {L V K G W N : Type} [LinearOrder L] [DecidableEq V] [DecidableEq N] [LinearOrder K] [Field K] [IsStrictOrderedRing K] [FloorSemiring K]

/-- **C94**, partial: in float32 arithmetic every tree of a gini classifier without limits gives each of its drawn rows the largest probability for its own
class, if the bins determine the class; for integer weights with a total of at most 4096. Missing: larger weights, see `C94_violated`. -/
theorem C94_partial {lib : Lib V K F32 G W} {a : FitArgs N V} {y : List L} {s : World L V K F32 (List F32) G W} {wmax : Nat}
    (hlib : LibOK lib a.nRows) (hp : ParamsValid s.self (nCols a.X)) (hd : DataValid lib.conv a s y.length) (ht : a.targetsOK = true)
    (hst : StrategyOK y.dedup.length s.self.strategy) (ho : s.self.ovr = false) (hcr : s.self.criterion = .gini) (hbal : s.self.balanced = false)
    (hno : NoLimits s.self a) (hw : ∀ v ∈ s.weights, ∃ z : Nat, v.1 = z ∧ 1 ≤ z ∧ z ≤ wmax)
    (hmax : 1 ≤ wmax) (hb : a.nRows * wmax ≤ 4096) (hd0 : 0 ≤ s.self.dirichlet.1) (hd1 : s.self.dirichlet.1 ≤ 1) :
    ∃ s' train, ∃ draws : Nat → List Nat, ∃ v : Nat → Nat → List F32, fitClassifier lib a y s = (.ok (), s') ∧ s'.self.encode lib a.nRows a.X = .ok train ∧
      (∀ t < s.self.nEstimators, ∃ seed, s'.self.seeds[t]? = some seed ∧ BootstrapOf (lib.boot a.nRows) a.nRows seed (draws t)) ∧
      (∀ t < s.self.nEstimators, ∃ o, s'.self.trees[t]? = some o ∧ o.predict mixV train = .ok ((List.range a.nRows).map (v t))) ∧
      ∀ t < s.self.nEstimators, ∀ i < a.nRows, i ∈ draws t → Consistent (nCols a.X) (binsOf train) (fun i => y[i]?) (draws t) i →
        ∃ (c : Nat) (q : F32), s'.self.classes[c]? = y[i]? ∧ (v t i)[c]? = some q ∧ ∀ (j : Nat) (x : F32), j ≠ c → (v t i)[j]? = some x → x.1 < q.1 := by
  rw [← sortedUnique_length] at hst
  have hov : staysOvr s.self y = false := by unfold staysOvr; rw [ho]; rfl
  have hnle : a.nRows ≤ 4096 := le_trans (Nat.le_mul_of_pos_right _ hmax) hb
  have hy0 : y ≠ [] := by
    intro h0; have := hd.labels; have := hd.rows.1; rw [h0] at *; simp_all
  have hn0 : 0 < (sortedUnique y).length := sortedUnique_pos hy0
  have hn1 : (sortedUnique y).length ≤ 4096 := by
    rw [sortedUnique_length]
    exact le_trans (List.dedup_sublist y).length_le (by rw [hd.labels]; exact hnle)
  obtain ⟨e0, o, he0, hfit, hfacts⟩ := fitClassifier_ok (okW := fun _ => True) hlib hp hd ht (fun h => by rw [ho] at h; cases h)
    (fun h => by rw [hno.aggregation] at h; cases h) hst (fun k hk => f32_laws.toNat_ofNat k (by omega)) (fun _ _ => trivial)
  subst he0
  have hnt : o.est.trees.length = s.self.nEstimators := by
    have := hfacts.nTrees
    rwa [show (preparedEst (withCategorical a.categorical s.self) y).ovr = staysOvr s.self y from rfl, hov, if_neg (by simp)] at this
  obtain ⟨train, h1, h2, h3, h4, h5⟩ := FitFacts.free (e := preparedEst (withCategorical a.categorical s.self) y) (e1 := s.self) hlib hd.rows hd.good hd.columns hp hno
    rfl rfl rfl rfl rfl o hfacts
  have hw' : ∀ v ∈ weightsOf a s, ∃ z : Nat, v.1 = z ∧ 1 ≤ z ∧ z ≤ wmax := by
    unfold weightsOf
    cases a.weights with
    | none =>
      intro v hv
      rw [List.eq_of_mem_replicate hv]
      exact ⟨1, by rw [Nat.cast_one]; exact F32.one_val, le_rfl, hmax⟩
    | some _ => exact hw
  have hcls : o.est.classes = sortedUnique y := rfl
  have hci : ∀ i < a.nRows, classOf (sortedUnique y) y i < (sortedUnique y).length ∧ (sortedUnique y)[classOf (sortedUnique y) y i]? = y[i]? := fun i hi => by
    have hi' : i < y.length := by rw [hd.labels]; exact hi
    have hm : y[i] ∈ sortedUnique y := mem_sortedUnique.2 (List.getElem_mem hi')
    have hlt := List.idxOf_lt_length_of_mem hm
    simp only [classOf, List.getElem?_eq_getElem hi']
    exact ⟨hlt, by rw [List.getElem?_eq_getElem hlt, List.getElem_idxOf]⟩
  have key : ∀ t, ∃ (draws : List Nat) (v : Nat → List F32), t < s.self.nEstimators →
      (∃ seed, o.est.seeds[t]? = some seed ∧ BootstrapOf (lib.boot a.nRows) a.nRows seed draws) ∧
      (∃ ob, o.est.trees[t]? = some ob ∧ ob.predict mixV train = .ok ((List.range a.nRows).map v)) ∧
      ∀ i < a.nRows, i ∈ draws → Consistent (nCols a.X) (binsOf train) (fun i => y[i]?) draws i →
        ∃ (c : Nat) (q : F32), o.est.classes[c]? = y[i]? ∧ (v i)[c]? = some q ∧ ∀ (j : Nat) (x : F32), j ≠ c → (v i)[j]? = some x → x.1 < q.1 := by
    intro t
    by_cases hlt : t < s.self.nEstimators
    · obtain ⟨seed, yy, w, draws, c, g1, g2, g3, g4, g5, hT⟩ := h5 t _ (List.getElem?_eq_getElem (by rw [hnt]; exact hlt))
      obtain rfl := prepared_weight hbal g3
      have hT' := hT
      simp only [preparedOf, hov, Bool.false_eq_true, if_false, hcr] at hT'
      obtain ⟨v, v1, v2⟩ := FreeTree.class_values (cls := classOf (sortedUnique y) y) hT' hlib hst h2 h3 h4 g5 (fun i hi => by
        rw [prepared_label g2 (by rw [hd.labels]; exact hi), f32_laws.toNat_ofNat _ (by
          have := (hci i hi).1
          rw [hov]
          change classOf (sortedUnique y) y i ≤ _
          omega), hov]
        exact ⟨rfl, (hci i hi).1⟩) hw' ⟨hn0, hn1⟩ hd0 hd1 hb
      refine ⟨draws, v, fun _ => ⟨⟨seed, g1, hT.boot⟩, ⟨_, List.getElem?_eq_getElem (by rw [hnt]; exact hlt), v1⟩, fun i hi hid hc => ?_⟩⟩
      obtain ⟨-, q, q1, q2⟩ := v2 i hi hid (fun r hr hb => by
        have h0 : y[r]? = y[i]? := hc r hr hb
        simp only [classOf, h0])
      exact ⟨_, q, by rw [hcls]; exact (hci i hi).2, q1, q2⟩
    · exact ⟨[], fun _ => [], fun h => absurd h hlt⟩
  choose draws v hkey using key
  exact ⟨_, train, draws, v, hfit, h1, fun t ht => (hkey t ht).1, fun t ht => (hkey t ht).2.1, fun t ht => (hkey t ht).2.2⟩

end

/-! ### Violation -/

section

/-- A classifier with one tree without limits, and the weights of the rows. -/
def freeWorldC (w : List F32) : World Nat Nat ℚ F32 (List F32) Nat Nat :=
  ⟨{ fitted := false, nEstimators := 1, criterion := .gini, step := F32.of 1, dirichlet := F32.of (1 / 2), aggregation := false, maxDepth := none, minSplit := 2,
     minLeaf := 1, maxBins := 5, categoricalFeatures := .none, maxFeatures := .none, subsample := none, catMin := .int 4, handleUnknownError := false,
     randomState := some (some 7), balanced := false, ovr := false, strategy := .all, classes := [], nClasses := 0, nTrees := 0,
     nClassesPerTree := 0, maxFeatures_ := 0, seeds := [], isCategorical_ := [], encoder := none, trees := [], nSamples := 0, nFeatures := 0 }, w, 0⟩

/-- The arguments of `fit`. -/
def freeArgsC : FitArgs String Nat := ⟨freeX, 4, some true, .none, false, true⟩

theorem freeWorldC_valid (w : List F32) : ParamsValid (freeWorldC w).self (nCols freeArgsC.X) :=
  ⟨by simp [freeWorldC], by simp [freeWorldC], rfl, by simp [freeWorldC], by simp [freeWorldC], ⟨_, rfl⟩, by simp [freeWorldC], by simp [freeWorldC]⟩

theorem freeDataC_valid {w : List F32} (h : w.length = 4) : DataValid freeLib.conv freeArgsC (freeWorldC w) 4 where
  rows := by simp [freeArgsC]
  labels := rfl
  columns := by simp [freeArgsC, freeX, nCols]
  weights _ := by simp [freeWorldC, freeArgsC, h]
  good := ⟨by decide, by simp [freeArgsC, GoodSeries]⟩
  small := by simp [freeArgsC, freeX, SmallDtypes]
  fittable := ⟨none, rfl, by
    intro p hp
    simp at hp
    rcases hp with rfl
    simp⟩

theorem freeWorldC_noLimits (w : List F32) : NoLimits (freeWorldC w).self freeArgsC := ⟨rfl, ⟨rfl, rfl⟩, rfl, rfl, rfl⟩

/-- The fit with the given exp and log. -/
def freeFitC (exp log : F32 → F32) (w : List F32) : M Unit × World Nat Nat ℚ F32 (List F32) Nat Nat :=
  let _ := f32With exp log
  fitClassifier freeLib freeArgsC [0, 1, 2, 0] (freeWorldC w)

/-- The predictions of the first tree. -/
def freePredictC (exp log : F32 → F32) (w : List F32) : M (List (List F32)) :=
  let _ := f32With exp log
  do
    let b ← (freeFitC exp log w).2.self.encode freeLib 4 freeX
    let o ← rd (freeFitC exp log w).2.self.trees 0
    o.predict mixV b

/-- The weights of the rows for the violation. -/
def heavyW : List F32 := [F32.of (2 ^ 26), F32.of (2 ^ 26), F32.of 1, F32.of 1]

/-- **C94** is violated for larger weights, on valid parameters and data: the classes of the rows are 0, 1, 2 and their words are different, but the tree
gives row 2 the largest probability for class 0 or 1. The node with row 2 and a row of weight 2^26 has the impurity `1 - 1`, since the weight 1 is lost in the
sum. -/
theorem C94_violated : NoLimits (freeWorldC heavyW).self freeArgsC ∧
    ∃ s', fitClassifier freeLib freeArgsC [0, 1, 2, 0] (freeWorldC heavyW) = (.ok (), s') ∧ s'.self.classes = [0, 1, 2] ∧
    ∃ train o p x0 x1 x2, s'.self.encode freeLib 4 freeX = .ok train ∧ s'.self.trees[0]? = some o ∧ o.predict mixV train = .ok p ∧
      p[2]? = some [x0, x1, x2] ∧ (x2.1 < x0.1 ∨ x2.1 < x1.1) ∧ binsOf train 2 0 ≠ binsOf train 0 0 ∧ binsOf train 2 0 ≠ binsOf train 1 0 := by
  have h0 : (fitClassifier freeLib freeArgsC [0, 1, 2, 0] (freeWorldC heavyW)).1 = .ok () ∧
      (fitClassifier freeLib freeArgsC [0, 1, 2, 0] (freeWorldC heavyW)).2.self.classes = [0, 1, 2] := by
    change (freeFitC f32Exp f32Log _).1 = _ ∧ (freeFitC f32Exp f32Log _).2.self.classes = _
    rw [← tableExp_eq, ← tableLog_eq]
    decide +kernel
  refine ⟨freeWorldC_noLimits _, _, Prod.ext h0.1 rfl, h0.2, ?_⟩
  have h : (freePredictC f32Exp f32Log heavyW).map (fun p => match p[2]? with
      | some [x0, x1, x2] => decide (x2.1 < x0.1 ∨ x2.1 < x1.1)
      | _ => false) = .ok true := by
    rw [← tableExp_eq, ← tableLog_eq]
    decide +kernel
  have hb : ((freeFitC f32Exp f32Log heavyW).2.self.encode freeLib 4 freeX).map
      (fun b => decide (binsOf b 2 0 ≠ binsOf b 0 0 ∧ binsOf b 2 0 ≠ binsOf b 1 0)) = .ok true := by
    rw [← tableExp_eq, ← tableLog_eq]
    decide +kernel
  obtain ⟨p, hp, hq⟩ : ∃ p, freePredictC f32Exp f32Log heavyW = .ok p ∧ (match p[2]? with
      | some [x0, x1, x2] => decide (x2.1 < x0.1 ∨ x2.1 < x1.1)
      | _ => false) = true := by
    cases hr : freePredictC f32Exp f32Log heavyW with
    | error e => rw [hr] at h; cases h
    | ok p => rw [hr] at h; exact ⟨p, rfl, Except.ok.inj h⟩
  unfold freePredictC at hp
  simp only at hp
  rw [bind_eq_ok] at hp
  obtain ⟨b, h1, hp⟩ := hp
  rw [bind_eq_ok] at hp
  obtain ⟨o, h2, hp⟩ := hp
  rw [h1] at hb
  split at hq
  · rename_i x0 x1 x2 he
    exact ⟨b, o, p, x0, x1, x2, h1, rd_ok.1 h2, hp, he, of_decide_eq_true hq, of_decide_eq_true (Except.ok.inj hb)⟩
  · cases hq

/-- `C94_partial` for the same data with smaller weights: row 2 gets the largest probability for class 2. -/
example : ∃ s' train o, ∃ v : Nat → List F32, fitClassifier freeLib freeArgsC [0, 1, 2, 0] (freeWorldC [F32.of 7, F32.of 1000, F32.of 1, F32.of 2]) = (.ok (), s') ∧
    s'.self.encode freeLib 4 freeX = .ok train ∧ s'.self.trees[0]? = some o ∧ o.predict mixV train = .ok ((List.range 4).map v) ∧
    ∃ (c : Nat) (q : F32), s'.self.classes[c]? = some 2 ∧ (v 2)[c]? = some q ∧ ∀ (j : Nat) (x : F32), j ≠ c → (v 2)[j]? = some x → x.1 < q.1 := by
  obtain ⟨s', train, draws, v, h1, h2, h3, h4, h5⟩ := C94_partial (a := freeArgsC) (y := [0, 1, 2, 0])
    (s := freeWorldC [F32.of 7, F32.of 1000, F32.of 1, F32.of 2]) (wmax := 1024)
    freeLib_ok (freeWorldC_valid _) (freeDataC_valid rfl) rfl (by rw [show ([0, 1, 2, 0] : List Nat).dedup.length = 3 by decide]; simp [freeWorldC, StrategyOK])
    rfl rfl rfl (freeWorldC_noLimits _) (by
      intro v hv
      have hv' : v ∈ [F32.of 7, F32.of 1000, F32.of 1, F32.of 2] := hv
      simp only [List.mem_cons, List.not_mem_nil, or_false] at hv'
      rcases hv' with rfl | rfl | rfl | rfl
      · exact ⟨7, by decide +kernel, by norm_num, by norm_num⟩
      · exact ⟨1000, by decide +kernel, by norm_num, by norm_num⟩
      · exact ⟨1, by decide +kernel, by norm_num, by norm_num⟩
      · exact ⟨2, by decide +kernel, by norm_num, by norm_num⟩) (by norm_num) (by norm_num [freeArgsC])
    (show 0 ≤ (F32.of (1 / 2)).1 by decide +kernel) (show (F32.of (1 / 2)).1 ≤ 1 by decide +kernel)
  obtain ⟨o, h6, h7⟩ := h4 0 (by decide)
  obtain ⟨seed, -, m, hm, -, -⟩ := h3 0 (by decide)
  have hdr : draws 0 = [0, 0, 1, 2] := hm
  have hb : ((freeFitC f32Exp f32Log [F32.of 7, F32.of 1000, F32.of 1, F32.of 2]).2.self.encode freeLib 4 freeX).map
      (fun b => decide (binsOf b 1 0 ≠ binsOf b 2 0 ∧ binsOf b 0 0 ≠ binsOf b 2 0)) = .ok true := by
    rw [← tableExp_eq, ← tableLog_eq]
    decide +kernel
  have hs : (freeFitC f32Exp f32Log [F32.of 7, F32.of 1000, F32.of 1, F32.of 2]).2 = s' := congrArg Prod.snd h1
  rw [hs, show s'.self.encode freeLib 4 freeX = .ok train from h2] at hb
  obtain ⟨b1, b2⟩ : binsOf train 1 0 ≠ binsOf train 2 0 ∧ binsOf train 0 0 ≠ binsOf train 2 0 := by simpa [Except.map] using hb
  refine ⟨s', train, o, v 0, h1, h2, h6, h7, ?_⟩
  exact h5 0 (by decide) 2 (by decide) (by rw [hdr]; decide) (by
    rw [hdr]
    intro r hr hb
    have := hb 0 (by decide)
    simp only [List.mem_cons, List.not_mem_nil, or_false] at hr
    rcases hr with rfl | rfl | rfl | rfl
    · exact absurd this b2
    · exact absurd this b2
    · exact absurd this b1
    · rfl)

end

end Verif
