import Verif.Proofs.EstFail

/-! What `fit` of a classifier gives. -/
set_option linter.unusedSectionVars false
namespace Verif

open Spec

section
variable {L V K G W N : Type} [LinearOrder L] [DecidableEq V] [DecidableEq N] [LinearOrder K] [Field K] [IsStrictOrderedRing K] [FloorSemiring K]

/-- What `fit` of a classifier gives. -/
theorem fit_class_facts {lib : Lib V K ℝ G W} {a : FitArgs N V} {y : List L} {s : World L V K ℝ (List ℝ) G W}
    (hlib : LibOK lib a.nRows) (hp : ParamsValid s.self (nCols a.X)) (hd : DataValid lib.conv a s y.length) (ht : a.targetsOK = true)
    (hrefit : s.self.ovr = true → s.self.fitted = true → 2 < y.dedup.length) (hst : StrategyOK y.dedup.length s.self.strategy)
    (hdir : 0 ≤ s.self.dirichlet) (hagg : s.self.aggregation = true → 0 < s.self.dirichlet)
    (hw : ∀ w ∈ s.weights, 0 ≤ w) (hpos : 0 < s.self.dirichlet ∨ ∀ w ∈ s.weights, 0 < w) :
    ∃ s', fitClassifier lib a y s = (.ok (), s') ∧ s'.self.fitted = true ∧ s'.self.classes = sortedUnique y ∧
      s'.self.nClasses = (sortedUnique y).length ∧ s'.self.ovr = staysOvr s.self y ∧ s'.self.nEstimators = s.self.nEstimators ∧
      s'.self.trees.length = (if staysOvr s.self y then s.self.nEstimators * (sortedUnique y).length else s.self.nEstimators) ∧
      s'.self.maxFeatures = s.self.maxFeatures ∧ s'.self.aggregation = s.self.aggregation ∧ s'.self.dirichlet = s.self.dirichlet ∧
      AcceptedBy lib s'.self a.X ∧
      ∀ (N' : Type) [DecidableEq N'] (n : Nat) (X : Dataset N' V), 0 < n → GoodInput n X → AcceptedBy lib s'.self X →
        ∃ fba, s'.self.encode lib n X = .ok fba ∧ fba.nSamples = n ∧ ∀ o ∈ s'.self.trees, ∃ p, o.predict mixV fba = .ok p ∧
          p.length = fba.nSamples ∧ ∀ v ∈ p, Distribution (if staysOvr s.self y then 2 else (sortedUnique y).length) v := by
  rw [← sortedUnique_length] at hrefit hst
  have hsw := weightsOf_sign (a := a) hw
  obtain ⟨e0, o, he0, hfit, hfacts⟩ := fitClassifier_ok
    (okW := fun w => (∀ v ∈ w, 0 ≤ v) ∧ (0 < s.self.dirichlet ∨ ∀ v ∈ w, 0 < v)) hlib hp hd ht hrefit
    (fun h h2 => by
      have := hagg h
      simp only [Num.le, Num.zero, decide_eq_true_eq] at h2
      linarith [h2.1])
    hst (fun k _ => by simp [Num.toNat, Num.ofNat])
    (fun w hwm => by
      obtain ⟨h1, h2⟩ := classWeights_sign hsw.1 w hwm
      exact ⟨h1, hpos.imp id fun h => h2 (hsw.2 h)⟩)
  subst he0
  obtain ⟨cfg, enc, henc, -, -, -, -, -, hA⟩ := hfacts.encoder
  refine ⟨_, hfit, rfl, rfl, rfl, rfl, rfl, hfacts.nTrees, rfl, rfl, rfl, ⟨cfg, enc, henc, hA⟩, fun N' _ n X hn hX hA => ?_⟩
  obtain ⟨cfg', enc', he', hA'⟩ := hA
  obtain ⟨fba, hb, hrows, hx⟩ := hfacts.encode hn hX (fun c e h => by
    have := h.symm.trans he'
    injection this with this
    obtain ⟨rfl, rfl⟩ := Prod.mk.inj this
    exact hA')
  exact ⟨fba, hb, hrows, FitFacts.predict_class (e0 := preparedEst (withCategorical a.categorical s.self) y) rfl rfl hlib (strategy_tree hst _) hdir rfl hfacts hx⟩

/-! ## Balanced weights -/

theorem count_map_on {α β : Type} [DecidableEq α] [DecidableEq β] {f : α → β} {l : List α} (h : ∀ a ∈ l, ∀ b ∈ l, f a = f b → a = b) {x : α}
    (hx : x ∈ l) : (l.map f).count (f x) = l.count x := by
  rw [List.count, List.count, List.countP_map]
  refine List.countP_congr fun a ha => ?_
  simp only [Function.comp, beq_iff_eq]
  exact ⟨fun e => h a ha x hx e, fun e => by rw [e]⟩

theorem dedup_map_length {α β : Type} [DecidableEq α] [DecidableEq β] {f : α → β} {l : List α} (h : ∀ a ∈ l, ∀ b ∈ l, f a = f b → a = b) :
    (l.map f).dedup.length = l.dedup.length := by
  rw [← List.card_toFinset, ← List.card_toFinset]
  have : (l.map f).toFinset = l.toFinset.image f := by ext; simp
  rw [this]
  refine Finset.card_image_of_injOn fun a ha b hb e => h a (by simpa using ha) b (by simpa using hb) e

/-- The balanced weights in terms of the labels. -/
theorem balancedWeights_labels (y : List L) :
    (balancedWeights (labelCodes (sortedUnique y) y) : List ℝ) = y.map fun l => (y.length : ℝ) / (y.dedup.length * y.count l) := by
  have hinj : ∀ a ∈ y, ∀ b ∈ y, (sortedUnique y).idxOf a = (sortedUnique y).idxOf b → a = b := by
    intro a ha b _ h
    exact (List.idxOf_inj (mem_sortedUnique.2 ha)).1 h
  unfold balancedWeights labelCodes
  rw [List.map_map]
  refine List.map_congr_left fun l hl => ?_
  simp only [Function.comp, Num.div, Num.mul, Num.ofNat]
  rw [count_map_on hinj hl, dedup_map_length hinj, List.length_map]

end

end Verif
