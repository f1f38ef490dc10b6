import Verif.Proofs.Read
import Verif.Props.Steps

/-! # C120: fitted trees can be read as rules about the values of the cells -/
set_option linter.unusedSectionVars false
namespace Verif

open Spec

section
variable {L V K F G W N : Type} [LinearOrder L] [DecidableEq V] [DecidableEq N] [LinearOrder K] [Field K] [IsStrictOrderedRing K] [FloorSemiring K] [Num F]

/-- **C120** Classifier, in any arithmetic. After `fit` every column has a rule: cut points or categories. The leaves that `apply` returns are those that are reached by
comparing numbers with cut points and looking up categories; missing cells go right in numerical columns. So rows with the same cells in the tested columns have the same
leaves, probabilities and labels, whatever the other columns contain. -/
theorem C120_classifier {lib : Lib V K F G W} {a : FitArgs N V} {y : List L} {s : World L V K F (List F) G W}
    (hlib : LibOK lib a.nRows) (hp : ParamsValid s.self (nCols a.X)) (hd : DataValid lib.conv a s y.length) (ht : a.targetsOK = true)
    (hrefit : s.self.ovr = true → s.self.fitted = true → 2 < y.dedup.length) (hst : StrategyOK y.dedup.length s.self.strategy)
    (hdir : s.self.aggregation = true → ¬(Num.le s.self.dirichlet Num.zero = true ∧ Num.le Num.zero s.self.dirichlet = true))
    (hF : ∀ k, k < max 2 y.dedup.length → Num.toNat (Num.ofNat k : F) = k) :
    ∃ (s' : World L V K F (List F) G W) (rules : List (Rule V K)), fitClassifier lib a y s = (.ok (), s') ∧ rules.map Rule.isCats = s'.self.isCategorical_ ∧
      CutsOf s.self.maxBins lib.cap lib.conv.toFloat a.X a.nRows (rules.map Rule.cutPoints) ∧ CatsOf a.X rules ∧
      ∀ (N' : Type) [DecidableEq N'] (eps : F),
        (∀ (n : Nat) (X : Dataset N' V), 0 < n → GoodInput n X → AcceptedBy lib s'.self X →
          ∃ A, s'.self.apply lib n X = .ok A ∧ ReadLeaves (numOf lib.conv X) rules s'.self.trees X n A) ∧
        ∀ (n n' i i' : Nat) (X X' : Dataset N' V), GoodInput n X → GoodInput n' X' → i < n → i' < n' → AcceptedBy lib s'.self X → AcceptedBy lib s'.self X' →
          numOf lib.conv X = numOf lib.conv X' → SameTestedCells s'.self.trees X X' i i' →
          ∃ A A' p p' l l', s'.self.apply lib n X = .ok A ∧ s'.self.apply lib n' X' = .ok A' ∧ SameLeaves A A' i i' ∧
            s'.self.predictProba lib eps n X = .ok p ∧ s'.self.predictProba lib eps n' X' = .ok p' ∧ p.length = n ∧ p'.length = n' ∧ p[i]? = p'[i']? ∧
            s'.self.predict lib eps n X = .ok l ∧ s'.self.predict lib eps n' X' = .ok l' ∧ l[i]? = l'[i']? := by
  obtain ⟨s', hs', -, -, -, hans⟩ := C118_classifier hlib hp hd ht hrefit hst hdir hF
  rw [← sortedUnique_length] at hrefit hst hF
  obtain ⟨e0, o, he0, hfit, hfacts⟩ := fitClassifier_ok (okW := fun _ => True) hlib hp hd ht hrefit hdir hst hF (fun _ _ => trivial)
  obtain ⟨rules, c1, c2, c3, c4⟩ := hfacts.read hlib hd.rows.2 hd.rows.1 hd.good (.classifier lib.rng _ _ _ hlib.argsort (strategy_tree hst _)) o
  have hself : s'.self = o.est := by rw [hs'] at hfit; rw [(Prod.mk.inj hfit).2]
  rw [← hself] at c1 c4
  have hmb : e0.maxBins = s.self.maxBins := by rw [he0]; rfl
  rw [hmb] at c2
  refine ⟨s', rules, hs', c1, c2, c3, fun N' _ eps => ⟨fun n X hn hX hA => ?_, fun n n' i i' X X' hX hX' hi hi' hA hA' hnum hsame => ?_⟩⟩
  · obtain ⟨-, -, A, hap, -⟩ := hans N' eps n X hn hX hA
    exact ⟨A, hap, c4 N' n X A hn hX hA hap⟩
  · obtain ⟨⟨p, hp, hpl, -⟩, ⟨l, hl, -⟩, A, hap, -⟩ := hans N' eps n X (by omega) hX hA
    obtain ⟨⟨p', hp', hpl', -⟩, ⟨l', hl', -⟩, A', hap', -⟩ := hans N' eps n' X' (by omega) hX' hA'
    have r1 := c4 N' n X A (by omega) hX hA hap
    have r2 := c4 N' n' X' A' (by omega) hX' hA' hap'
    rw [← hnum] at r2
    have hsl := readLeaves_same r1 r2 hi hi' hsame
    obtain ⟨q1, q2⟩ := C117_classifier hap hap' hsl hp hp' (by omega) (by omega)
    exact ⟨A, A', p, p', l, l', hap, hap', hsl, hp, hp', hpl, hpl', q1, hl, hl', q2 l l' hl hl'⟩

/-- **C120** Regressor. -/
theorem C120_regressor {lib : Lib V K F G W} {a : FitArgs N V} {y : List F} {s : World L V K F F G W}
    (hlib : LibOK lib a.nRows) (hp : ParamsValid s.self (nCols a.X)) (hd : DataValid lib.conv a s y.length) :
    ∃ (s' : World L V K F F G W) (rules : List (Rule V K)), fitRegressor lib a y s = (.ok (), s') ∧ rules.map Rule.isCats = s'.self.isCategorical_ ∧
      CutsOf s.self.maxBins lib.cap lib.conv.toFloat a.X a.nRows (rules.map Rule.cutPoints) ∧ CatsOf a.X rules ∧
      ∀ (N' : Type) [DecidableEq N'],
        (∀ (n : Nat) (X : Dataset N' V), 0 < n → GoodInput n X → AcceptedBy lib s'.self X →
          ∃ A, s'.self.apply lib n X = .ok A ∧ ReadLeaves (numOf lib.conv X) rules s'.self.trees X n A) ∧
        ∀ (n n' i i' : Nat) (X X' : Dataset N' V), GoodInput n X → GoodInput n' X' → i < n → i' < n' → AcceptedBy lib s'.self X → AcceptedBy lib s'.self X' →
          numOf lib.conv X = numOf lib.conv X' → SameTestedCells s'.self.trees X X' i i' →
          ∃ A A' p p', s'.self.apply lib n X = .ok A ∧ s'.self.apply lib n' X' = .ok A' ∧ SameLeaves A A' i i' ∧
            s'.self.predictReg lib n X = .ok p ∧ s'.self.predictReg lib n' X' = .ok p' ∧ p.length = n ∧ p'.length = n' ∧ p[i]? = p'[i']? := by
  obtain ⟨s', hs', -, hans⟩ := C118_regressor hlib hp hd
  obtain ⟨e0, o, he0, hfit, hfacts⟩ := fitRegressor_ok hlib hp hd
  obtain ⟨rules, c1, c2, c3, c4⟩ := hfacts.read hlib hd.rows.2 hd.rows.1 hd.good (.regressor hlib.argsort) o
  have hself : s'.self = o.est := by rw [hs'] at hfit; rw [(Prod.mk.inj hfit).2]
  rw [← hself] at c1 c4
  have hmb : e0.maxBins = s.self.maxBins := by rw [he0]; rfl
  rw [hmb] at c2
  refine ⟨s', rules, hs', c1, c2, c3, fun N' _ => ⟨fun n X hn hX hA => ?_, fun n n' i i' X X' hX hX' hi hi' hA hA' hnum hsame => ?_⟩⟩
  · obtain ⟨-, ⟨A, hap, -⟩, -⟩ := hans N' n X hn hX hA
    exact ⟨A, hap, c4 N' n X A hn hX hA hap⟩
  · obtain ⟨⟨p, hp, hpl⟩, ⟨A, hap, -⟩, -⟩ := hans N' n X (by omega) hX hA
    obtain ⟨⟨p', hp', hpl'⟩, ⟨A', hap', -⟩, -⟩ := hans N' n' X' (by omega) hX' hA'
    have r1 := c4 N' n X A (by omega) hX hA hap
    have r2 := c4 N' n' X' A' (by omega) hX' hA' hap'
    rw [← hnum] at r2
    have hsl := readLeaves_same r1 r2 hi hi' hsame
    exact ⟨A, A', p, p', hap, hap', hsl, hp, hp', hpl, hpl', (C117_regressor hap hap' hsl hp hp' (by omega) (by omega)).1⟩

end

/-- The hypotheses of `C120_regressor` hold: a numerical first column with fewer than 5 cut points, and the trees can be read for a row that is not in the training
data. -/
example : ∃ s' l R, ∃ A : List (List Nat), fitRegressor estLib (estArgs none false) realY (estWorld _ false false .none 0) = (.ok (), s') ∧ l.length < 5 ∧
    s'.self.apply estLib 1 (estCell 1000) = .ok A ∧ ReadLeaves estLib.conv.toFloat [.cuts l, R] s'.self.trees (estCell 1000) 1 A := by
  have hd := estData_valid (P := ℝ) (ovr := false) (balanced := false) (cf := .none) (np := 0) none false
  have hlib : LibOK estLib (estArgs none false).nRows := estLib_ok (n := 6) (by norm_num)
  obtain ⟨s', h, hc⟩ := estX_regressor
  obtain ⟨e0, o, he0, h1, hf⟩ := fitRegressor_ok (y := realY) hlib (estToy_valid _) hd
  obtain ⟨s2, rules, h2, c1, c2, -, c4⟩ := C120_regressor (y := realY) hlib (estToy_valid _) hd
  obtain ⟨-, rfl⟩ := Prod.mk.inj (h.symm.trans h2)
  obtain ⟨-, hs⟩ := Prod.mk.inj (h.symm.trans h1)
  have hs : s'.self = o.est := by rw [hs]
  have hu : e0.handleUnknownError = false := by rw [he0]; rfl
  have hA : ∀ v, AcceptedBy estLib s'.self (estCell v) := fun v => hs ▸ est_accepts o hf hu rfl
  have hlen : rules.length = 2 := by
    obtain ⟨cfg, enc, -, -, -, -, hl, hcat, -⟩ := hf.encoder
    have := congrArg List.length c1
    rw [hs, hcat] at this
    simpa [hl, estArgs, nCols, estX] using this
  obtain ⟨R0, R, rfl⟩ := List.length_eq_two.1 hlen
  cases R0 with
  | cats _ => rw [← c1] at hc; cases hc
  | cuts l =>
    obtain ⟨A, hap, hr⟩ := (c4 String).1 1 (estCell 1000) (by norm_num) (estCell_good _) (hA _)
    exact ⟨s', l, R, A, h, (c2 0 l rfl).1, hap, hr⟩

/-- The hypotheses of `C120_classifier` hold: an untested column has no effect. -/
example : ∃ s', fitClassifier estLib (estArgs (some true) true) [3, 3, 5, 5, 8, 8] (estWorld _ true true .none 0) = (.ok (), s') ∧
    ((∀ o ∈ s'.self.trees, ∀ k n, NodeAt o.arr k n → n.isLeaf = false → n.feature ≠ some 0) →
      ∃ p, ∀ v, s'.self.predictProba estLib (1 / 1000) 1 (estCell v) = .ok p) := by
  have hd := estData_valid (P := List ℝ) (ovr := true) (balanced := true) (cf := .none) (np := 0) (some true) true
  have hlib : LibOK estLib (estArgs (some true) true).nRows := estLib_ok (n := 6) (by norm_num)
  obtain ⟨s', h, hc⟩ := estX_classifier
  obtain ⟨s2, rules, h2, -, -, -, c4⟩ := C120_classifier hlib (estToy_valid _) hd (y := [3, 3, 5, 5, 8, 8]) rfl (fun _ h => by cases h) est_strategy
    (by intro _; norm_num [estWorld, estToy, Num.le, Num.zero]) (fun k _ => by simp [Num.toNat, Num.ofNat])
  obtain ⟨e0, o, he0, h1, hf⟩ := fitClassifier_ok (okW := fun _ => True) (y := [3, 3, 5, 5, 8, 8]) hlib (estToy_valid _) hd rfl (fun _ h => by cases h)
    (by intro _; norm_num [estWorld, estToy, Num.le, Num.zero]) (by rw [sortedUnique_length]; exact est_strategy)
    (fun k _ => by simp [Num.toNat, Num.ofNat]) (fun _ _ => trivial)
  obtain ⟨-, rfl⟩ := Prod.mk.inj (h.symm.trans h2)
  obtain ⟨-, hs⟩ := Prod.mk.inj (h.symm.trans h1)
  have hs : s'.self = o.est := by rw [hs]
  have hu : e0.handleUnknownError = false := by rw [he0]; rfl
  have hA : ∀ v, AcceptedBy estLib s'.self (estCell v) := fun v => hs ▸ est_accepts o hf hu rfl
  refine ⟨s', h, fun hno => ?_⟩
  have key := fun v => (c4 String (1 / 1000)).2 1 1 0 0 (estCell 0) (estCell v) (estCell_good _) (estCell_good _) (by norm_num) (by norm_num) (hA 0) (hA v) rfl
    (fun o ho k n f hn hl hf => by
      match f, hf with
      | 0, hf => exact absurd hf (hno o ho k n hn hl)
      | 1, _ => rfl
      | f + 2, _ => rfl)
  obtain ⟨-, -, p, -, -, -, -, -, -, hp, -, hpl, -⟩ := key 0
  refine ⟨p, fun v => ?_⟩
  obtain ⟨-, -, p1, p2, -, -, -, -, -, q1, q2, q3, q4, q5, -⟩ := key v
  rw [hp] at q1
  cases q1
  obtain ⟨x, rfl⟩ := List.length_eq_one_iff.1 hpl
  obtain ⟨x', rfl⟩ := List.length_eq_one_iff.1 q4
  simp only [List.getElem?_cons_zero, Option.some.injEq] at q5
  rw [q2, q5]

end Verif
