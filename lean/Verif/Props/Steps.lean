import Verif.Proofs.Steps
import Verif.Props.AnyFloat
import Verif.Props.Beyond

/-! # C119: predictions are step functions of the numerical columns -/
set_option linter.unusedSectionVars false
namespace Verif

open Spec

section
variable {L V K F G W N : Type} [LinearOrder L] [DecidableEq V] [DecidableEq N] [LinearOrder K] [Field K] [IsStrictOrderedRing K] [FloorSemiring K] [Num F]

/-- **C119** Classifier, in any arithmetic. After `fit` every numerical column has fewer than `max_bins` cut points, each halfway between two training numbers of the
column. Two rows, of one or of two tables, that no cut point separates and that agree otherwise have the same leaves, probabilities and labels. So while the cell of
one numerical column of a row varies, at most `max_bins + 1` different rows of probabilities occur (one of them for missing cells). -/
theorem C119_classifier {lib : Lib V K F G W} {a : FitArgs N V} {y : List L} {s : World L V K F (List F) G W}
    (hlib : LibOK lib a.nRows) (hp : ParamsValid s.self (nCols a.X)) (hd : DataValid lib.conv a s y.length) (ht : a.targetsOK = true)
    (hrefit : s.self.ovr = true → s.self.fitted = true → 2 < y.dedup.length) (hst : StrategyOK y.dedup.length s.self.strategy)
    (hdir : s.self.aggregation = true → ¬(Num.le s.self.dirichlet Num.zero = true ∧ Num.le Num.zero s.self.dirichlet = true))
    (hF : ∀ k, k < max 2 y.dedup.length → Num.toNat (Num.ofNat k : F) = k) :
    ∃ s' cuts, fitClassifier lib a y s = (.ok (), s') ∧ cuts.map Option.isNone = s'.self.isCategorical_ ∧
      CutsOf s.self.maxBins lib.cap lib.conv.toFloat a.X a.nRows cuts ∧
      ∀ (N' : Type) [DecidableEq N'] (eps : F),
        (∀ (n n' i i' : Nat) (X X' : Dataset N' V), GoodInput n X → GoodInput n' X' → i < n → i' < n' → AcceptedBy lib s'.self X → AcceptedBy lib s'.self X' →
          numOf lib.conv X = numOf lib.conv X' → SameSteps (numOf lib.conv X) cuts X X' i i' →
          ∃ A A' p p' l l', s'.self.apply lib n X = .ok A ∧ s'.self.apply lib n' X' = .ok A' ∧ SameLeaves A A' i i' ∧
            s'.self.predictProba lib eps n X = .ok p ∧ s'.self.predictProba lib eps n' X' = .ok p' ∧ p.length = n ∧ p'.length = n' ∧ p[i]? = p'[i']? ∧
            s'.self.predict lib eps n X = .ok l ∧ s'.self.predict lib eps n' X' = .ok l' ∧ l[i]? = l'[i']?) ∧
        ∀ (j : Nat) (Xs : List (Dataset N' V)), s'.self.isCategorical_[j]? = some false →
          (∀ X ∈ Xs, GoodInput 1 X ∧ AcceptedBy lib s'.self X ∧ ∀ X' ∈ Xs, numOf lib.conv X = numOf lib.conv X' ∧ ∀ k, k ≠ j → cell X 0 k = cell X' 0 k) →
          ∃ answers : List (List F), answers.length ≤ s.self.maxBins + 1 ∧ ∀ X ∈ Xs, ∃ q ∈ answers, s'.self.predictProba lib eps 1 X = .ok [q] := by
  obtain ⟨s', hs', -, -, -, hans⟩ := C118_classifier hlib hp hd ht hrefit hst hdir hF
  rw [← sortedUnique_length] at hrefit hst hF
  obtain ⟨e0, o, he0, hfit, hfacts⟩ := fitClassifier_ok (okW := fun _ => True) hlib hp hd ht hrefit hdir hst hF (fun _ _ => trivial)
  obtain ⟨cuts, c1, c2, c3⟩ := hfacts.steps hd.good o
  have hself : s'.self = o.est := by rw [hs'] at hfit; rw [(Prod.mk.inj hfit).2]
  rw [← hself] at c1 c3
  have hmb : e0.maxBins = s.self.maxBins := by rw [he0]; rfl
  rw [hmb] at c2
  refine ⟨s', cuts, hs', c1, c2, fun N' _ eps => ⟨fun n n' i i' X X' hX hX' hi hi' hA hA' hnum hsame => ?_, fun j Xs hj hXs => ?_⟩⟩
  · obtain ⟨⟨p, hp, hpl, -⟩, ⟨l, hl, -⟩, A, hap, -⟩ := hans N' eps n X (by omega) hX hA
    obtain ⟨⟨p', hp', hpl', -⟩, ⟨l', hl', -⟩, A', hap', -⟩ := hans N' eps n' X' (by omega) hX' hA'
    have hsl := (c3 N' n n' i i' X X' A A' hX hX' hi hi' hA hA' hnum hap hap').1 hsame
    obtain ⟨q1, q2⟩ := C117_classifier hap hap' hsl hp hp' (by omega) (by omega)
    exact ⟨A, A', p, p', l, l', hap, hap', hsl, hp, hp', hpl, hpl', q1, hl, hl', q2 l l' hl hl'⟩
  · rw [← c1, List.getElem?_map, Option.map_eq_some_iff] at hj
    obtain ⟨w, hw, hw2⟩ := hj
    cases w with
    | none => cases hw2
    | some l =>
    obtain ⟨m1, m2, -⟩ := c2 j l hw
    obtain ⟨L, hL, hmem⟩ := few_values (Xs := Xs) (f := fun X => s'.self.predictProba lib eps 1 X)
      (bin := fun X => (cellBin (numOf lib.conv X) (.num l : FitCol V K) ((cell X 0 j).getD none)).getD 0) (m := l.length + 2)
      (fun X _ => cellBin_lt m2) (fun X hX X' hX' hb => by
        obtain ⟨g1, g2, g3⟩ := hXs X hX
        obtain ⟨g1', g2', -⟩ := hXs X' hX'
        obtain ⟨⟨p, hp, hpl, -⟩, -, A, hap, -⟩ := hans N' eps 1 X (by omega) g1 g2
        obtain ⟨⟨p', hp', hpl', -⟩, -, A', hap', -⟩ := hans N' eps 1 X' (by omega) g1' g2'
        have hsl := (c3 N' 1 1 0 0 X X' A A' g1 g1' (by omega) (by omega) g2 g2' (g3 X' hX').1 hap hap').2 j l hw (g3 X' hX').2 hb
        obtain ⟨q1, -⟩ := C117_classifier hap hap' hsl hp hp' (by omega) (by omega)
        obtain ⟨x, rfl⟩ := List.length_eq_one_iff.1 hpl
        obtain ⟨x', rfl⟩ := List.length_eq_one_iff.1 hpl'
        simp only [List.getElem?_cons_zero, Option.some.injEq] at q1
        rw [hp, hp', q1])
    refine ⟨L.filterMap fun r => match r with | .ok [q] => some q | _ => none, (List.length_filterMap_le _ _).trans (by omega), fun X hX => ?_⟩
    obtain ⟨g1, g2, -⟩ := hXs X hX
    obtain ⟨⟨p, hp, hpl, -⟩, -⟩ := hans N' eps 1 X (by omega) g1 g2
    obtain ⟨x, rfl⟩ := List.length_eq_one_iff.1 hpl
    refine ⟨x, List.mem_filterMap.2 ⟨_, hmem X hX, ?_⟩, hp⟩
    rw [hp]

/-- **C119** Regressor. -/
theorem C119_regressor {lib : Lib V K F G W} {a : FitArgs N V} {y : List F} {s : World L V K F F G W}
    (hlib : LibOK lib a.nRows) (hp : ParamsValid s.self (nCols a.X)) (hd : DataValid lib.conv a s y.length) :
    ∃ s' cuts, fitRegressor lib a y s = (.ok (), s') ∧ cuts.map Option.isNone = s'.self.isCategorical_ ∧
      CutsOf s.self.maxBins lib.cap lib.conv.toFloat a.X a.nRows cuts ∧
      ∀ (N' : Type) [DecidableEq N'],
        (∀ (n n' i i' : Nat) (X X' : Dataset N' V), GoodInput n X → GoodInput n' X' → i < n → i' < n' → AcceptedBy lib s'.self X → AcceptedBy lib s'.self X' →
          numOf lib.conv X = numOf lib.conv X' → SameSteps (numOf lib.conv X) cuts X X' i i' →
          ∃ A A' p p', s'.self.apply lib n X = .ok A ∧ s'.self.apply lib n' X' = .ok A' ∧ SameLeaves A A' i i' ∧
            s'.self.predictReg lib n X = .ok p ∧ s'.self.predictReg lib n' X' = .ok p' ∧ p.length = n ∧ p'.length = n' ∧ p[i]? = p'[i']?) ∧
        ∀ (j : Nat) (Xs : List (Dataset N' V)), s'.self.isCategorical_[j]? = some false →
          (∀ X ∈ Xs, GoodInput 1 X ∧ AcceptedBy lib s'.self X ∧ ∀ X' ∈ Xs, numOf lib.conv X = numOf lib.conv X' ∧ ∀ k, k ≠ j → cell X 0 k = cell X' 0 k) →
          ∃ answers : List F, answers.length ≤ s.self.maxBins + 1 ∧ ∀ X ∈ Xs, ∃ q ∈ answers, s'.self.predictReg lib 1 X = .ok [q] := by
  obtain ⟨s', hs', -, hans⟩ := C118_regressor hlib hp hd
  obtain ⟨e0, o, he0, hfit, hfacts⟩ := fitRegressor_ok hlib hp hd
  obtain ⟨cuts, c1, c2, c3⟩ := hfacts.steps hd.good o
  have hself : s'.self = o.est := by rw [hs'] at hfit; rw [(Prod.mk.inj hfit).2]
  rw [← hself] at c1 c3
  have hmb : e0.maxBins = s.self.maxBins := by rw [he0]; rfl
  rw [hmb] at c2
  refine ⟨s', cuts, hs', c1, c2, fun N' _ => ⟨fun n n' i i' X X' hX hX' hi hi' hA hA' hnum hsame => ?_, fun j Xs hj hXs => ?_⟩⟩
  · obtain ⟨⟨p, hp, hpl⟩, ⟨A, hap, -⟩, -⟩ := hans N' n X (by omega) hX hA
    obtain ⟨⟨p', hp', hpl'⟩, ⟨A', hap', -⟩, -⟩ := hans N' n' X' (by omega) hX' hA'
    have hsl := (c3 N' n n' i i' X X' A A' hX hX' hi hi' hA hA' hnum hap hap').1 hsame
    exact ⟨A, A', p, p', hap, hap', hsl, hp, hp', hpl, hpl', (C117_regressor hap hap' hsl hp hp' (by omega) (by omega)).1⟩
  · rw [← c1, List.getElem?_map, Option.map_eq_some_iff] at hj
    obtain ⟨w, hw, hw2⟩ := hj
    cases w with
    | none => cases hw2
    | some l =>
    obtain ⟨m1, m2, -⟩ := c2 j l hw
    obtain ⟨L, hL, hmem⟩ := few_values (Xs := Xs) (f := fun X => s'.self.predictReg lib 1 X)
      (bin := fun X => (cellBin (numOf lib.conv X) (.num l : FitCol V K) ((cell X 0 j).getD none)).getD 0) (m := l.length + 2)
      (fun X _ => cellBin_lt m2) (fun X hX X' hX' hb => by
        obtain ⟨g1, g2, g3⟩ := hXs X hX
        obtain ⟨g1', g2', -⟩ := hXs X' hX'
        obtain ⟨⟨p, hp, hpl⟩, ⟨A, hap, -⟩, -⟩ := hans N' 1 X (by omega) g1 g2
        obtain ⟨⟨p', hp', hpl'⟩, ⟨A', hap', -⟩, -⟩ := hans N' 1 X' (by omega) g1' g2'
        have hsl := (c3 N' 1 1 0 0 X X' A A' g1 g1' (by omega) (by omega) g2 g2' (g3 X' hX').1 hap hap').2 j l hw (g3 X' hX').2 hb
        have q1 := (C117_regressor hap hap' hsl hp hp' (by omega) (by omega)).1
        obtain ⟨x, rfl⟩ := List.length_eq_one_iff.1 hpl
        obtain ⟨x', rfl⟩ := List.length_eq_one_iff.1 hpl'
        simp only [List.getElem?_cons_zero, Option.some.injEq] at q1
        rw [hp, hp', q1])
    refine ⟨L.filterMap fun r => match r with | .ok [q] => some q | _ => none, (List.length_filterMap_le _ _).trans (by omega), fun X hX => ?_⟩
    obtain ⟨g1, g2, -⟩ := hXs X hX
    obtain ⟨⟨p, hp, hpl⟩, -⟩ := hans N' 1 X (by omega) g1 g2
    obtain ⟨x, rfl⟩ := List.length_eq_one_iff.1 hpl
    refine ⟨x, List.mem_filterMap.2 ⟨_, hmem X hX, ?_⟩, hp⟩
    rw [hp]

end

/-- A row with the number `v`. -/
def estCell (v : Nat) : Dataset String Nat := .frame [("a", { kind := .uif, cells := [some v] }), ("b", { kind := .bOSU, cells := [some 2] })]

theorem estCell_good (v : Nat) : GoodInput 1 (estCell v) := by
  refine ⟨by simp [List.Nodup], ?_⟩
  intro p hp
  simp at hp
  rcases hp with rfl | rfl <;> simp [GoodSeries]

theorem est_le5 {u : ℚ} (hu : some u ∈ numbersOf estLib.conv.toFloat estX 6 0) : u ≤ 5 := by
  simp only [numbersOf, List.mem_map, List.mem_range] at hu
  obtain ⟨r, hr, hu⟩ := hu
  have h6 : ∀ r < 6, cell estX r 0 = some (some r) := by decide
  rw [h6 r hr] at hu
  cases hu
  exact Nat.cast_le_ofNat.2 (by omega)

/-- The hypotheses of `C119_regressor` hold: a regressor fitted with `max_bins = 5` has at most 6 different predictions for a thousand rows that differ in the first
column. -/
example : ∃ s', ∃ answers : List ℝ, fitRegressor estLib (estArgs none false) realY (estWorld _ false false .none 0) = (.ok (), s') ∧ answers.length ≤ 6 ∧
    ∀ v < 1000, ∃ q ∈ answers, s'.self.predictReg estLib 1 (estCell v) = .ok [q] := by
  have hd := estData_valid (P := ℝ) (ovr := false) (balanced := false) (cf := .none) (np := 0) none false
  have hlib : LibOK estLib (estArgs none false).nRows := estLib_ok (n := 6) (by norm_num)
  obtain ⟨s', h, hc⟩ := estX_regressor
  obtain ⟨e0, o, he0, h1, hf⟩ := fitRegressor_ok (y := realY) hlib (estToy_valid _) hd
  obtain ⟨s2, cuts, h2, -, -, h3⟩ := C119_regressor (y := realY) hlib (estToy_valid _) hd
  obtain ⟨-, rfl⟩ := Prod.mk.inj (h.symm.trans h2)
  obtain ⟨-, hs⟩ := Prod.mk.inj (h.symm.trans h1)
  have hs : s'.self = o.est := by rw [hs]
  have hu : e0.handleUnknownError = false := by rw [he0]; rfl
  have hA : ∀ v, AcceptedBy estLib s'.self (estCell v) := fun v => hs ▸ est_accepts o hf hu rfl
  obtain ⟨answers, a1, a2⟩ := (h3 String).2 0 ((List.range 1000).map estCell) hc (fun X hX => by
    obtain ⟨v, -, rfl⟩ := List.mem_map.1 hX
    refine ⟨estCell_good v, hA v, fun X' hX' => ?_⟩
    obtain ⟨v', -, rfl⟩ := List.mem_map.1 hX'
    refine ⟨rfl, fun k hk => ?_⟩
    match k, hk with
    | 1, _ => rfl
    | k + 2, _ => rfl)
  exact ⟨s', answers, h, a1, fun v hv => a2 _ (List.mem_map.2 ⟨v, List.mem_range.2 hv, rfl⟩)⟩

/-- The hypotheses of `C119_classifier` hold: 6 and 1000 are beyond all cut points, so they have the same probabilities. -/
example : ∃ s' p, fitClassifier estLib (estArgs (some true) true) [3, 3, 5, 5, 8, 8] (estWorld _ true true .none 0) = (.ok (), s') ∧
    s'.self.predictProba estLib (1 / 1000) 1 (estCell 6) = .ok p ∧ s'.self.predictProba estLib (1 / 1000) 1 (estCell 1000) = .ok p := by
  have hd := estData_valid (P := List ℝ) (ovr := true) (balanced := true) (cf := .none) (np := 0) (some true) true
  have hlib : LibOK estLib (estArgs (some true) true).nRows := estLib_ok (n := 6) (by norm_num)
  obtain ⟨s', h, hc⟩ := estX_classifier
  obtain ⟨s2, cuts, h2, hc1, hc2, h3⟩ := C119_classifier hlib (estToy_valid _) hd (y := [3, 3, 5, 5, 8, 8]) rfl (fun _ h => by cases h) est_strategy
    (by intro _; norm_num [estWorld, estToy, Num.le, Num.zero]) (fun k _ => by simp [Num.toNat, Num.ofNat])
  obtain ⟨e0, o, he0, h1, hf⟩ := fitClassifier_ok (okW := fun _ => True) (y := [3, 3, 5, 5, 8, 8]) hlib (estToy_valid _) hd rfl (fun _ h => by cases h)
    (by intro _; norm_num [estWorld, estToy, Num.le, Num.zero]) (by rw [sortedUnique_length]; exact est_strategy)
    (fun k _ => by simp [Num.toNat, Num.ofNat]) (fun _ _ => trivial)
  obtain ⟨-, rfl⟩ := Prod.mk.inj (h.symm.trans h2)
  obtain ⟨-, hs⟩ := Prod.mk.inj (h.symm.trans h1)
  have hs : s'.self = o.est := by rw [hs]
  have hu : e0.handleUnknownError = false := by rw [he0]; rfl
  have hA : ∀ v, AcceptedBy estLib s'.self (estCell v) := fun v => hs ▸ est_accepts o hf hu rfl
  obtain ⟨A, A', p, p', l, l', -, -, -, q1, q2, q3, q4, q5, -⟩ := (h3 String (1 / 1000)).1 1 1 0 0 (estCell 6) (estCell 1000) (estCell_good _) (estCell_good _)
    (by norm_num) (by norm_num) (hA 6) (hA 1000) rfl (by
      intro j w c c' hw e e'
      match j with
      | 0 =>
        cases e
        cases e'
        have := congrArg (·[0]?) hc1
        simp only [List.getElem?_map, hw, hc, Option.map_some, Option.some.injEq] at this
        cases w with
        | none => cases this
        | some l =>
          refine .inr ⟨l, 6, 1000, 6, 1000, rfl, rfl, rfl, rfl, rfl, fun t ht => ?_⟩
          obtain ⟨u, w, hu, hw', rfl⟩ := (hc2 0 l hw).2.2 t ht
          have h1 := est_le5 hu
          have h2 := est_le5 hw'
          have h3 : min ((u + w) / 2) estLib.cap ≤ 5 := (min_le_left _ _).trans (by rw [div_le_iff₀ (by norm_num)]; linarith)
          exact ⟨fun h => absurd (h.trans h3) (by norm_num), fun h => absurd (h.trans h3) (by norm_num)⟩
      | 1 =>
        cases e
        cases e'
        exact .inl rfl
      | j + 2 => cases e)
  obtain ⟨x, rfl⟩ := List.length_eq_one_iff.1 q3
  obtain ⟨x', rfl⟩ := List.length_eq_one_iff.1 q4
  simp only [List.getElem?_cons_zero, Option.some.injEq] at q5
  exact ⟨s', [x], h, q1, q5 ▸ q2⟩

end Verif
