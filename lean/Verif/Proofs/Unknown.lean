import Verif.Proofs.Beyond
import Verif.Spec.Unknown

set_option linter.unusedSectionVars false

/-! Cells that are not in the training data go the same way in all trees. -/
namespace Verif

open Spec

section
variable {V K N : Type} [DecidableEq V] [LinearOrder K] [Field K] [IsStrictOrderedRing K]

theorem mem_cells {cells : List (Option V)} {D : Dataset N V} {n j : Nat} {c : Option V} (hl : cells.length = n) (hc : ∀ i, cell D i j = cells[i]?) :
    c ∈ cells ↔ ∃ r < n, cell D r j = some c := by
  rw [List.mem_iff_getElem?]
  constructor
  · rintro ⟨i, hi⟩
    exact ⟨i, hl ▸ (List.getElem?_eq_some_iff.1 hi).1, (hc i).trans hi⟩
  · rintro ⟨r, -, hr⟩
    exact ⟨r, (hc r).symm.trans hr⟩

/-- The fitted categories of a column are the values that occur in it and those that its dtype lists. -/
theorem cats_fit {cv : Conv V K} {cfg : EncCfg K} {subset : Option (List Nat)} {enc : List (FitCol V K)} {n : Nat} {D : Dataset N V}
    (hD : GoodInput n D) (hfit : encoderFit cv cfg subset D = .ok enc) {j : Nat} {cs : List V} (hj : enc[j]? = some (.cat cs)) (v : V) :
    v ∈ cs ↔ Occurs D n j v ∨ DtypeLists D j v := by
  obtain ⟨hj', he⟩ := List.getElem?_eq_some_iff.1 hj
  cases D with
  | frame X =>
    have h' : ((List.range (X.map Prod.snd).length).zip (X.map Prod.snd)).mapM
        (fun p => fitSeries cv cfg subset p.1 p.2) = .ok enc := by
      simp only [encoderFit, fitDataFrame] at hfit
      split at hfit
      · split at hfit
        · cases hfit
        · exact hfit
      · exact hfit
    obtain ⟨hl, hf⟩ := fit_mapM h'
    have hjX : j < X.length := by rw [hl] at hj'; simpa using hj'
    have hF := hf j (by simpa using hjX)
    rw [he, List.getElem_map] at hF
    have hgood := hD.2 _ (List.getElem_mem hjX)
    have hocc := mem_cells (D := .frame X) (j := j) (c := some v) hgood.1 (fun i => by simp [cell, List.getElem?_eq_getElem hjX])
    have hdt : DtypeLists (.frame X) j v ↔ X[j].2.kind = .category ∧ v ∈ X[j].2.dtypeCats := by
      simp [DtypeLists, List.getElem?_eq_getElem hjX]
    unfold Occurs
    rw [← hocc, hdt]
    unfold fitSeries at hF
    simp only [bind_eq_ok] at hF
    obtain ⟨d, -, t, ht, hF⟩ := hF
    unfold isSeriesCategorical at ht
    cases t with
    | isCategory =>
      simp at hF
      subst hF
      have hk : X[j].2.kind = .category := by
        cases hk : X[j].2.kind with
        | category => rfl
        | bOSU => simp only [hk] at ht; rcases d with _ | _ | _ <;> simp at ht
        | uif =>
          simp only [hk] at ht
          rcases d with _ | _ | _ <;> simp at ht
          split at ht <;> simp at ht
        | other => simp [hk] at ht
      exact ⟨fun h => .inr ⟨hk, h⟩, fun h => h.elim ((hgood.2 hk).2 v) (·.2)⟩
    | toCategory =>
      simp at hF
      subst hF
      have hk : X[j].2.kind ≠ .category := by
        intro hk
        simp only [hk] at ht
        cases d <;> simp at ht
        split at ht <;> simp at ht
      rw [cv.mem_catsOf]
      exact ⟨.inl, fun h => h.elim id fun h => absurd h.1 hk⟩
    | numerical =>
      simp only [bind_eq_ok] at hF
      obtain ⟨cells, hc, xs, hxs, thr', ht, hF⟩ := hF
      simp at hF
  | array kind X =>
    have h' : ((List.range X.length).zip X).mapM
        (fun p => fitArrayCol cv cfg subset kind p.1 p.2) = .ok enc := by
      simp only [encoderFit, fitArray] at hfit
      split at hfit
      · split at hfit
        · cases hfit
        · exact hfit
      · exact hfit
    obtain ⟨hl, hf⟩ := fit_mapM h'
    have hjX : j < X.length := by rw [hl] at hj'; simpa using hj'
    have hF := hf j hjX
    rw [he] at hF
    have hocc := mem_cells (D := (.array kind X : Dataset N V)) (j := j) (c := some v) (hD.1 _ (List.getElem_mem hjX))
      (fun i => by simp [cell, List.getElem?_eq_getElem hjX])
    unfold Occurs
    rw [← hocc]
    unfold fitArrayCol at hF
    simp only [bind_eq_ok] at hF
    obtain ⟨d, -, t, -, hF⟩ := hF
    cases t with
    | true =>
      simp at hF
      subst hF
      rw [cv.mem_catsOf]
      simp [DtypeLists]
    | false =>
      simp only [Bool.false_eq_true, if_false, bind_eq_ok] at hF
      obtain ⟨cells, hc, xs, hxs, thr', ht, hF⟩ := hF
      simp at hF

/-- A missing or unknown cell has the extra bin. -/
theorem unfamiliar_bin {cv : Conv V K} {cfg : EncCfg K} {subset : Option (List Nat)} {enc : List (FitCol V K)} {n : Nat} {D : Dataset N V}
    (hD : GoodInput n D) (hfit : encoderFit cv cfg subset D = .ok enc) {j : Nat} {cs : List V} (hj : enc[j]? = some (.cat cs)) {num : V → Option K}
    {c : Option V} (h : Unfamiliar D n j c) : cellBin num (.cat cs) c = some cs.length := by
  cases c with
  | none => rfl
  | some v =>
    have : v ∉ cs := fun hv => ((cats_fit hD hfit hj v).1 hv).elim (h v rfl).1 (h v rfl).2
    simp [cellBin, this]

/-- The bin of a cell that is not in the training data is the bin of no training row. -/
theorem unseen_bin {cv : Conv V K} {cfg : EncCfg K} {subset : Option (List Nat)} {enc : List (FitCol V K)} {n : Nat} {D : Dataset N V}
    (hD : GoodInput n D) (hfit : encoderFit cv cfg subset D = .ok enc) {j : Nat} {cs : List V} (hj : enc[j]? = some (.cat cs)) {num num' : V → Option K}
    {c : Option V} (h : Unseen D n j c) {v : Nat} (hv : cellBin num (.cat cs) c = some v) {r : Nat} (hr : r < n) {q : Option V} (hq : cell D r j = some q) :
    cellBin num' (.cat cs) q ≠ some v := by
  intro hqv
  rcases h with ⟨u, rfl, h1, h2⟩ | ⟨h1, h2⟩
  · have hu : u ∈ cs := (cats_fit hD hfit hj u).2 (.inr h1)
    simp only [cellBin, if_pos hu, Option.some.injEq] at hv
    subst hv
    cases q with
    | none =>
      simp only [cellBin, Option.some.injEq] at hqv
      have := List.idxOf_lt_length_of_mem hu
      omega
    | some q =>
      have hqc : q ∈ cs := (cats_fit hD hfit hj q).2 (.inl ⟨r, hr, hq⟩)
      simp only [cellBin, if_pos hqc, Option.some.injEq] at hqv
      have := (List.idxOf_inj hqc).1 hqv
      subst this
      exact h2 ⟨r, hr, hq⟩
  · rw [unfamiliar_bin hD hfit hj h1] at hv
    cases hv
    cases q with
    | none => exact h2 ⟨r, hr, hq⟩
    | some q =>
      have hqc : q ∈ cs := (cats_fit hD hfit hj q).2 (.inl ⟨r, hr, hq⟩)
      simp only [cellBin, if_pos hqc, Option.some.injEq] at hqv
      have := List.idxOf_lt_length_of_mem hqc
      omega

end

section
variable {F Y P G : Type} [Num F] {T : Task F Y P G} {c : Ctx F} {D : Data F} {lab : F → Prop} {okP : P → Prop} {train valid : List Nat}
  {arr : TreeArr F P} {w : Work G} {t : GTree F Y P}

/-- The test of a node on a categorical feature: a sorted set of bins of training rows. -/
theorem Facts.testCat (h : Facts T c D lab okP train valid arr w t) {k f : Nat} {n : Node F} (hn : NodeAt arr k n) (hl : n.isLeaf = false)
    (hf : n.feature = some f) (hc : n.isCat = true) : (slice arr.binParts n.bpS n.bpE).Pairwise (· ≤ ·) ∧
      ∀ b ∈ slice arr.binParts n.bpS n.bpE, ∃ r < D.n, D.X r f = b := by
  obtain ⟨u, hb⟩ := h.ofNode hn
  rcases hb.shape with ⟨_, _, h0, _⟩ | ⟨a, l, r, rfl, -⟩
  · rw [hl] at h0; cases h0
  · have hok := hb.ok
    obtain ⟨hN, hfound, -⟩ := hok
    obtain ⟨e1, e2, -, e4, -⟩ := testLeft_iff hb.holds hN hfound 0
    simp only [GTree.root] at e1 e2 e4
    rw [hf] at e1; cases e1
    obtain ⟨-, feats, -, -, hs⟩ := hN.split hfound
    rw [hc] at e2
    obtain ⟨p1, -, p3⟩ := hs.part e2.symm
    rw [e4 e2.symm]
    refine ⟨p1.imp fun h => h.le, fun b hb => ?_⟩
    obtain ⟨i, hi, hx⟩ := p3 b hb
    exact ⟨i, (hN.okTrain i hi).1, hx⟩

end

section
variable {L V K F P G W N : Type} [LinearOrder L] [DecidableEq V] [DecidableEq N] [LinearOrder K] [Field K] [IsStrictOrderedRing K] [FloorSemiring K] [Num F]
variable {lib : Lib V K F G W} {b1 b2 : FBA}

theorem FitFacts.same_unseen {Y : Type} {a : FitArgs N V} {p : FitData F Y P G} {lab : F → Prop} {okW : List F → Prop} {e : Est L V K F P G} {np : W}
    (hlib : LibOK lib a.nRows) (hn : a.nRows < 2 ^ 63) (hpos : 0 < a.nRows) (hgood : GoodInput a.nRows a.X) (hT : ValidTask (p.task e.dirichlet) lab)
    (o : Outcome lib a p e np) (h : FitFacts lib a p lab okW e o.est) :
    ∀ (N' : Type) [DecidableEq N'] (n : Nat) (X1 X2 : Dataset N' V), 0 < n → GoodInput n X1 → GoodInput n X2 → AcceptedBy lib o.est X1 → AcceptedBy lib o.est X2 →
      numOf lib.conv X1 = numOf lib.conv X2 → SameOrUnseen o.est.isCategorical_ a.nRows a.X n X1 X2 →
      ∃ b1 b2, o.est.encode lib n X1 = .ok b1 ∧ o.est.encode lib n X2 = .ok b2 ∧ SameForest o.est.trees b1 b2 := by
  obtain ⟨cfg, enc, he, hF, hm, h63, hlen, hcat, -⟩ := h.encoder
  have he' := he
  simp only [Outcome.est, Option.some.injEq, Prod.mk.injEq] at he'
  obtain ⟨hcfg, henc⟩ := he'
  have hfit := o.henc
  rw [hcfg, henc] at hfit
  obtain ⟨_, hok, _⟩ := encoderFit_ok hm hF
  obtain ⟨train, htr, hrows, hcols, hall⟩ := h.tree hlib hn o
  have htr' : encoderTransform lib.conv cfg enc lib.words a.nRows a.X = .ok train := by simp only [Est.encode, he] at htr; exact htr
  obtain ⟨-, q2, q3, -, q5, q6, q7⟩ := encoderTransform_ok hok h63 hpos hgood htr'
  intro N' _ n X1 X2 hn0 hX1 hX2 hA1 hA2 hnum hsame
  have hacc : ∀ X : Dataset N' V, AcceptedBy lib o.est X → ∀ cfg enc, o.est.encoder = some (cfg, enc) → Acceptable lib.conv cfg enc X := by
    rintro X ⟨cfg', enc', h1, h2⟩ cfg enc h3
    rw [h1] at h3; cases h3
    exact h2
  obtain ⟨b1, e1, -⟩ := h.encode hn0 hX1 (hacc X1 hA1)
  obtain ⟨b2, e2, -⟩ := h.encode hn0 hX2 (hacc X2 hA2)
  refine ⟨b1, b2, e1, e2, ?_⟩
  simp only [Est.encode, he] at e1 e2
  obtain ⟨s1, -, -, -, -, s6, s7⟩ := encoderTransform_ok hok h63 hn0 hX1 e1
  obtain ⟨t1, -, -, -, -, t6, t7⟩ := encoderTransform_ok hok h63 hn0 hX2 e2
  refine ⟨s1.trans t1.symm, fun ob hob => ?_⟩
  obtain ⟨t, ht⟩ := List.mem_iff_getElem?.1 hob
  obtain ⟨c, gb, seed, y, w, draws, b, lim, -, -, -, -, -, -, -, hin, hft, hset, -, -⟩ := hall t ob ht
  obtain ⟨okP, g, hfa⟩ := fit_facts hT hin hft
  refine ⟨C21_well_formed hT hin hft, fun i hi k nd hk hl => ?_⟩
  unfold childOf
  cases hfe : nd.feature with
  | none => rfl
  | some f =>
    simp only [idx, bind_ok]
    obtain ⟨hc1, -⟩ := hfa.test hk hl hfe
    rw [hset.isCategorical] at hc1
    have hin : f < enc.length := by
      rw [hcat, List.getElem?_map, Option.map_eq_some_iff] at hc1
      obtain ⟨fc, h1, -⟩ := hc1
      exact (List.getElem?_eq_some_iff.1 h1).1
    rcases hsame i (by omega) f with hcell | ⟨c1, c2, hcell1, hcell2, hnc, hside⟩
    · obtain ⟨c, hc⟩ := s6 i f hin (by omega)
      obtain ⟨-, fc, v, g1, g2, g3, -⟩ := s7 i f c hc
      obtain ⟨-, fc', v', g1', g2', g3', -⟩ := t7 i f c (hcell ▸ hc)
      rw [g1] at g1'; cases g1'
      rw [hnum, g2'] at g2; cases g2
      rw [g3, g3']
    · obtain ⟨-, fc, v, g1, g2, g3, -⟩ := s7 i f c1 hcell1
      obtain ⟨-, fc', v', g1', g2', g3', -⟩ := t7 i f c2 hcell2
      rw [g1] at g1'; cases g1'
      rw [hnc] at hc1
      injection hc1 with hc1
      rw [g3, g3']
      cases fc with
      | num thr =>
        rw [hcat, List.getElem?_map, g1] at hnc
        simp [FitCol.isCat] at hnc
      | cat cs =>
        rcases hside with ⟨u1, u2⟩ | ⟨u1, u2⟩
        · rw [unfamiliar_bin hgood hfit g1 u1] at g2; cases g2
          rw [unfamiliar_bin hgood hfit g1 u2] at g2'; cases g2'
          rfl
        · obtain ⟨hsorted, hsub⟩ := hfa.testCat hk hl hfe hc1.symm
          have hrow : ∀ x, (∀ r < a.nRows, ∀ q, cell a.X r f = some q → cellBin (numOf lib.conv a.X) (.cat cs) q ≠ some x) →
              isBinInPartition x (slice ob.arr.binParts nd.bpS nd.bpE) = .ok false := by
            intro x hx
            rw [isBinInPartition_spec _ hsorted, decide_eq_false]
            intro hmem
            obtain ⟨r, hr, hr2⟩ := hsub x hmem
            have hr : r < a.nRows := hrows ▸ hr
            obtain ⟨q, hq⟩ := q6 r f hin hr
            obtain ⟨-, fc, u, k1, k2, k3, -⟩ := q7 r f q hq
            rw [g1] at k1; cases k1
            refine hx r hr q hq (k2.trans (congrArg some ?_))
            have : (match train.getValue r f with | .ok v => v | .error _ => 0) = x := hr2
            rw [k3] at this
            exact this
          simp only [bind_ok, ← hc1, if_true]
          rw [hrow v fun r hr q hq => unseen_bin hgood hfit g1 u1 g2 hr hq, hrow v' fun r hr q hq => unseen_bin hgood hfit g1 u2 g2' hr hq]

end

end Verif
