import Verif.Proofs.Constant
import Verif.Proofs.Quantile
import Verif.Spec.Beyond

set_option linter.unusedSectionVars false

/-! Cells beyond the training data go the same way in all trees. -/
namespace Verif

open Spec

section
variable {K : Type} [LinearOrder K] [Field K] [IsStrictOrderedRing K]

/-- No threshold is above the largest number, and with few distinct numbers all are below it. -/
theorem thresholds_le {cap : K} {col : List (Option K)} {m : Nat} (hm : 1 ≤ m) {thr : List K} (h : findBinningThresholds cap col m = .ok thr) :
    ∀ t ∈ thr, ∃ x, some x ∈ col ∧ t ≤ x ∧ (nDistinct col ≤ m → t < x) := by
  have hnd : nDistinct col = (npUnique (col.filterMap id)).length := by
    rw [npUnique_length]; rfl
  intro t ht
  by_cases hc : (npUnique (col.filterMap id)).length ≤ m
  · obtain ⟨thr', e1, -, -, -, e2⟩ := findBinningThresholds_spec cap col m hm
    rw [h] at e1; cases e1
    rw [e2 (hnd ▸ hc)] at ht
    obtain ⟨a, ha, rfl⟩ := List.mem_map.1 ht
    obtain ⟨i, hi, rfl⟩ := List.getElem_of_mem ha
    have hi' := hi
    rw [middles_length] at hi'
    have e3 := middles_get (npUnique (col.filterMap id)) i (by omega)
    rw [List.getElem?_eq_getElem hi] at e3
    injection e3 with e3
    have := (middles_mem_lt (npUnique (col.filterMap id)) (npUnique_sorted _) i (by omega)).2
    rw [← e3] at this
    have hlt := lt_of_le_of_lt (min_le_left _ cap) this
    refine ⟨_, ?_, hlt.le, fun _ => hlt⟩
    have hm := (mem_npUnique (col.filterMap id) _).1 (List.getElem_mem (show i + 1 < (npUnique (col.filterMap id)).length by omega))
    simpa using hm
  · unfold findBinningThresholds at h
    simp only [hc, if_false] at h
    rw [bind_eq_ok] at h
    obtain ⟨mids, h1, h⟩ := h
    injection h with h
    subst h
    obtain ⟨a, ha, rfl⟩ := List.mem_map.1 ht
    obtain ⟨k, hk, hp⟩ := mapM_mem_inv h1 ha
    unfold percentileMidpoint at hp
    simp only [bind_eq_ok] at hp
    obtain ⟨u, hu, v, hv, hp⟩ := hp
    injection hp with hp
    have mem : ∀ {i : Nat} {x : K}, rd (sortAsc (col.filterMap id)) i = .ok x → some x ∈ col := by
      intro i x hx
      have := (sortAsc_perm _).mem_iff.1 (List.mem_of_getElem? (rd_ok.1 hx))
      simpa using this
    rcases le_total u v with huv | huv
    · refine ⟨v, mem hv, (min_le_left _ _).trans ?_, fun hn => absurd (hnd ▸ hn) hc⟩
      rw [← hp, div_le_iff₀ (by norm_num)]
      linarith
    · refine ⟨u, mem hu, (min_le_left _ _).trans ?_, fun hn => absurd (hnd ▸ hn) hc⟩
      rw [← hp, div_le_iff₀ (by norm_num)]
      linarith

/-- The thresholds of a column come from numbers of the column. -/
theorem thresholds_fit {V N : Type} [DecidableEq V] {cv : Conv V K} {cfg : EncCfg K} {subset : Option (List Nat)} {enc : List (FitCol V K)} {n : Nat} {D : Dataset N V}
    (hD : GoodInput n D) (hfit : encoderFit cv cfg subset D = .ok enc) {j : Nat} {thr : List K} (hj : enc[j]? = some (.num thr)) :
    ∃ col, findBinningThresholds cfg.cap col cfg.maxBins = .ok thr ∧ ∀ x, some x ∈ col → some x ∈ numbersOf cv.toFloat D n j := by
  have htake : ∀ {cells cells' : List (Option V)} {e : Err} {xs : List (Option K)}, takeSubset subset cells = .ok cells' → toFloats cv.toFloat e cells' = .ok xs →
      ∀ x, some x ∈ xs → some x ∈ cells.map (·.bind cv.toFloat) := by
    intro cells cells' e xs h1 h2 x hx
    rw [toFloats_eq h2] at hx
    obtain ⟨c, hc, he⟩ := List.mem_map.1 hx
    refine List.mem_map.2 ⟨c, ?_, he⟩
    unfold takeSubset at h1
    cases subset with
    | none => injection h1 with h1; rw [h1]; exact hc
    | some idx =>
      obtain ⟨i, -, hi⟩ := mapM_mem_inv h1 hc
      exact List.mem_of_getElem? (rd_ok.1 hi)
  obtain ⟨hj', he⟩ := List.getElem?_eq_some_iff.1 hj
  cases D with
  | frame X =>
    have h' : ((List.range (X.map Prod.snd).length).zip (X.map Prod.snd)).mapM
        (fun p => fitSeries cv cfg subset p.1 p.2) = .ok enc := by
      simp only [encoderFit, fitDataFrame] at hfit
      split at hfit
      · split at hfit
        · cases hfit
        · exact hfit
      · exact hfit
    obtain ⟨hl, hf⟩ := fit_mapM h'
    have hjX : j < X.length := by rw [hl] at hj'; simpa using hj'
    have hF := hf j (by simpa using hjX)
    rw [he, List.getElem_map] at hF
    obtain ⟨e1, -⟩ := numbersOf_cells (num := cv.toFloat) (D := .frame X) (j := j) (hD.2 _ (List.getElem_mem hjX)).1
      (fun i => by simp [cell, List.getElem?_eq_getElem hjX])
    rw [e1]
    unfold fitSeries at hF
    simp only [bind_eq_ok] at hF
    obtain ⟨d, -, t, -, hF⟩ := hF
    cases t with
    | isCategory => simp at hF
    | toCategory => simp at hF
    | numerical =>
      simp only [bind_eq_ok] at hF
      obtain ⟨cells, hc, xs, hxs, thr', ht, hF⟩ := hF
      simp at hF
      exact ⟨xs, by rw [ht, hF], htake hc hxs⟩
  | array kind X =>
    have h' : ((List.range X.length).zip X).mapM
        (fun p => fitArrayCol cv cfg subset kind p.1 p.2) = .ok enc := by
      simp only [encoderFit, fitArray] at hfit
      split at hfit
      · split at hfit
        · cases hfit
        · exact hfit
      · exact hfit
    obtain ⟨hl, hf⟩ := fit_mapM h'
    have hjX : j < X.length := by rw [hl] at hj'; simpa using hj'
    have hF := hf j hjX
    rw [he] at hF
    obtain ⟨e1, -⟩ := numbersOf_cells (num := cv.toFloat) (D := (.array kind X : Dataset N V)) (j := j) (hD.1 _ (List.getElem_mem hjX))
      (fun i => by simp [cell, List.getElem?_eq_getElem hjX])
    rw [e1]
    unfold fitArrayCol at hF
    simp only [bind_eq_ok] at hF
    obtain ⟨d, -, t, -, hF⟩ := hF
    cases t with
    | true => simp at hF
    | false =>
      simp only [Bool.false_eq_true, if_false, bind_eq_ok] at hF
      obtain ⟨cells, hc, xs, hxs, thr', ht, hF⟩ := hF
      simp at hF
      exact ⟨xs, by rw [ht, hF], htake hc hxs⟩

theorem binOf_mono {thr : List K} (hs : thr.Pairwise (· ≤ ·)) {x y : K} (h : x ≤ y) : binOf thr x ≤ binOf thr y :=
  isBin_mono thr hs h (binOf_spec thr hs x 0).2 (binOf_spec thr hs y 0).2

theorem binOf_le {thr : List K} (hs : thr.Pairwise (· ≤ ·)) (x : K) : binOf thr x ≤ thr.length := (binOf_spec thr hs x 0).2.1

theorem binOf_last {thr : List K} (hs : thr.Pairwise (· ≤ ·)) {x : K} (h : ∀ t ∈ thr, t < x) : binOf thr x = thr.length := by
  obtain ⟨h1, h2, -⟩ := (binOf_spec thr hs x 0).2
  by_contra hne
  have hlt : binOf thr x < thr.length := by omega
  exact absurd (h2 _ (List.getElem?_eq_getElem hlt)) (not_le.2 (h _ (List.getElem_mem hlt)))

end

section
variable {F Y P G : Type} [Num F] {T : Task F Y P G} {c : Ctx F} {D : Data F} {lab : F → Prop} {okP : P → Prop} {train valid : List Nat}
  {arr : TreeArr F P} {w : Work G} {t : GTree F Y P}

/-- The test of a node on a numerical feature: training rows on both sides of the threshold. -/
theorem Facts.test (h : Facts T c D lab okP train valid arr w t) {k f : Nat} {n : Node F} (hn : NodeAt arr k n) (hl : n.isLeaf = false)
    (hf : n.feature = some f) : c.isCategorical[f]? = some n.isCat ∧ (n.isCat = false → ∃ thr, n.binThr = some thr ∧
      (∃ r < D.n, D.X r f ≤ thr) ∧ ∃ r < D.n, thr < D.X r f) := by
  obtain ⟨u, hb⟩ := h.ofNode hn
  rcases hb.shape with ⟨_, _, h0, _⟩ | ⟨a, l, r, rfl, -⟩
  · rw [hl] at h0; cases h0
  · have hok := hb.ok
    obtain ⟨hN, hfound, -⟩ := hok
    obtain ⟨e1, e2, e3, -, -⟩ := testLeft_iff hb.holds hN hfound 0
    simp only [GTree.root] at e1 e2 e3
    rw [hf] at e1; cases e1
    obtain ⟨-, feats, -, -, hs⟩ := hN.split hfound
    refine ⟨by rw [e2]; exact hs.isCat, fun hc => ⟨_, e3, ?_, ?_⟩⟩
    · have := hs.pos.1
      rw [hs.nTrainL] at this
      obtain ⟨i, hi⟩ := List.exists_mem_of_length_pos this
      rw [List.mem_filter] at hi
      refine ⟨i, (hN.okTrain i hi.1).1, ?_⟩
      have := hi.2
      rw [goesLeft, if_neg (by rw [← e2, hc]; simp)] at this
      simpa using this
    · have := hs.pos.2
      rw [hs.nTrainR] at this
      obtain ⟨i, hi⟩ := List.exists_mem_of_length_pos this
      rw [List.mem_filter] at hi
      refine ⟨i, (hN.okTrain i hi.1).1, ?_⟩
      have := hi.2
      rw [goesLeft, if_neg (by rw [← e2, hc]; simp)] at this
      simpa using this

end

section
variable {L V K F P G W N : Type} [LinearOrder L] [DecidableEq V] [DecidableEq N] [LinearOrder K] [Field K] [IsStrictOrderedRing K] [FloorSemiring K] [Num F]
variable {lib : Lib V K F G W} {b1 b2 : FBA}

/-- The bins of two cells on the same side of the training data: equal, or both at most, or both at least all bins of the training data. -/
theorem sameSide_bins {N : Type} {cv : Conv V K} {cfg : EncCfg K} {subset : Option (List Nat)} {enc : List (FitCol V K)} {m j : Nat} {D : Dataset N V}
    (hm : 1 ≤ cfg.maxBins) (hD : GoodInput m D) (hfit : encoderFit cv cfg subset D = .ok enc) (hok : ∀ fc ∈ enc, fc.OK) {thr : List K} (hj : enc[j]? = some (.num thr))
    {num' : V → Option K} {c c' : Option V} {v v' : Nat} (hv : cellBin num' (.num thr) c = some v) (hv' : cellBin num' (.num thr) c' = some v')
    (h : SameSide cfg.maxBins num' cv.toFloat D m j c c') :
    v = v' ∨ ((∀ r < m, ∀ q u, cell D r j = some q → cellBin cv.toFloat (.num thr) q = some u → v ≤ u ∧ v' ≤ u) ∨
      ∀ r < m, ∀ q u, cell D r j = some q → cellBin cv.toFloat (.num thr) q = some u → u ≤ v ∧ u ≤ v') := by
  have hs : thr.Pairwise (· ≤ ·) := hok _ (List.mem_of_getElem? hj)
  have val : ∀ {p : V} {u : Nat}, cellBin num' (.num thr) (some p) = some u → ∃ x, num' p = some x ∧ u = binOf thr x := by
    intro p u hu
    simp only [cellBin, Option.map_eq_some_iff] at hu
    obtain ⟨x, h1, h2⟩ := hu
    exact ⟨x, h1, h2.symm⟩
  have valD : ∀ {p : V} {u : Nat}, cellBin cv.toFloat (.num thr) (some p) = some u → ∃ x, cv.toFloat p = some x ∧ u = binOf thr x := by
    intro p u hu
    simp only [cellBin, Option.map_eq_some_iff] at hu
    obtain ⟨x, h1, h2⟩ := hu
    exact ⟨x, h1, h2.symm⟩
  obtain ⟨col, hcol, hsub⟩ := thresholds_fit hD hfit hj
  have hmem : ∀ x, some x ∈ col → ∃ r < m, ∃ p, cell D r j = some (some p) ∧ cv.toFloat p = some x := by
    intro x hx
    have := hsub x hx
    unfold numbersOf at this
    obtain ⟨r, hr, he⟩ := List.mem_map.1 this
    rw [Option.bind_eq_some_iff] at he
    obtain ⟨p, h1, h2⟩ := he
    rw [Option.join_eq_some_iff] at h1
    exact ⟨r, List.mem_range.1 hr, p, h1, h2⟩
  rcases h with ⟨p, p', rfl, rfl, h1, h2⟩ | ⟨hno, h1, h2⟩ | ⟨p, p', rfl, rfl, h⟩
  · right; left
    obtain ⟨x, hx, rfl⟩ := val hv
    obtain ⟨x', hx', rfl⟩ := val hv'
    intro r hr q u hq hu
    cases q with
    | none =>
      cases hu
      exact ⟨(binOf_le hs x).trans (Nat.le_succ _), (binOf_le hs x').trans (Nat.le_succ _)⟩
    | some q =>
      obtain ⟨y, hy, rfl⟩ := valD hu
      exact ⟨binOf_mono hs (h1 x hx r hr q y hq hy), binOf_mono hs (h2 x' hx' r hr q y hq hy)⟩
  · right; right
    intro r hr q u hq hu
    cases q with
    | none => exact absurd ⟨r, hr, hq⟩ hno
    | some q =>
      obtain ⟨y, hy, rfl⟩ := valD hu
      constructor
      · cases c with
        | none => cases hv; exact (binOf_le hs y).trans (Nat.le_succ _)
        | some p =>
          obtain ⟨x, hx, rfl⟩ := val hv
          exact binOf_mono hs (h1 p rfl x hx r hr q y hq hy)
      · cases c' with
        | none => cases hv'; exact (binOf_le hs y).trans (Nat.le_succ _)
        | some p =>
          obtain ⟨x, hx, rfl⟩ := val hv'
          exact binOf_mono hs (h2 p rfl x hx r hr q y hq hy)
  · left
    obtain ⟨x, hx, rfl⟩ := val hv
    obtain ⟨x', hx', rfl⟩ := val hv'
    rcases h with ⟨hd, h1, h2⟩ | ⟨h1, h2⟩
    · have hd' : nDistinct col ≤ cfg.maxBins := by
        refine le_trans (Finset.card_le_card fun y hy => ?_) hd
        simp only [List.mem_toFinset, List.mem_filterMap, id] at hy ⊢
        obtain ⟨y', hy1, hy2⟩ := hy
        subst hy2
        exact ⟨_, hsub y hy1, rfl⟩
      rw [binOf_last hs, binOf_last hs]
      · intro t ht
        obtain ⟨y, hy, -, hlt⟩ := thresholds_le hm hcol t ht
        obtain ⟨r, hr, q, hq, hy⟩ := hmem y hy
        exact lt_of_lt_of_le (hlt hd') (h2 x' hx' r hr q y hq hy)
      · intro t ht
        obtain ⟨y, hy, -, hlt⟩ := thresholds_le hm hcol t ht
        obtain ⟨r, hr, q, hq, hy⟩ := hmem y hy
        exact lt_of_lt_of_le (hlt hd') (h1 x hx r hr q y hq hy)
    · rw [binOf_last hs, binOf_last hs]
      · intro t ht
        obtain ⟨y, hy, hle, -⟩ := thresholds_le hm hcol t ht
        obtain ⟨r, hr, q, hq, hy⟩ := hmem y hy
        exact lt_of_le_of_lt hle (h2 x' hx' r hr q y hq hy)
      · intro t ht
        obtain ⟨y, hy, hle, -⟩ := thresholds_le hm hcol t ht
        obtain ⟨r, hr, q, hq, hy⟩ := hmem y hy
        exact lt_of_le_of_lt hle (h1 x hx r hr q y hq hy)

theorem FitFacts.same_beyond {Y : Type} {a : FitArgs N V} {p : FitData F Y P G} {lab : F → Prop} {okW : List F → Prop} {e : Est L V K F P G} {np : W}
    (hlib : LibOK lib a.nRows) (hn : a.nRows < 2 ^ 63) (hpos : 0 < a.nRows) (hgood : GoodInput a.nRows a.X) (hT : ValidTask (p.task e.dirichlet) lab)
    (o : Outcome lib a p e np) (h : FitFacts lib a p lab okW e o.est) (hconv : numOf lib.conv a.X = lib.conv.toFloat) :
    ∀ (N' : Type) [DecidableEq N'] (n : Nat) (X1 X2 : Dataset N' V), 0 < n → GoodInput n X1 → GoodInput n X2 → AcceptedBy lib o.est X1 → AcceptedBy lib o.est X2 →
      numOf lib.conv X1 = numOf lib.conv X2 →
      SameOrBeyond e.maxBins o.est.isCategorical_ (numOf lib.conv X1) lib.conv.toFloat a.nRows a.X n X1 X2 →
      ∃ b1 b2, o.est.encode lib n X1 = .ok b1 ∧ o.est.encode lib n X2 = .ok b2 ∧ SameForest o.est.trees b1 b2 := by
  obtain ⟨cfg, enc, he, hF, hm, h63, hlen, hcat, -⟩ := h.encoder
  have he' := he
  simp only [Outcome.est, Option.some.injEq, Prod.mk.injEq] at he'
  obtain ⟨hcfg, henc⟩ := he'
  have hfit := o.henc
  rw [hcfg, henc] at hfit
  have hmb : cfg.maxBins = e.maxBins := by rw [← hcfg]; rfl
  obtain ⟨_, hok, _⟩ := encoderFit_ok hm hF
  obtain ⟨train, htr, hrows, hcols, hall⟩ := h.tree hlib hn o
  have htr' : encoderTransform lib.conv cfg enc lib.words a.nRows a.X = .ok train := by simp only [Est.encode, he] at htr; exact htr
  obtain ⟨-, q2, q3, -, q5, q6, q7⟩ := encoderTransform_ok hok h63 hpos hgood htr'
  intro N' _ n X1 X2 hn0 hX1 hX2 hA1 hA2 hnum hsame
  have hacc : ∀ X : Dataset N' V, AcceptedBy lib o.est X → ∀ cfg enc, o.est.encoder = some (cfg, enc) → Acceptable lib.conv cfg enc X := by
    rintro X ⟨cfg', enc', h1, h2⟩ cfg enc h3
    rw [h1] at h3; cases h3
    exact h2
  obtain ⟨b1, e1, -⟩ := h.encode hn0 hX1 (hacc X1 hA1)
  obtain ⟨b2, e2, -⟩ := h.encode hn0 hX2 (hacc X2 hA2)
  refine ⟨b1, b2, e1, e2, ?_⟩
  simp only [Est.encode, he] at e1 e2
  obtain ⟨s1, -, -, -, -, s6, s7⟩ := encoderTransform_ok hok h63 hn0 hX1 e1
  obtain ⟨t1, -, -, -, -, t6, t7⟩ := encoderTransform_ok hok h63 hn0 hX2 e2
  refine ⟨s1.trans t1.symm, fun ob hob => ?_⟩
  obtain ⟨t, ht⟩ := List.mem_iff_getElem?.1 hob
  obtain ⟨c, gb, seed, y, w, draws, b, lim, -, -, -, -, -, -, -, hin, hft, hset, -, -⟩ := hall t ob ht
  obtain ⟨okP, g, hfa⟩ := fit_facts hT hin hft
  refine ⟨C21_well_formed hT hin hft, fun i hi k nd hk hl => ?_⟩
  unfold childOf
  cases hfe : nd.feature with
  | none => rfl
  | some f =>
    simp only [idx, bind_ok]
    obtain ⟨hc1, hc2⟩ := hfa.test hk hl hfe
    rw [hset.isCategorical] at hc1
    have hin : f < enc.length := by
      rw [hcat, List.getElem?_map, Option.map_eq_some_iff] at hc1
      obtain ⟨fc, h1, -⟩ := hc1
      exact (List.getElem?_eq_some_iff.1 h1).1
    rcases hsame i (by omega) f with hcell | ⟨c1, c2, hcell1, hcell2, hnc, hside⟩
    · obtain ⟨c, hc⟩ := s6 i f hin (by omega)
      obtain ⟨-, fc, v, g1, g2, g3, -⟩ := s7 i f c hc
      obtain ⟨-, fc', v', g1', g2', g3', -⟩ := t7 i f c (hcell ▸ hc)
      rw [g1] at g1'; cases g1'
      rw [hnum, g2'] at g2; cases g2
      rw [g3, g3']
    · obtain ⟨-, fc, v, g1, g2, g3, -⟩ := s7 i f c1 hcell1
      obtain ⟨-, fc', v', g1', g2', g3', -⟩ := t7 i f c2 hcell2
      rw [g1] at g1'; cases g1'
      rw [← hnum] at g2'
      rw [hnc] at hc1
      injection hc1 with hc1
      rw [g3, g3']
      cases fc with
      | cat cs =>
        rw [hcat, List.getElem?_map, g1] at hnc
        simp [FitCol.isCat] at hnc
      | num thr =>
        rw [← hmb] at hside
        rcases sameSide_bins hm hgood hfit hok g1 g2 g2' hside with rfl | hor
        · rfl
        · obtain ⟨bt, hbt, ⟨r, hr, hr1⟩, r', hr', hr1'⟩ := hc2 hc1.symm
          have hr : r < a.nRows := hrows ▸ hr
          have hr' : r' < a.nRows := hrows ▸ hr'
          have hrow : ∀ r < a.nRows, ∃ q u, cell a.X r f = some q ∧ cellBin lib.conv.toFloat (.num thr) q = some u ∧
              (match train.getValue r f with | .ok v => v | .error _ => 0) = u := by
            intro r hr
            obtain ⟨q, hq⟩ := q6 r f hin hr
            obtain ⟨-, fc, u, k1, k2, k3, -⟩ := q7 r f q hq
            rw [g1] at k1; cases k1
            rw [hconv] at k2
            exact ⟨q, u, hq, k2, by rw [k3]⟩
          obtain ⟨q, u, k1, k2, k3⟩ := hrow r hr
          obtain ⟨q', u', k1', k2', k3'⟩ := hrow r' hr'
          have hd : decide (v ≤ bt) = decide (v' ≤ bt) := by
            have hr1 : u ≤ bt := k3 ▸ hr1
            have hr1' : bt < u' := k3' ▸ hr1'
            rcases hor with hlow | hhigh
            · obtain ⟨z1, z2⟩ := hlow r hr q u k1 k2
              rw [decide_eq_true (z1.trans hr1), decide_eq_true (z2.trans hr1)]
            · obtain ⟨z1, z2⟩ := hhigh r' hr' q' u' k1' k2'
              rw [decide_eq_false (by omega), decide_eq_false (by omega)]
          simp only [bind_ok, ← hc1, Bool.false_eq_true, if_false, hbt, hd]

end

end Verif
