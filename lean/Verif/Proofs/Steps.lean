import Verif.Proofs.Beyond
import Verif.Proofs.AnyFloat
import Verif.Spec.Steps

/-! # Rows on the same steps reach the same leaves -/
set_option linter.unusedSectionVars false
namespace Verif

open Spec

section
variable {K : Type} [LinearOrder K] [Field K] [IsStrictOrderedRing K]

/-- Every threshold is halfway between two numbers of the column, up to the cap. -/
theorem thresholds_half {cap : K} {col : List (Option K)} {m : Nat} (hm : 1 ≤ m) {thr : List K} (h : findBinningThresholds cap col m = .ok thr) :
    ∀ t ∈ thr, ∃ u w, some u ∈ col ∧ some w ∈ col ∧ t = min ((u + w) / 2) cap := by
  intro t ht
  by_cases hc : (npUnique (col.filterMap id)).length ≤ m
  · obtain ⟨thr', e1, -, -, -, e2⟩ := findBinningThresholds_spec cap col m hm
    rw [h] at e1; cases e1
    have hnd : nDistinct col = (npUnique (col.filterMap id)).length := by
      rw [npUnique_length]; rfl
    rw [e2 (hnd ▸ hc)] at ht
    obtain ⟨a, ha, rfl⟩ := List.mem_map.1 ht
    obtain ⟨i, hi, rfl⟩ := List.getElem_of_mem ha
    have hi' := hi
    rw [middles_length] at hi'
    have e3 := middles_get (npUnique (col.filterMap id)) i (by omega)
    rw [List.getElem?_eq_getElem hi] at e3
    injection e3 with e3
    have h1 := (mem_npUnique (col.filterMap id) _).1 (List.getElem_mem (show i < (npUnique (col.filterMap id)).length by omega))
    have h2 := (mem_npUnique (col.filterMap id) _).1 (List.getElem_mem (show i + 1 < (npUnique (col.filterMap id)).length by omega))
    simp only [List.mem_filterMap, id, exists_eq_right] at h1 h2
    exact ⟨_, _, h1, h2, by rw [e3]; rfl⟩
  · unfold findBinningThresholds at h
    simp only [hc, if_false] at h
    rw [bind_eq_ok] at h
    obtain ⟨mids, h1, h⟩ := h
    injection h with h
    subst h
    obtain ⟨a, ha, rfl⟩ := List.mem_map.1 ht
    obtain ⟨k, hk, hp⟩ := mapM_mem_inv h1 ha
    unfold percentileMidpoint at hp
    simp only [bind_eq_ok] at hp
    obtain ⟨u, hu, v, hv, hp⟩ := hp
    injection hp with hp
    have mem : ∀ {i : Nat} {x : K}, rd (sortAsc (col.filterMap id)) i = .ok x → some x ∈ col := by
      intro i x hx
      have := (sortAsc_perm _).mem_iff.1 (List.mem_of_getElem? (rd_ok.1 hx))
      simpa using this
    exact ⟨u, v, mem hu, mem hv, by rw [hp]⟩

/-- Numbers that no threshold separates have the same bin. -/
theorem binOf_notSeparated {thr : List K} (hs : thr.Pairwise (· ≤ ·)) {x x' : K} (h : NotSeparated thr x x') : binOf thr x = binOf thr x' := by
  have key : ∀ x x' : K, NotSeparated thr x x' → binOf thr x ≤ binOf thr x' := by
    intro x x' h
    obtain ⟨h1, h2, h3⟩ := (binOf_spec thr hs x 0).2
    obtain ⟨g1, g2, g3⟩ := (binOf_spec thr hs x' 0).2
    by_contra hlt
    push Not at hlt
    have hlt' : binOf thr x' < thr.length := by omega
    have e := List.getElem?_eq_getElem hlt'
    have := (h _ (List.getElem_mem hlt')).2 (g2 _ e)
    have e' := List.getElem?_eq_getElem (show binOf thr x - 1 < thr.length by omega)
    have h4 := h3 _ _ (by omega) e'
    refine absurd this (not_le.2 (lt_of_le_of_lt ?_ h4))
    rcases Nat.lt_or_ge (binOf thr x') (binOf thr x - 1) with hl | hl
    · exact List.pairwise_iff_getElem.1 hs _ _ _ _ hl
    · have : binOf thr x' = binOf thr x - 1 := by omega
      simp only [this, le_refl]
  exact le_antisymm (key _ _ h) (key _ _ fun t ht => (h t ht).symm)

end

section
variable {L V K F P G W N N' : Type} [LinearOrder L] [DecidableEq V] [DecidableEq N] [DecidableEq N'] [LinearOrder K] [Field K] [IsStrictOrderedRing K] [FloorSemiring K]
  [Num F]

theorem findLeafFrom_bins {t : TreeArr F P} {b b' : FBA} {i i' : Nat} (h : ∀ f, b.getValue i f = b'.getValue i' f) :
    ∀ fuel k, findLeafFrom t b i fuel k = findLeafFrom t b' i' fuel k := by
  have hc : ∀ nd, childOf t b i nd = childOf t b' i' nd := fun nd => by
    unfold childOf
    congr 1
    funext f
    rw [h f]
  intro fuel
  induction fuel with
  | zero => intro k; rfl
  | succ fuel ih =>
    intro k
    unfold findLeafFrom
    simp only [hc, ih]

theorem findLeaf_bins {t : TreeArr F P} {b b' : FBA} {i i' : Nat} (h : ∀ f, b.getValue i f = b'.getValue i' f) : findLeaf t b i = findLeaf t b' i' :=
  findLeafFrom_bins h _ _

/-- The cut points stored for a column. -/
def cutsOfCol : FitCol V K → Option (List K)
  | .cat _ => none
  | .num thr => some thr

theorem sameStep_bin {num : V → Option K} {fc : FitCol V K} (hok : fc.OK) {c c' : Option V} (h : SameStep num (cutsOfCol fc) c c') :
    cellBin num fc c = cellBin num fc c' := by
  rcases h with rfl | ⟨l, v, v', x, x', h1, rfl, rfl, h2, h3, h4⟩
  · rfl
  · cases fc with
    | cat cs => cases h1
    | num thr =>
      cases h1
      simp only [cellBin, h2, h3, Option.map_some, binOf_notSeparated hok h4]

theorem getValue_beyond {b : FBA} {n i f : Nat} {ms : List Nat} (h : Layout n ms b) (hf : ms.length ≤ f) : b.getValue i f = .error .oob := by
  unfold FBA.getValue
  have : rd b.nValuesInWords f = .error .oob := by
    unfold rd
    rw [h.nvals, List.getElem?_eq_none (by simpa using hf)]
  rw [this]
  rfl

/-- Rows with the same bins in all columns. -/
theorem sameBins_values {cv : Conv V K} {cfg : EncCfg K} {enc : List (FitCol V K)} {g : Nat → Word} {n n' i i' : Nat} {X X' : Dataset N V} {b b' : FBA}
    (hok : ∀ fc ∈ enc, fc.OK) (h63 : ∀ fc ∈ enc, fc.nBins < 2 ^ 63) (hn : 0 < n) (hn' : 0 < n') (hX : GoodInput n X) (hX' : GoodInput n' X')
    (e : encoderTransform cv cfg enc g n X = .ok b) (e' : encoderTransform cv cfg enc g n' X' = .ok b') (hi : i < n) (hi' : i' < n')
    (h : ∀ f fc c c', enc[f]? = some fc → cell X i f = some c → cell X' i' f = some c' → cellBin (numOf cv X) fc c = cellBin (numOf cv X') fc c') :
    ∀ f, b.getValue i f = b'.getValue i' f := by
  obtain ⟨-, s2, s3, -, -, s6, s7⟩ := encoderTransform_ok hok h63 hn hX e
  obtain ⟨-, t2, t3, -, -, t6, t7⟩ := encoderTransform_ok hok h63 hn' hX' e'
  intro f
  by_cases hf : f < enc.length
  · obtain ⟨c, hc⟩ := s6 i f hf hi
    obtain ⟨c', hc'⟩ := t6 i' f hf hi'
    obtain ⟨-, fc, v, g1, g2, g3, -⟩ := s7 i f c hc
    obtain ⟨-, fc', v', g1', g2', g3', -⟩ := t7 i' f c' hc'
    rw [g1] at g1'; cases g1'
    rw [← h f fc c c' g1 hc hc', g2] at g2'
    cases g2'
    rw [g3, g3']
  · rw [getValue_beyond s3 (by omega), getValue_beyond t3 (by omega)]

/-- Rows with the same leaves in the result of `apply`. -/
theorem sameLeaves_of {lib : Lib V K F G W} {e : Est L V K F P G} {n n' i i' : Nat} {X : Dataset N V} {X' : Dataset N' V} {b b' : FBA} {A A' : List (List Nat)}
    (hb : e.encode lib n X = .ok b) (hb' : e.encode lib n' X' = .ok b') (hi : i < b.nSamples) (hi' : i' < b'.nSamples)
    (h : ∀ f, b.getValue i f = b'.getValue i' f) (hA : e.apply lib n X = .ok A) (hA' : e.apply lib n' X' = .ok A') : SameLeaves A A' i i' := by
  unfold Est.apply at hA hA'
  rw [hb, bind_ok] at hA
  rw [hb', bind_ok] at hA'
  intro t l l' hl hl'
  obtain ⟨ht, rfl⟩ := List.getElem?_eq_some_iff.1 hl
  obtain ⟨ht', rfl⟩ := List.getElem?_eq_some_iff.1 hl'
  have g := mapM_eq_ok.1 hA
  have g' := mapM_eq_ok.1 hA'
  have ht0 : t < e.trees.length := by rw [g.length_eq]; exact ht
  have k := g.get (i := t) ht0 ht
  have k' := g'.get (i := t) ht0 ht'
  simp only [List.get_eq_getElem] at k k'
  have q := List.getElem?_eq_getElem (show i < (A[t]).length by rw [range_mapM_len k]; exact hi)
  have q' := List.getElem?_eq_getElem (show i' < (A'[t]).length by rw [range_mapM_len k']; exact hi')
  have u := range_mapM_get k q
  have u' := range_mapM_get k' q'
  rw [findLeaf_bins h, u'] at u
  injection u with u
  exact ⟨_, q, by rw [q', u]⟩

/-- Few bins, few values. -/
theorem few_values {α β : Type} {Xs : List α} {f : α → β} {bin : α → Nat} {m : Nat} (hb : ∀ x ∈ Xs, bin x < m)
    (h : ∀ x ∈ Xs, ∀ x' ∈ Xs, bin x = bin x' → f x = f x') : ∃ l : List β, l.length ≤ m ∧ ∀ x ∈ Xs, f x ∈ l := by
  refine ⟨(List.range m).filterMap fun v => (Xs.find? fun x => decide (bin x = v)).map f, ?_, fun x hx => ?_⟩
  · exact (List.length_filterMap_le _ _).trans (by simp)
  · rw [List.mem_filterMap]
    refine ⟨bin x, List.mem_range.2 (hb x hx), ?_⟩
    cases hf : Xs.find? fun y => decide (bin y = bin x) with
    | none =>
      rw [List.find?_eq_none] at hf
      exact absurd (by simp) (hf x hx)
    | some y =>
      have h1 := List.find?_some hf
      have h2 := List.mem_of_find?_eq_some hf
      simp only [decide_eq_true_eq] at h1
      rw [Option.map_some, h y h2 x hx h1]

/-- The cut points of a fitted forest, and the leaves of rows. -/
theorem FitFacts.steps {Y : Type} {lib : Lib V K F G W} {a : FitArgs N V} {p : FitData F Y P G} {lab : F → Prop} {okW : List F → Prop} {e : Est L V K F P G} {np : W}
    (hgood : GoodInput a.nRows a.X) (o : Outcome lib a p e np) (h : FitFacts lib a p lab okW e o.est) :
    ∃ cuts : List (Option (List K)), cuts.map Option.isNone = o.est.isCategorical_ ∧ CutsOf e.maxBins lib.cap lib.conv.toFloat a.X a.nRows cuts ∧
      ∀ (N' : Type) [DecidableEq N'] (n n' i i' : Nat) (X X' : Dataset N' V) (A A' : List (List Nat)), GoodInput n X → GoodInput n' X' → i < n → i' < n' →
        AcceptedBy lib o.est X → AcceptedBy lib o.est X' → numOf lib.conv X = numOf lib.conv X' → o.est.apply lib n X = .ok A → o.est.apply lib n' X' = .ok A' →
        (SameSteps (numOf lib.conv X) cuts X X' i i' → SameLeaves A A' i i') ∧
        ∀ (j : Nat) (l : List K), cuts[j]? = some (some l) → (∀ k, k ≠ j → cell X i k = cell X' i' k) →
          (cellBin (numOf lib.conv X) (.num l : FitCol V K) ((cell X i j).getD none)).getD 0 =
            (cellBin (numOf lib.conv X') (.num l : FitCol V K) ((cell X' i' j).getD none)).getD 0 →
          SameLeaves A A' i i' := by
  obtain ⟨cfg, enc, he, hF, hm, h63, hlen, hcat, -⟩ := h.encoder
  have he' := he
  simp only [Outcome.est, Option.some.injEq, Prod.mk.injEq] at he'
  obtain ⟨hcfg, henc⟩ := he'
  have hfit := o.henc
  rw [hcfg, henc] at hfit
  have hmb : cfg.maxBins = e.maxBins := by rw [← hcfg]; rfl
  have hcap : cfg.cap = lib.cap := by rw [← hcfg]; rfl
  obtain ⟨_, hok, _⟩ := encoderFit_ok hm hF
  refine ⟨enc.map cutsOfCol, ?_, fun j l hl => ?_, fun N' _ n n' i i' X X' A A' hX hX' hi hi' hA hA' hnum hap hap' => ?_⟩
  · rw [hcat, List.map_map]
    refine List.map_congr_left fun fc _ => ?_
    cases fc <;> rfl
  · rw [List.getElem?_map, Option.map_eq_some_iff] at hl
    obtain ⟨fc, h1, h2⟩ := hl
    cases fc with
    | cat cs => cases h2
    | num thr =>
      cases h2
      obtain ⟨col, hcol, hsub⟩ := thresholds_fit hgood hfit h1
      obtain ⟨thr', e1, e2, -, e3, -⟩ := findBinningThresholds_spec cfg.cap col cfg.maxBins hm
      rw [hcol] at e1
      cases e1
      refine ⟨by omega, e2, fun t ht => ?_⟩
      obtain ⟨u, w, hu, hw, hu'⟩ := thresholds_half hm hcol t ht
      exact ⟨u, w, hsub u hu, hsub w hw, hcap ▸ hu'⟩
  · have hacc : ∀ X : Dataset N' V, AcceptedBy lib o.est X → ∀ cfg enc, o.est.encoder = some (cfg, enc) → Acceptable lib.conv cfg enc X := by
      rintro X ⟨cfg', enc', h1, h2⟩ cfg enc h3
      rw [h1] at h3; cases h3
      exact h2
    obtain ⟨b, e1, r1, -⟩ := h.encode (by omega) hX (hacc X hA)
    obtain ⟨b', e2, r2, -⟩ := h.encode (by omega) hX' (hacc X' hA')
    have e1' := e1
    have e2' := e2
    simp only [Est.encode, he] at e1' e2'
    refine ⟨fun hs => ?_, fun j l hl hsame hbin => ?_⟩
    · refine sameLeaves_of e1 e2 (by omega) (by omega) (sameBins_values hok h63 (by omega) (by omega) hX hX' e1' e2' hi hi' fun f fc c c' hf hc hc' => ?_) hap hap'
      rw [← hnum]
      exact sameStep_bin (hok _ (List.mem_of_getElem? hf)) (hs f _ c c' (by rw [List.getElem?_map, hf]; rfl) hc hc')
    · refine sameLeaves_of e1 e2 (by omega) (by omega) (sameBins_values hok h63 (by omega) (by omega) hX hX' e1' e2' hi hi' fun f fc c c' hf hc hc' => ?_) hap hap'
      rw [← hnum]
      by_cases hfj : f = j
      · subst hfj
        rw [hc, hc'] at hbin
        rw [List.getElem?_map, hf] at hl
        cases fc with
        | cat cs => cases hl
        | num thr =>
          cases hl
          obtain ⟨-, -, -, -, -, -, s7⟩ := encoderTransform_ok hok h63 (show 0 < n by omega) hX e1'
          obtain ⟨-, -, -, -, -, -, t7⟩ := encoderTransform_ok hok h63 (show 0 < n' by omega) hX' e2'
          obtain ⟨-, fc, v, g1, g2, -⟩ := s7 i f c hc
          obtain ⟨-, fc', v', g1', g2', -⟩ := t7 i' f c' hc'
          rw [hf] at g1 g1'
          cases g1
          cases g1'
          simp only [Option.getD_some] at hbin
          rw [g2, g2', Option.getD_some, Option.getD_some] at hbin
          rw [hnum, g2', ← hnum, g2, hbin]
      · have := hsame f hfj
        rw [hc, hc'] at this
        cases this
        rfl

theorem cellBin_lt {num : V → Option K} {l : List K} (hs : l.Pairwise (· ≤ ·)) {c : Option V} : (cellBin num (.num l : FitCol V K) c).getD 0 < l.length + 2 := by
  cases c with
  | none => simp [cellBin]
  | some v =>
    simp only [cellBin]
    cases num v with
    | none => simp
    | some x =>
      have := binOf_le hs x
      simp
      omega

end

end Verif
