import Verif.Proofs.Steps
import Verif.Spec.Read

/-! # Fitted trees as rules about the values of the cells -/
set_option linter.unusedSectionVars false
namespace Verif

open Spec

/-- The rule of a fitted column. -/
def ruleOf {V K : Type} : FitCol V K → Rule V K
  | .cat cs => .cats cs
  | .num thr => .cuts thr

section
variable {K : Type} [LinearOrder K] [Field K] [IsStrictOrderedRing K]

theorem binOf_le_iff {thr : List K} (hs : thr.Pairwise (· ≤ ·)) {x : K} {b : Nat} : binOf thr x ≤ b ↔ (b < thr.length ∨ binOf thr x ≤ b) ∧ ∀ t, thr[b]? = some t → x ≤ t := by
  obtain ⟨h1, h2, h3⟩ := (binOf_spec thr hs x 0).2
  constructor
  · refine fun h => ⟨.inr h, fun t ht => ?_⟩
    obtain ⟨hb, rfl⟩ := List.getElem?_eq_some_iff.1 ht
    have hi : binOf thr x < thr.length := by omega
    refine (h2 _ (List.getElem?_eq_getElem hi)).trans ?_
    rcases Nat.lt_or_ge (binOf thr x) b with hl | hl
    · exact List.pairwise_iff_getElem.1 hs _ _ _ _ hl
    · have : binOf thr x = b := by omega
      simp only [this, le_refl]
  · rintro ⟨h0, h⟩
    rcases h0 with hb | h0
    · by_contra hlt
      push Not at hlt
      have e' := List.getElem?_eq_getElem (show binOf thr x - 1 < thr.length by omega)
      have h4 := h3 _ _ (by omega) e'
      have h5 := h _ (List.getElem?_eq_getElem hb)
      refine absurd h5 (not_le.2 (lt_of_le_of_lt ?_ h4))
      rcases Nat.lt_or_ge b (binOf thr x - 1) with hl | hl
      · exact List.pairwise_iff_getElem.1 hs _ _ _ _ hl
      · have : b = binOf thr x - 1 := by omega
        simp only [this, le_refl]
    · exact h0

end

section
variable {V K F P G N N' : Type} [DecidableEq V] [LinearOrder K] [Field K] [IsStrictOrderedRing K] [FloorSemiring K] [Num F]

theorem reads_iff {num : V → Option K} {rules : List (Rule V K)} {t : TreeArr F P} {row : Nat → Option (Option V)} {x : Nat → Nat}
    (h : ∀ k n f, NodeAt t k n → n.isLeaf = false → n.feature = some f → ∃ R c, rules[f]? = some R ∧ row f = some c ∧
      (RuleLeft num (slice t.binParts n.bpS n.bpE) n R c ↔ TestLeft t n (x f))) {k : Nat} : Reads num rules t row k ↔ Visits t x k := by
  constructor
  · intro hr
    induction hr with
    | root => exact .root
    | left h0 h1 h2 h3 h4 h5 h6 h7 ih =>
      obtain ⟨R, c, e1, e2, e3⟩ := h _ _ _ h1 h2 h3
      rw [h4] at e1; cases e1
      rw [h5] at e2; cases e2
      exact .left ih h1 h2 h3 (e3.1 h6) h7
    | right h0 h1 h2 h3 h4 h5 h6 h7 ih =>
      obtain ⟨R, c, e1, e2, e3⟩ := h _ _ _ h1 h2 h3
      rw [h4] at e1; cases e1
      rw [h5] at e2; cases e2
      exact .right ih h1 h2 h3 (fun h => h6 (e3.2 h)) h7
  · intro hr
    induction hr with
    | root => exact .root
    | left h0 h1 h2 h3 h4 h5 ih =>
      obtain ⟨R, c, e1, e2, e3⟩ := h _ _ _ h1 h2 h3
      exact .left ih h1 h2 h3 e1 e2 (e3.2 h4) h5
    | right h0 h1 h2 h3 h4 h5 ih =>
      obtain ⟨R, c, e1, e2, e3⟩ := h _ _ _ h1 h2 h3
      exact .right ih h1 h2 h3 e1 e2 (fun h => h4 (e3.1 h)) h5

/-- The test of the bin of a cell is the test of the cell. -/
theorem ruleLeft_iff {num : V → Option K} {t : TreeArr F P} {n : Node F} {fc : FitCol V K} (hok : fc.OK) (hcat : n.isCat = fc.isCat)
    (hthr : ∀ thr, fc = .num thr → ∃ b, n.binThr = some b ∧ b ≤ thr.length) {c : Option V} {v : Nat} (hv : cellBin num fc c = some v) :
    RuleLeft num (slice t.binParts n.bpS n.bpE) n (ruleOf fc) c ↔ TestLeft t n v := by
  cases fc with
  | cat cs =>
    simp only [TestLeft, hcat, FitCol.isCat, if_true, ruleOf]
    cases c with
    | none =>
      cases hv
      rfl
    | some p =>
      simp only [cellBin, Option.some.injEq] at hv
      subst hv
      simp only [RuleLeft]
      split
      · rename_i hp
        constructor
        · rintro (⟨k, hk, he⟩ | ⟨h, -⟩)
          · obtain ⟨hlt, rfl⟩ := List.getElem?_eq_some_iff.1 he
            rw [List.Nodup.idxOf_getElem hok]
            exact hk
          · exact absurd hp h
        · exact fun h => .inl ⟨_, h, by simp [hp]⟩
      · rename_i hp
        constructor
        · rintro (⟨k, hk, he⟩ | ⟨-, h⟩)
          · exact absurd (List.mem_of_getElem? he) hp
          · exact h
        · exact fun h => .inr ⟨hp, h⟩
  | num thr =>
    obtain ⟨b, hb, hle⟩ := hthr thr rfl
    simp only [TestLeft, hcat, FitCol.isCat, Bool.false_eq_true, if_false, ruleOf, hb, Option.some.injEq, exists_eq_left']
    cases c with
    | none =>
      cases hv
      simp only [RuleLeft, false_iff]
      omega
    | some p =>
      simp only [cellBin, Option.map_eq_some_iff] at hv
      obtain ⟨x, hx, rfl⟩ := hv
      rw [binOf_le_iff hok]
      have h1 := binOf_le hok x
      simp only [RuleLeft, hx, hb, Option.some.injEq]
      constructor
      · rintro ⟨x', b', rfl, rfl, h⟩
        exact ⟨by omega, h⟩
      · exact fun h => ⟨_, _, rfl, rfl, h.2⟩

/-- Rows with the same cells in the tested columns have the same leaves. -/
theorem reads_congr {num : V → Option K} {rules : List (Rule V K)} {t : TreeArr F P} {row row' : Nat → Option (Option V)}
    (h : ∀ k n f, NodeAt t k n → n.isLeaf = false → n.feature = some f → row f = row' f) {k : Nat} (hr : Reads num rules t row k) : Reads num rules t row' k := by
  induction hr with
  | root => exact .root
  | left h0 h1 h2 h3 h4 h5 h6 h7 ih => exact .left ih h1 h2 h3 h4 (h _ _ _ h1 h2 h3 ▸ h5) h6 h7
  | right h0 h1 h2 h3 h4 h5 h6 h7 ih => exact .right ih h1 h2 h3 h4 (h _ _ _ h1 h2 h3 ▸ h5) h6 h7

theorem readLeaves_same {num : V → Option K} {rules : List (Rule V K)} {trees : List (TreeObj F P G)} {X X' : Dataset N V} {n n' : Nat} {A A' : List (List Nat)}
    (h : ReadLeaves num rules trees X n A) (h' : ReadLeaves num rules trees X' n' A') {i i' : Nat} (hi : i < n) (hi' : i' < n')
    (hs : SameTestedCells trees X X' i i') : SameLeaves A A' i i' := by
  intro t l l' hl hl'
  obtain ⟨ht, -⟩ := List.getElem?_eq_some_iff.1 hl
  have ho := List.getElem?_eq_getElem (show t < trees.length by rw [← h.1]; exact ht)
  obtain ⟨e1, e2⟩ := h.2 t _ l ho hl
  obtain ⟨e1', e2'⟩ := h'.2 t _ l' ho hl'
  have q := List.getElem?_eq_getElem (show i < l.length by omega)
  have q' := List.getElem?_eq_getElem (show i' < l'.length by omega)
  obtain ⟨⟨nd, g1, g2⟩, g3⟩ := e2 i _ q
  obtain ⟨-, g3'⟩ := e2' i' _ q'
  have r1 := (g3 _ nd g1 g2).2 rfl
  have r2 := (g3' _ nd g1 g2).1 (reads_congr (hs _ (List.getElem_mem _)) r1)
  exact ⟨_, q, by rw [q', r2]⟩

end

section
variable {L V K F P G W N : Type} [LinearOrder L] [DecidableEq V] [DecidableEq N] [LinearOrder K] [Field K] [IsStrictOrderedRing K] [FloorSemiring K] [Num F]

/-- The trees of a fitted forest as rules about cells. -/
theorem FitFacts.read {Y : Type} {lib : Lib V K F G W} {a : FitArgs N V} {p : FitData F Y P G} {lab : F → Prop} {okW : List F → Prop} {e : Est L V K F P G} {np : W}
    (hlib : LibOK lib a.nRows) (hn : a.nRows < 2 ^ 63) (hpos : 0 < a.nRows) (hgood : GoodInput a.nRows a.X) (hT : ValidTask (p.task e.dirichlet) lab)
    (o : Outcome lib a p e np) (h : FitFacts lib a p lab okW e o.est) :
    ∃ rules : List (Rule V K), rules.map Rule.isCats = o.est.isCategorical_ ∧
      CutsOf e.maxBins lib.cap lib.conv.toFloat a.X a.nRows (rules.map Rule.cutPoints) ∧ CatsOf a.X rules ∧
      ∀ (N' : Type) [DecidableEq N'] (n : Nat) (X : Dataset N' V) (A : List (List Nat)), 0 < n → GoodInput n X → AcceptedBy lib o.est X → o.est.apply lib n X = .ok A →
        ReadLeaves (numOf lib.conv X) rules o.est.trees X n A := by
  obtain ⟨cfg, enc, he, hF, hm, h63, hlen, hcat, -⟩ := h.encoder
  have he' := he
  simp only [Outcome.est, Option.some.injEq, Prod.mk.injEq] at he'
  obtain ⟨hcfg, henc⟩ := he'
  have hfit := o.henc
  rw [hcfg, henc] at hfit
  have hmb : cfg.maxBins = e.maxBins := by rw [← hcfg]; rfl
  have hcap : cfg.cap = lib.cap := by rw [← hcfg]; rfl
  obtain ⟨_, hok, hknown⟩ := encoderFit_ok hm hF
  obtain ⟨train, htr, hrows, hcols, hall⟩ := h.tree hlib hn o
  have htr' : encoderTransform lib.conv cfg enc lib.words a.nRows a.X = .ok train := by simp only [Est.encode, he] at htr; exact htr
  obtain ⟨-, q2, q3, -, q5, q6, q7⟩ := encoderTransform_ok hok h63 hpos hgood htr'
  refine ⟨enc.map ruleOf, ?_, fun j l hl => ?_, fun j l hl => ?_, ?_⟩
  · rw [hcat, List.map_map]
    refine List.map_congr_left fun fc _ => ?_
    cases fc <;> rfl
  · rw [List.map_map, List.getElem?_map, Option.map_eq_some_iff] at hl
    obtain ⟨fc, h1, h2⟩ := hl
    cases fc with
    | cat cs => cases h2
    | num thr =>
      cases h2
      obtain ⟨col, hcol, hsub⟩ := thresholds_fit hgood hfit h1
      obtain ⟨thr', e1, e2, -, e3, -⟩ := findBinningThresholds_spec cfg.cap col cfg.maxBins hm
      rw [hcol] at e1
      cases e1
      refine ⟨by omega, e2, fun t ht => ?_⟩
      obtain ⟨u, w, hu, hw, hu'⟩ := thresholds_half hm hcol t ht
      exact ⟨u, w, hsub u hu, hsub w hw, hcap ▸ hu'⟩
  · rw [List.getElem?_map, Option.map_eq_some_iff] at hl
    obtain ⟨fc, h1, h2⟩ := hl
    cases fc with
    | num thr => cases h2
    | cat cs =>
      cases h2
      exact ⟨hok _ (List.mem_of_getElem? h1), fun i v hv => hknown i j _ v h1 hv⟩
  · intro N' _ n X A hn0 hX hA hap
    have hacc : ∀ cfg enc, o.est.encoder = some (cfg, enc) → Acceptable lib.conv cfg enc X := by
      obtain ⟨cfg', enc', h1, h2⟩ := hA
      intro cfg enc h3
      rw [h1] at h3; cases h3
      exact h2
    obtain ⟨b, e1, r1, -⟩ := h.encode hn0 hX hacc
    have e1' := e1
    simp only [Est.encode, he] at e1'
    obtain ⟨s1, s2, s3, -, s5, s6, s7⟩ := encoderTransform_ok hok h63 hn0 hX e1'
    unfold Est.apply at hap
    rw [e1, bind_ok] at hap
    have g := mapM_eq_ok.1 hap
    refine ⟨g.length_eq.symm, fun t ob l ht hl => ?_⟩
    obtain ⟨ht1, rfl⟩ := List.getElem?_eq_some_iff.1 ht
    obtain ⟨hl1, rfl⟩ := List.getElem?_eq_some_iff.1 hl
    have hk := g.get (i := t) ht1 hl1
    simp only [List.get_eq_getElem] at hk
    refine ⟨by rw [range_mapM_len hk, s1], fun i k hik => ?_⟩
    have hi : i < n := by
      obtain ⟨h1, -⟩ := List.getElem?_eq_some_iff.1 hik
      rw [range_mapM_len hk, s1] at h1
      exact h1
    have hleaf := range_mapM_get hk hik
    obtain ⟨c, gb, seed, y, w, draws, bt, lim, -, -, -, -, -, -, hbt, hin, hft, hset, -, -⟩ := hall t _ ht
    obtain ⟨okP, gt, hfa⟩ := fit_facts hT hin hft
    have hd : (bootData (encData train y w) bt).d = enc.length := by
      change train.nFeatures = _
      rw [hcols, ← q5]
    obtain ⟨k', nd, f1, f2, f3, f4, -, f6⟩ := C23_apply_total hT hin hft b i (fun f => binsOf b i f) (fun j hj => by
      rw [hd] at hj
      obtain ⟨c, hc⟩ := s6 i j hj hi
      obtain ⟨-, fc, v, -, -, g3, -⟩ := s7 i j c hc
      simp only [binsOf, g3])
    rw [f1] at hleaf
    cases hleaf
    refine ⟨⟨nd, f2, f3⟩, fun k' nd' hk' hl' => ?_⟩
    have key : Reads (numOf lib.conv X) (enc.map ruleOf) o.est.trees[t].arr (cell X i) k' ↔ Visits o.est.trees[t].arr (fun f => binsOf b i f) k' := by
      refine reads_iff fun k n f hk hl hf => ?_
      obtain ⟨hc1, hc2⟩ := hfa.test hk hl hf
      rw [hset.isCategorical, hcat, List.getElem?_map, Option.map_eq_some_iff] at hc1
      obtain ⟨fc, h1, h2⟩ := hc1
      have hlt := (List.getElem?_eq_some_iff.1 h1).1
      obtain ⟨c, hc⟩ := s6 i f hlt hi
      obtain ⟨-, fc', v, g1, g2, g3, -⟩ := s7 i f c hc
      rw [h1] at g1; cases g1
      refine ⟨ruleOf fc, c, by rw [List.getElem?_map, h1]; rfl, hc, ?_⟩
      simp only [binsOf, g3]
      refine ruleLeft_iff (hok _ (List.mem_of_getElem? h1)) h2.symm (fun thr ht => ?_) g2
      subst ht
      obtain ⟨bb, hb, -, r, hr, hlt'⟩ := hc2 h2.symm
      refine ⟨bb, hb, ?_⟩
      have hr' : r < a.nRows := by rw [← hrows]; exact hr
      have hlt2 : bb < binsOf train r f := hlt'
      obtain ⟨cr, hcr⟩ := q6 r f hlt hr'
      obtain ⟨-, fc', v', m1, m2, m3, -⟩ := q7 r f cr hcr
      rw [h1] at m1; cases m1
      have := cellBin_lt (num := numOf lib.conv a.X) (hok _ (List.mem_of_getElem? h1)) (c := cr)
      rw [m2] at this
      simp only [binsOf, m3] at hlt2
      simp only [Option.getD_some] at this
      omega
    rw [key]
    exact ⟨fun hv => f6 k' nd' hk' hl' hv, fun h => h ▸ f4⟩

end

end Verif
