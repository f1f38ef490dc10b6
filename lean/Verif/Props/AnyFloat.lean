import Verif.Proofs.AnyFloat
import Verif.Props.EndToEnd
import Verif.Props.Float32Class
import Verif.Props.RangeF32

/-! # C117 and C118: leaves determine predictions; answers in any arithmetic -/
set_option linter.unusedSectionVars false
namespace Verif

open Spec

section
variable {L V K F P G W N N' : Type} [LinearOrder L] [DecidableEq V] [DecidableEq N] [DecidableEq N'] [LinearOrder K] [Field K] [FloorSemiring K] [Num F]

/-- **C117** Classifier: two rows, of one or of two tables, that end in the same leaf of every tree according to `apply` have the same probabilities and the same
predicted label. In any arithmetic and for any state `e` of the estimator. -/
theorem C117_classifier {lib : Lib V K F G W} {e : Est L V K F (List F) G} {eps : F} {n n' : Nat} {X : Dataset N V} {X' : Dataset N' V} {A A' : List (List Nat)}
    {i j : Nat} {p p' : List (List F)} (hA : e.apply lib n X = .ok A) (hA' : e.apply lib n' X' = .ok A') (hs : SameLeaves A A' i j)
    (hp : e.predictProba lib eps n X = .ok p) (hp' : e.predictProba lib eps n' X' = .ok p') (hi : i < p.length) (hj : j < p'.length) :
    p[i]? = p'[j]? ∧ ∀ l l', e.predict lib eps n X = .ok l → e.predict lib eps n' X' = .ok l' → l[i]? = l'[j]? := by
  obtain ⟨b, b', e1, e2, hl⟩ := leaves_eq hA hA' hs
  have key : p[i]? = p'[j]? := by
    unfold Est.predictProba at hp hp'
    rw [e1, bind_ok] at hp
    rw [e2, bind_ok] at hp'
    split at hp
    · cases hp
    · split at hp
      · rw [if_neg ‹_›, if_pos ‹_›] at hp'
        exact leaf_ovr hl (by rw [← predictProbaOvr_length' hp]; exact hi) (by rw [← predictProbaOvr_length' hp']; exact hj) hp hp'
      · rw [if_neg ‹_›, if_neg ‹_›] at hp'
        exact leaf_proba hl (by rw [← predictProba_length' hp]; exact hi) (by rw [← predictProba_length' hp']; exact hj) hp hp'
  refine ⟨key, fun l l' h h' => ?_⟩
  unfold Est.predict predictLabels at h h'
  rw [hp, bind_ok] at h
  rw [hp', bind_ok] at h'
  have g := mapM_eq_ok.1 h
  have g' := mapM_eq_ok.1 h'
  have hi' : i < l.length := by rw [← g.length_eq]; exact hi
  have hj' : j < l'.length := by rw [← g'.length_eq]; exact hj
  have k := g.get (i := i) hi hi'
  have k' := g'.get (i := j) hj hj'
  rw [List.getElem?_eq_getElem hi, List.getElem?_eq_getElem hj] at key
  injection key with key
  simp only [List.get_eq_getElem] at k k'
  rw [key, k'] at k
  injection k with k
  rw [List.getElem?_eq_getElem hi', List.getElem?_eq_getElem hj', k]

/-- **C117** Regressor: the predictions, and the weighted depths of every tree. -/
theorem C117_regressor {lib : Lib V K F G W} {e : Est L V K F F G} {n n' : Nat} {X : Dataset N V} {X' : Dataset N' V} {A A' : List (List Nat)}
    {i j : Nat} {p p' : List F} (hA : e.apply lib n X = .ok A) (hA' : e.apply lib n' X' = .ok A') (hs : SameLeaves A A' i j)
    (hp : e.predictReg lib n X = .ok p) (hp' : e.predictReg lib n' X' = .ok p') (hi : i < p.length) (hj : j < p'.length) :
    p[i]? = p'[j]? ∧ ∀ d d', e.weightedDepth lib n X = .ok d → e.weightedDepth lib n' X' = .ok d' →
      ∀ (t : Nat) (r r' : List F), d[t]? = some r → d'[t]? = some r' → r[i]? = r'[j]? := by
  obtain ⟨b, b', e1, e2, hl⟩ := leaves_eq hA hA' hs
  unfold Est.predictReg at hp hp'
  rw [e1, bind_ok] at hp
  rw [e2, bind_ok] at hp'
  refine ⟨leaf_predict hl (by rw [← forestPredict_length hp]; exact hi) (by rw [← forestPredict_length hp']; exact hj) hp hp', fun d d' h h' t r r' hr hr' => ?_⟩
  unfold Est.weightedDepth at h h'
  rw [e1, bind_ok] at h
  rw [e2, bind_ok] at h'
  have g := mapM_eq_ok.1 h
  have g' := mapM_eq_ok.1 h'
  obtain ⟨ht, rfl⟩ := List.getElem?_eq_some_iff.1 hr
  obtain ⟨ht', rfl⟩ := List.getElem?_eq_some_iff.1 hr'
  have ht0 : t < e.trees.length := by rw [g.length_eq]; exact ht
  have k := g.get (i := t) ht0 ht
  have k' := g'.get (i := t) ht0 ht'
  simp only [List.get_eq_getElem] at k k'
  obtain ⟨h1, h2, h3⟩ := hl _ (List.getElem_mem ht0)
  have q := List.getElem?_eq_getElem (show i < (d[t]).length by rw [range_mapM_len k]; exact h1)
  have q' := List.getElem?_eq_getElem (show j < (d'[t]).length by rw [range_mapM_len k']; exact h2)
  have u := range_mapM_get k q
  have u' := range_mapM_get k' q'
  rw [weightedDepthRow_leaf h3, u'] at u
  injection u with u
  rw [q, q', u]

end

section
variable {L V K F G W N : Type} [LinearOrder L] [DecidableEq V] [DecidableEq N] [LinearOrder K] [Field K] [IsStrictOrderedRing K] [FloorSemiring K] [Num F]

/-- **C118** Classifier, any arithmetic (rounding, infinities, NaN): on valid data and parameters `fit` returns. Then `predict_proba` returns one row per row of any
acceptable table and one column per class, `predict` one label of the training data per row, and `apply` a leaf of every tree for every row. No arithmetic law is
assumed but that the class numbers are represented exactly. -/
theorem C118_classifier {lib : Lib V K F G W} {a : FitArgs N V} {y : List L} {s : World L V K F (List F) G W}
    (hlib : LibOK lib a.nRows) (hp : ParamsValid s.self (nCols a.X)) (hd : DataValid lib.conv a s y.length) (ht : a.targetsOK = true)
    (hrefit : s.self.ovr = true → s.self.fitted = true → 2 < y.dedup.length) (hst : StrategyOK y.dedup.length s.self.strategy)
    (hdir : s.self.aggregation = true → ¬(Num.le s.self.dirichlet Num.zero = true ∧ Num.le Num.zero s.self.dirichlet = true))
    (hF : ∀ k, k < max 2 y.dedup.length → Num.toNat (Num.ofNat k : F) = k) :
    ∃ s', fitClassifier lib a y s = (.ok (), s') ∧ s'.self.classes.Pairwise (· < ·) ∧ (∀ l, l ∈ s'.self.classes ↔ l ∈ y) ∧ AcceptedBy lib s'.self a.X ∧
      ∀ (N' : Type) [DecidableEq N'] (eps : F) (n : Nat) (X : Dataset N' V), 0 < n → GoodInput n X → AcceptedBy lib s'.self X →
        (∃ proba, s'.self.predictProba lib eps n X = .ok proba ∧ proba.length = n ∧ ∀ p ∈ proba, p.length = s'.self.classes.length) ∧
        (∃ labels, s'.self.predict lib eps n X = .ok labels ∧ labels.length = n ∧ ∀ l ∈ labels, l ∈ y) ∧
        ∃ A, s'.self.apply lib n X = .ok A ∧ A.length = s'.self.trees.length ∧ ∀ (t : Nat) (o : TreeObj F (List F) G) (l : List Nat), s'.self.trees[t]? = some o →
          A[t]? = some l → l.length = n ∧ ∀ k ∈ l, k < o.arr.nodeCount ∧ ∃ nd, o.arr.nodes[k]? = some nd ∧ nd.isLeaf = true := by
  rw [← sortedUnique_length] at hrefit hst hF
  obtain ⟨e0, o, he0, hfit, hfacts⟩ := fitClassifier_ok (okW := fun _ => True) hlib hp hd ht hrefit hdir hst hF (fun _ _ => trivial)
  have hy : y ≠ [] := by
    intro h0; have := hd.labels; have := hd.rows.1; rw [h0] at *; simp_all
  have hcpos := sortedUnique_pos hy
  subst he0
  have hc : o.est.classes = sortedUnique y := rfl
  have hov : o.est.ovr = staysOvr s.self y := rfl
  have hn : o.est.nClasses = (sortedUnique y).length := rfl
  have hE : o.est.nEstimators = s.self.nEstimators := rfl
  have htr : o.est.trees.length = if staysOvr s.self y then s.self.nEstimators * (sortedUnique y).length else s.self.nEstimators := hfacts.nTrees
  obtain ⟨cfg, enc, henc, -, -, -, -, -, hA⟩ := hfacts.encoder
  refine ⟨_, hfit, by rw [hc]; exact sortedUnique_sorted y, fun l => by rw [hc]; exact mem_sortedUnique, ⟨cfg, enc, henc, hA⟩, fun N' _ eps n X hn0 hX hA => ?_⟩
  obtain ⟨cfg', enc', he', hA'⟩ := hA
  obtain ⟨fba, hb, hrows, hx⟩ := hfacts.encode hn0 hX (fun c e h => by
    have := h.symm.trans he'
    injection this with this
    obtain ⟨rfl, rfl⟩ := Prod.mk.inj this
    exact hA')
  have hall := hfacts.any hlib (classifier_safe lib.rng hlib.argsort (if staysOvr s.self y then 2 else (sortedUnique y).length) s.self.dirichlet s.self.criterion
    (strategy_tree hst _)) (mix := mixV) (fun α p q h1 h2 => by unfold mixV; rw [List.length_zipWith, h1, h2, min_self]) hx
  have hproba : ∃ proba, o.est.predictProba lib eps n X = .ok proba ∧ proba.length = n ∧ ∀ p ∈ proba, p.length = o.est.classes.length := by
    unfold Est.predictProba
    rw [hb, bind_ok, hfacts.fitted, hov, hn, hE, hc]
    cases hov : staysOvr s.self y with
    | true =>
      simp only [hov, if_true, Bool.not_true, Bool.false_eq_true, if_false] at hall htr ⊢
      rw [← hrows]
      exact ovr_any (by rw [htr, Nat.mul_comm]) fun o ho => (hall o ho).1
    | false =>
      simp only [hov, Bool.not_true, Bool.false_eq_true, if_false] at hall htr ⊢
      rw [← hrows]
      exact proba_any fun o ho => (hall o ho).1
  refine ⟨hproba, ?_, ?_⟩
  · obtain ⟨proba, h1, h2, h3⟩ := hproba
    obtain ⟨labels, h4, h5, h6⟩ := labels_any (classes := o.est.classes) (by rw [hc]; exact List.length_pos_iff.1 hcpos) h3
    refine ⟨labels, by unfold Est.predict; rw [h1, bind_ok]; exact h4, h5.trans h2, fun l hl => ?_⟩
    have := h6 l hl
    rw [hc] at this
    exact mem_sortedUnique.1 this
  · exact apply_any hb hrows fun o ho => (hall o ho).2.1

/-- **C118** Regressor: `predict` returns a number for every row, `apply` a leaf of every tree, and with aggregation the weighted depths are defined. -/
theorem C118_regressor {lib : Lib V K F G W} {a : FitArgs N V} {y : List F} {s : World L V K F F G W}
    (hlib : LibOK lib a.nRows) (hp : ParamsValid s.self (nCols a.X)) (hd : DataValid lib.conv a s y.length) :
    ∃ s', fitRegressor lib a y s = (.ok (), s') ∧ AcceptedBy lib s'.self a.X ∧
      ∀ (N' : Type) [DecidableEq N'] (n : Nat) (X : Dataset N' V), 0 < n → GoodInput n X → AcceptedBy lib s'.self X →
        (∃ out, s'.self.predictReg lib n X = .ok out ∧ out.length = n) ∧
        (∃ A, s'.self.apply lib n X = .ok A ∧ A.length = s'.self.trees.length ∧ ∀ (t : Nat) (o : TreeObj F F G) (l : List Nat), s'.self.trees[t]? = some o →
          A[t]? = some l → l.length = n ∧ ∀ k ∈ l, k < o.arr.nodeCount ∧ ∃ nd, o.arr.nodes[k]? = some nd ∧ nd.isLeaf = true) ∧
        (s.self.aggregation = true → ∃ d, s'.self.weightedDepth lib n X = .ok d ∧ d.length = s'.self.trees.length ∧ ∀ r ∈ d, r.length = n) := by
  obtain ⟨e0, o, he0, hfit, hfacts⟩ := fitRegressor_ok hlib hp hd
  subst he0
  obtain ⟨cfg, enc, henc, -, -, -, -, -, hA⟩ := hfacts.encoder
  refine ⟨_, hfit, ⟨cfg, enc, henc, hA⟩, fun N' _ n X hn0 hX hA => ?_⟩
  obtain ⟨cfg', enc', he', hA'⟩ := hA
  obtain ⟨fba, hb, hrows, hx⟩ := hfacts.encode hn0 hX (fun c e h => by
    have := h.symm.trans he'
    injection this with this
    obtain ⟨rfl, rfl⟩ := Prod.mk.inj this
    exact hA')
  have hall := hfacts.any hlib (regressor_safe hlib.argsort) (mix := mixF) (fun _ _ _ _ _ => trivial) hx
  refine ⟨?_, apply_any hb hrows fun o ho => (hall o ho).2.1, fun hagg => ?_⟩
  · unfold Est.predictReg
    rw [hb, bind_ok, ← hrows]
    exact reg_any fun o ho => (hall o ho).1
  · have hdep : ∀ t ∈ o.est.trees, ∃ q, (List.range fba.nSamples).mapM (weightedDepthRow t.arr fba t.step) = .ok q ∧ q.length = fba.nSamples := fun t ht => by
      refine (hall t ht).2.2 ?_
      obtain ⟨train, -, htr, -, hix⟩ := hfacts.indexed
      obtain ⟨i, hi, rfl⟩ := List.getElem_of_mem ht
      obtain ⟨c, gb, seed, y', w', -, -, -, -, h5, h6, h7, -, h9, h10⟩ := hix i _ (List.getElem?_eq_getElem hi)
      obtain ⟨bt, w, hB⟩ := buildTree_inv (D := encData train y' w') (by
        rw [show (encData train y' w').n = a.nRows from htr]; exact hlib.boot) h9 (by rw [h6, h5]; exact htr.symm) h10
      rw [hB.agg, h7]
      exact hagg
    obtain ⟨d, hd'⟩ := mapM_total (l := o.est.trees) (f := fun t => (List.range fba.nSamples).mapM (weightedDepthRow t.arr fba t.step)) fun t ht => by
      obtain ⟨q, h1, -⟩ := hdep t ht
      exact ⟨q, h1⟩
    refine ⟨d, by unfold Est.weightedDepth; rw [hb, bind_ok]; exact hd', ((mapM_eq_ok.1 hd').length_eq).symm, fun r hr => ?_⟩
    obtain ⟨t, ht, h1⟩ := mapM_mem_inv hd' hr
    obtain ⟨q, h2, h3⟩ := hdep t ht
    rw [h1] at h2
    injection h2 with h2
    rw [h2, h3, hrows]

end

/-! ### Examples -/

/-- A known and an unknown word. -/
def sameNew : Dataset String Nat := .frame [("b", { kind := .bOSU, cells := [some 0, some 5] })]

/-- The leaves of these two words after the fit of `C116_violated`, and the number of predictions. -/
def sameAnswers (exp log : F32 → F32) (y : List F32) : M (List (List Nat)) × M Nat :=
  let _ := f32With exp log
  ((sameFit exp log y).2.self.apply sameLib 2 sameNew, ((sameFit exp log y).2.self.predictReg sameLib 2 sameNew).map List.length)

/-- The hypotheses of `C117_regressor` hold: a forest fitted in float32, where a known and an unknown word end in the same leaf. -/
example : ∃ s' out, fitRegressor sameLib sameArgs (List.replicate 7 tenth) freeWorld = (.ok (), s') ∧ s'.self.predictReg sameLib 2 sameNew = .ok out ∧
    out.length = 2 ∧ out[0]? = out[1]? := by
  have h0 : (fitRegressor sameLib sameArgs (List.replicate 7 tenth) freeWorld).1 = .ok () := by
    change (sameFit f32Exp f32Log _).1 = _
    rw [← tableExp_eq, ← tableLog_eq]
    decide +kernel
  have hq : sameAnswers f32Exp f32Log (List.replicate 7 tenth) = (.ok [[0, 0]], .ok 2) := by
    rw [← tableExp_eq, ← tableLog_eq]
    decide +kernel
  generalize hy : List.replicate 7 tenth = y at h0 hq ⊢
  have ha : (fitRegressor sameLib sameArgs y freeWorld).2.self.apply sameLib 2 sameNew = .ok [[0, 0]] := congrArg Prod.fst hq
  have hp : ((fitRegressor sameLib sameArgs y freeWorld).2.self.predictReg sameLib 2 sameNew).map List.length = .ok 2 := congrArg Prod.snd hq
  clear hq
  generalize hs : (fitRegressor sameLib sameArgs y freeWorld).2 = s' at ha hp
  cases hq : s'.self.predictReg sameLib 2 sameNew with
  | error _ => rw [hq] at hp; cases hp
  | ok out =>
    rw [hq] at hp
    have hl : out.length = 2 := Except.ok.inj hp
    refine ⟨s', out, Prod.ext h0 hs, hq, hl, (C117_regressor ha ha (fun t l l' h h' => ?_) hq hq (i := 0) (j := 1) (by omega) (by omega)).1⟩
    match t with
    | 0 =>
      cases h
      cases h'
      exact ⟨0, rfl, rfl⟩
    | t + 1 => cases h

/-- The hypotheses of `C118_regressor` hold in float32, for every choice of labels. -/
example (y : List F32) (hy : y.length = 7) : ∃ s' out, fitRegressor sameLib sameArgs y freeWorld = (.ok (), s') ∧ s'.self.predictReg sameLib 7 sameX = .ok out ∧
    out.length = 7 := by
  obtain ⟨s', h1, h2, h3⟩ := C118_regressor (y := y) sameLib_ok sameWorld_valid (by rw [hy]; exact sameData_valid)
  obtain ⟨⟨out, h4, h5⟩, -⟩ := h3 String 7 sameX (by norm_num) sameData_valid.good h2
  exact ⟨s', out, h1, h4, h5⟩

/-- The hypotheses of `C118_classifier` hold in float32, for every choice of weights, also negative ones. -/
example (w : List F32) (hw : w.length = 4) : ∃ s' labels, fitClassifier freeLib freeArgsC [0, 1, 2, 0] (freeWorldC w) = (.ok (), s') ∧
    s'.self.predict freeLib (F32.of 0) 4 freeX = .ok labels ∧ labels.length = 4 ∧ ∀ l ∈ labels, l ∈ [0, 1, 2] := by
  obtain ⟨s', h1, -, -, h2, h3⟩ := C118_classifier (y := [0, 1, 2, 0]) freeLib_ok (freeWorldC_valid w) (freeDataC_valid hw) rfl (fun h => by cases h)
    (by rw [show ([0, 1, 2, 0] : List Nat).dedup.length = 3 by decide]; simp [freeWorldC, StrategyOK]) (fun h => by cases h) (fun k hk => by
      rw [show ([0, 1, 2, 0] : List Nat).dedup.length = 3 by decide] at hk
      have : k < 3 := by omega
      interval_cases k <;> decide +kernel)
  obtain ⟨-, ⟨labels, h4, h5, h6⟩, -⟩ := h3 String (F32.of 0) 4 freeX (by norm_num) (freeDataC_valid hw).good h2
  refine ⟨s', labels, h1, h4, h5, fun l hl => ?_⟩
  have := h6 l hl
  simp at this ⊢
  tauto

end Verif
