import Verif.Proofs.PermuteEnc

set_option linter.unusedSectionVars false

/-! Fitted estimators, with other names for the categories that may sort in another order. -/
namespace Verif.Bins

open Spec

section
variable {L V K F Y P G W N : Type} [LinearOrder L] [DecidableEq V] [DecidableEq N] [LinearOrder K] [Field K] [IsStrictOrderedRing K]
  [FloorSemiring K] [Num F]

theorem fitThresholds_small {cv : Conv V K} {cfg : EncCfg K} (hm : 1 ≤ cfg.maxBins) {subset : Option (List Nat)} {cells : List (Option V)} {e : Err}
    {fc : FitCol V K} (h : (do
      let cells ← takeSubset subset cells
      let xs ← toFloats cv.toFloat e cells
      let thr ← findBinningThresholds cfg.cap xs cfg.maxBins
      return FitCol.num thr : M (FitCol V K)) = .ok fc) : fc.nBins ≤ cfg.maxBins := by
  obtain ⟨c, -, h⟩ := bind_eq_ok.1 h
  obtain ⟨xs, -, h⟩ := bind_eq_ok.1 h
  obtain ⟨thr, h1, h⟩ := bind_eq_ok.1 h
  obtain rfl := Except.ok.inj h
  obtain ⟨thr', h2, -, -, h3, -⟩ := findBinningThresholds_spec cfg.cap xs cfg.maxBins hm
  obtain rfl := Except.ok.inj (h1.symm.trans h2)
  simp only [FitCol.nBins]
  omega

theorem encoderFit_small {cv : Conv V K} {cfg : EncCfg K} (hm : 1 ≤ cfg.maxBins) (hm' : cfg.maxBins < 2 ^ 63) {subset : Option (List Nat)} {n : Nat}
    (hn : n < 2 ^ 63) {D : Dataset N V} (hg : GoodInput n D) (hsm : SmallDtypes D) {enc : List (FitCol V K)} (h : encoderFit cv cfg subset D = .ok enc) :
    ∀ fc ∈ enc, fc.nBins < 2 ^ 63 := by
  cases D with
  | frame X =>
    obtain ⟨-, hX⟩ := hg
    obtain ⟨-, h⟩ := fitDataFrame_ok.1 h
    obtain ⟨hl, hfc⟩ := fit_mapM h
    intro fc hmem
    obtain ⟨j, hj, rfl⟩ := List.getElem_of_mem hmem
    have hj' : j < X.length := by simpa using (show j < (X.map Prod.snd).length by omega)
    have hf := hfc j (by simpa using hj')
    rw [List.getElem_map] at hf
    generalize enc[j] = fc at hf ⊢
    unfold fitSeries at hf
    obtain ⟨d, -, hf⟩ := bind_eq_ok.1 hf
    obtain ⟨t, -, hf⟩ := bind_eq_ok.1 hf
    cases t with
    | isCategory =>
      obtain rfl := Except.ok.inj hf
      exact hsm _ (List.getElem_mem hj')
    | toCategory =>
      obtain rfl := Except.ok.inj hf
      have h1 := catsOf_length cv X[j].2.cells
      have h2 := (hX _ (List.getElem_mem hj')).1
      simp only [FitCol.nBins]
      omega
    | numerical => exact lt_of_le_of_lt (fitThresholds_small hm hf) hm'
  | array kind X =>
    obtain ⟨hX, -⟩ := hg
    obtain ⟨-, h⟩ := fitArray_ok.1 h
    obtain ⟨hl, hfc⟩ := fit_mapM h
    intro fc hmem
    obtain ⟨j, hj, rfl⟩ := List.getElem_of_mem hmem
    have hj' : j < X.length := by omega
    have hf := hfc j hj'
    generalize enc[j] = fc at hf ⊢
    unfold fitArrayCol at hf
    obtain ⟨d, -, hf⟩ := bind_eq_ok.1 hf
    obtain ⟨t, -, hf⟩ := bind_eq_ok.1 hf
    cases t with
    | true =>
      obtain rfl := Except.ok.inj hf
      have h1 := catsOf_length cv X[j]
      have h2 := hX _ (List.getElem_mem hj')
      simp only [FitCol.nBins]
      omega
    | false =>
      simp only [Bool.false_eq_true, if_false] at hf
      exact lt_of_le_of_lt (fitThresholds_small hm hf) hm'

theorem growTrees_perm {π : Nat → Equiv.Perm Nat} {lib : Lib V K F G W} {p : FitData F Y P G} (hT : ∀ d, TaskP (p.task d)) (n : Nat) (e : Est L V K F P G)
    (mf : Nat) {isCat : List Bool} (hcat : ∀ j : Nat, isCat[j]? = some false → π j = 1) {fba fba' : FBA} (hb : FbaP π fba fba')
    (hr : ∀ j b0, π j b0 < colMax fba.maxValues + 1 ↔ b0 < colMax fba.maxValues + 1) (seeds depths : List Nat) :
    SameResult (List.Forall₂ (ObjP π)) (growTrees lib n p e mf isCat fba seeds depths) (growTrees lib n p e mf isCat fba' seeds depths) := by
  unfold growTrees
  refine SameResult.mapM ?_
  rintro ⟨⟨seed, depth⟩, i⟩ -
  simp only
  refine SameResult.same.bind ?_
  rintro y _ rfl
  refine SameResult.same.bind ?_
  rintro w _ rfl
  exact buildTree_perm _ _ ⟨rfl, hb, hr, hcat⟩ _ _ (hT _) _

/-- The second half of `fit`, and encoding, with other names. -/
theorem fitRest_newNames {lib : Lib V K F G W} {a : FitArgs N V} {p : FitData F Y P G} {s s' : World L V K F P G W} {ch : Nat → V → V}
    (hT : ∀ d, TaskP (p.task d)) (hreg : RegularTable a.nRows a.X) (hmb : s.self.maxBins < 2 ^ 63)
    (h : fitRest lib a p s = (.ok (), s')) (hch : ∀ j, ch j = id ∨ s'.self.isCategorical_[j]? = some true ∧ NewNames lib.conv a.X j (ch j)) :
    ∃ (π : Nat → Equiv.Perm Nat) (enc' : Option (EncCfg K × List (FitCol V K))) (trees' : List (TreeObj F P G)),
      fitRest lib { a with X := rename ch a.X } p s = (.ok (), { s' with self := { s'.self with encoder := enc', trees := trees' } }) ∧
      List.Forall₂ (ObjP π) s'.self.trees trees' ∧
      ∀ (N' : Type) [DecidableEq N'] (n : Nat) (E : Dataset N' V), 0 < n → GoodInput n E →
        SameResult (FbaP π) (s'.self.encode lib n E) (({ s'.self with encoder := enc', trees := trees' } : Est L V K F P G).encode lib n (rename ch E)) := by
  obtain ⟨hn, hX, hsm, hk⟩ := hreg
  obtain ⟨o, rfl⟩ := fitRest_inv h
  have hcol : ∀ j fc, o.enc[j]? = some fc → ch j = id ∨ (∃ cs, fc = .cat cs) ∧ NewNames lib.conv a.X j (ch j) := by
    intro j fc hfc
    rcases hch j with h | ⟨h1, h2⟩
    · exact .inl h
    · refine .inr ⟨?_, h2⟩
      simp only [Outcome.est, List.getElem?_map, hfc, Option.map_some, Option.some.injEq] at h1
      cases fc with
      | cat cs => exact ⟨cs, rfl⟩
      | num _ => cases h1
  obtain ⟨encP, hP, hfit⟩ := encoderFit_perm o.henc hcol
  have hmb3 : 1 ≤ (s.self.encCfg lib a.nRows o.ic).maxBins := by
    have := (encoderAccepts_iff.1 o.hacc).1
    show 1 ≤ s.self.maxBins
    omega
  have hOK : ∀ fc ∈ o.enc, fc.OK := by
    refine (encoderFit_ok hmb3 ⟨_, o.henc, ?_⟩).2.1
    cases hD : a.X with
    | frame X => rw [hD] at hX; exact ⟨_, hX.2⟩
    | array k X => exact hk k X hD
  have h63 := encoderFit_small hmb3 hmb hn.2 hX hsm o.henc
  obtain ⟨π, hπ, htr⟩ := transform_perm (cv := lib.conv) (cfg := s.self.encCfg lib a.nRows o.ic) hP hOK h63
  have hR : ∀ j fc, encP[j]? = some fc → Renamable (ch j) fc := by
    intro j fc hfc
    obtain ⟨hj, -⟩ := List.getElem?_eq_some_iff.1 hfc
    have hj' : j < o.enc.length := by rw [← hP.len]; exact hj
    rcases hcol j _ (List.getElem?_eq_getElem hj') with h | ⟨⟨cs, h1⟩, h2⟩
    · exact .inl h
    · refine .inr ⟨h2.inj, ?_⟩
      rcases hP.col j _ fc (List.getElem?_eq_getElem hj') hfc with h | ⟨cs, cs', -, h, -⟩
      · exact ⟨cs, h.trans h1⟩
      · exact ⟨cs', h⟩
  have hnames : ∀ (N' : Type) (n : Nat) (E : Dataset N' V), GoodInput n E → DistinctNames E := by
    intro N' n E hE
    cases E with
    | frame X => exact hE.1
    | array k X => trivial
  have hisc : (encP.mapIdx fun j fc => fc.rename (ch j)).map FitCol.isCat = o.enc.map FitCol.isCat := by
    rw [← hP.isCat]
    refine List.ext_getElem (by simp) fun j h1 h2 => by simp [FitCol.isCat_rename]
  -- the training data
  have ht := htr N lib.words a.nRows a.X hn.1 hX
  rw [o.hfba] at ht
  cases hfba' : encoderTransform lib.conv (s.self.encCfg lib a.nRows o.ic) encP lib.words a.nRows a.X with
  | error e => rw [hfba'] at ht; exact ht.elim
  | ok fba' =>
    rw [hfba'] at ht
    obtain ⟨hb, hr⟩ := ht
    have hg := growTrees_perm (lib := lib) hT a.nRows s.self o.mf hπ hb hr (seedsOf lib s.self s.np).1
      (depthsOf lib a.randomizedDepth (s.self.maxDepth.getD (2 ^ 64 - 1)) (seedsOf lib s.self s.np).1.length
        (subsetOf lib s.self a.nRows (seedsOf lib s.self s.np).2).2).1
    rw [o.htrees] at hg
    cases htrees' : growTrees lib a.nRows p s.self o.mf (o.enc.map FitCol.isCat) fba' (seedsOf lib s.self s.np).1
      (depthsOf lib a.randomizedDepth (s.self.maxDepth.getD (2 ^ 64 - 1)) (seedsOf lib s.self s.np).1.length
        (subsetOf lib s.self a.nRows (seedsOf lib s.self s.np).2).2).1 with
    | error e => rw [htrees'] at hg; exact hg.elim
    | ok trees' =>
      rw [htrees'] at hg
      refine ⟨π, some (s.self.encCfg lib a.nRows o.ic, encP.mapIdx fun j fc => fc.rename (ch j)), trees', ?_, hg, fun N' _ n E hpos hE => ?_⟩
      · let o' : Outcome lib { a with X := rename ch a.X } p s.self s.np :=
          { mf := o.mf, ic := o.ic, enc := encP.mapIdx fun j fc => fc.rename (ch j), fba := fba', trees := trees'
            hmf := by simp only [nCols_rename]; exact o.hmf
            hrs := o.hrs
            hic := by simp only [nCols_rename]; exact o.hic
            hacc := o.hacc
            henc := hfit
            hfba := (encoderTransform_rename (hnames _ _ _ hX) hR).trans hfba'
            htrees := by rw [hisc]; exact htrees' }
        rw [fitRest_ok o']
        simp only [Outcome.est, nCols_rename]
        rw [show o'.enc.map FitCol.isCat = o.enc.map FitCol.isCat from hisc]
        rfl
      · simp only [Est.encode, Outcome.est]
        rw [encoderTransform_rename (hnames _ _ _ hE) hR]
        exact (htr N' lib.words n E hpos hE).mono fun _ _ h => h.1

theorem prepClassifier_task {lib : Lib V K F G W} {a : FitArgs N V} {y : List L} {sw : List F} {s s' : World L V K F (List F) G W}
    {p : FitData F (List F) (List F) G} (h : prepClassifier lib a y sw s = (.ok p, s')) :
    ∃ k c st, ∀ d, p.task d = classifierTask lib.rng lib.argsort k d c st := by
  unfold prepClassifier at h
  obtain ⟨ys, t1, -, h⟩ := Py.bind_inv h
  obtain ⟨e, t2, -, h⟩ := Py.bind_inv h
  obtain ⟨_, t3, -, h⟩ := Py.bind_inv h
  obtain ⟨_, t4, -, h⟩ := Py.bind_inv h
  obtain ⟨_, t5, -, h⟩ := Py.bind_inv h
  have := (Prod.mk.inj h).1
  obtain rfl := Except.ok.inj this
  exact ⟨_, _, _, fun d => rfl⟩

/-- `fit` looks at the dataset only in its second half; the task. -/
theorem fitClassifier_split {lib : Lib V K F G W} {a : FitArgs N V} {y : List L} {s s' : World L V K F (List F) G W}
    (h : fitClassifier lib a y s = (.ok (), s')) :
    ∃ (p : FitData F (List F) (List F) G) (s1 : World L V K F (List F) G W), encSettings s1 = encSettings s ∧ fitRest lib a p s1 = (.ok (), s') ∧
      (∃ k c st, ∀ d, p.task d = classifierTask lib.rng lib.argsort k d c st) ∧
      ∀ X : Dataset N V, fitClassifier lib { a with X := X } y s = fitRest lib { a with X := X } p s1 := by
  unfold fitClassifier at h
  obtain ⟨sw, t1, h1, h⟩ := Py.bind_inv h
  obtain ⟨p, t2, h2, h⟩ := Py.bind_inv h
  have k1 := fitChecks_settings (L := L) (K := K) (P := List F) (G := G) (W := W) a y.length s
  have k2 := prepClassifier_settings lib a y sw t1
  rw [h1] at k1
  rw [h2] at k2
  refine ⟨p, t2, k2.trans k1, h, prepClassifier_task h2, fun X => ?_⟩
  unfold fitClassifier
  rw [Py.bind_of_ok (s' := t1) (a := sw) (by exact h1), Py.bind_of_ok (s' := t2) (a := p) (by exact h2)]

theorem fitRegressor_split {lib : Lib V K F G W} {a : FitArgs N V} {y : List F} {s s' : World L V K F F G W}
    (h : fitRegressor lib a y s = (.ok (), s')) :
    ∃ (p : FitData F (F × F) F G) (s1 : World L V K F F G W), encSettings s1 = encSettings s ∧ fitRest lib a p s1 = (.ok (), s') ∧
      (∀ d, p.task d = regressorTask lib.argsort) ∧
      ∀ X : Dataset N V, fitRegressor lib { a with X := X } y s = fitRest lib { a with X := X } p s1 := by
  unfold fitRegressor at h
  obtain ⟨sw, t1, h1, h⟩ := Py.bind_inv h
  obtain ⟨p, t2, h2, h⟩ := Py.bind_inv h
  have k1 := fitChecks_settings (L := L) (K := K) (P := F) (G := G) (W := W) a y.length s
  rw [h1] at k1
  cases h2
  refine ⟨_, t1, k1, h, fun d => rfl, fun X => ?_⟩
  unfold fitRegressor
  rw [Py.bind_of_ok (s' := t1) (a := sw) (by exact h1)]
  rfl

end
end Verif.Bins
