import Verif.Proofs.Estimator

/-! `fit` succeeds on valid data; the trees of a fitted estimator. -/
set_option linter.unusedSectionVars false
namespace Verif

open Spec

section
variable {L V K F Y P G W N : Type} [LinearOrder L] [DecidableEq V] [DecidableEq N] [LinearOrder K] [Field K] [IsStrictOrderedRing K]
  [FloorSemiring K] [Num F]

/-- The dataset of encoded rows. -/
def encData (fba : FBA) (y w : List F) : Data F where
  n := fba.nSamples
  d := fba.nFeatures
  X i j := match fba.getValue i j with | .ok v => v | .error _ => 0
  y i := y.getD i Num.zero
  w i := w.getD i Num.zero

/-- What is known of the encoded training data. -/
structure EncodedOK (n d : Nat) (fba : FBA) : Prop where
  rows : fba.nSamples = n
  cols : fba.nFeatures = d
  value : ∀ i j, i < n → j < d → ∃ v, fba.getValue i j = .ok v ∧ v < colMax fba.maxValues + 1

theorem encoded_ok {cv : Conv V K} {cfg : EncCfg K} (hm : 1 ≤ cfg.maxBins) {N' : Type} {D0 : Dataset N' V} {enc : List (FitCol V K)}
    (hF : FittedOn cv cfg D0 enc) (h63 : ∀ fc ∈ enc, fc.nBins < 2 ^ 63) {n : Nat} (hn : 0 < n) {D : Dataset N V} (hD : GoodInput n D)
    (g : Nat → Word) (hA : Acceptable cv cfg enc D) :
    ∃ fba, encoderTransform cv cfg enc g n D = .ok fba ∧ EncodedOK n enc.length fba := by
  obtain ⟨_, hok, _⟩ := encoderFit_ok hm hF
  obtain ⟨fba, hb⟩ := encoderTransform_total g hok h63 hn hD hA
  obtain ⟨h1, h2, _, _, h5, h6, h7⟩ := encoderTransform_ok hok h63 hn hD hb
  refine ⟨fba, hb, h1, h2, fun i j hi hj => ?_⟩
  obtain ⟨c, hc⟩ := h6 i j hj hi
  obtain ⟨_, fc, v, _, _, hv, hle⟩ := h7 i j c hc
  have hjm : j < fba.maxValues.length := by omega
  have := hle _ (List.getElem?_eq_getElem hjm)
  have := le_colMax _ _ (List.getElem_mem hjm)
  exact ⟨v, hv, by omega⟩

theorem EncodedOK.holds {n d : Nat} {c : Ctx F} (h : EncodedOK n d c.fba) (hy : c.y.length = n) (hw : c.w.length = n)
    (hc : c.isCategorical.length = d) : Holds c (encData c.fba c.y c.w) where
  n := rfl
  d := rfl
  value := fun i j hi hj => by
    obtain ⟨v, hv, _⟩ := h.value i j (hi.trans_eq h.rows) (hj.trans_eq h.cols)
    simp [encData, hv]
  bound := fun i j hi hj => by
    obtain ⟨v, hv, hlt⟩ := h.value i j (hi.trans_eq h.rows) (hj.trans_eq h.cols)
    simp only [encData, hv]
    exact hlt
  y := fun i hi => by
    have : i < c.y.length := by rw [hy]; exact hi.trans_eq h.rows
    simp [encData, this]
  w := fun i hi => by
    have : i < c.w.length := by rw [hw]; exact hi.trans_eq h.rows
    simp [encData, this]
  cat := by rw [hc]; exact h.cols.symm

/-- The labels and weights for all `m` trees are there. -/
def FitDataOK (p : FitData F Y P G) (lab : F → Prop) (nEst n m : Nat) (okW : List F → Prop) : Prop :=
  ∀ i, i < m → ∃ y w, p.ys[if p.ovr then i / nEst else 0]? = some y ∧ p.ws[if p.ovr then i / nEst else 0]? = some w ∧
    y.length = n ∧ w.length = n ∧ (∀ v ∈ y, lab v) ∧ okW w

theorem _root_.Verif.Spec.ParamsValid.binsPos {e : Est L V K F P G} {d : Nat} (h : ParamsValid e d) : 1 ≤ e.maxBins :=
  le_trans (by omega) h.bins.1

theorem _root_.Verif.Spec.ParamsValid.accepts {e : Est L V K F P G} {d : Nat} (h : ParamsValid e d) : e.encoderAccepts = true :=
  encoderAccepts_iff.2 ⟨h.bins.1, h.encoding⟩

theorem maxFeatures_ok {e : Est L V K F P G} {d : Nat} (hd : 1 ≤ d) (h : ParamsValid e d) :
    ∃ mf, getMaxFeatures e.maxFeatures d = .ok mf ∧ 1 ≤ mf ∧ mf ≤ d := by
  rcases C12_max_features _ _ d hd h.accepted with h1 | ⟨_, ⟨i, hi, hlt⟩ | h2⟩
  · exact h1
  · exact absurd (h.inRange.1 i hi) (by omega)
  · exact absurd h2 h.inRange.2

/-- One tree: the context that its construction uses is valid. -/
theorem tree_input {n d : Nat} {fba : FBA} (hE : EncodedOK n d fba) {c : Ctx F} (hc : c.fba = fba) {lab : F → Prop}
    (hy : c.y.length = n) (hw : c.w.length = n) (hl : ∀ v ∈ c.y, lab v) (hcat : c.isCategorical.length = d)
    (hmf : 1 ≤ c.maxFeatures ∧ c.maxFeatures ≤ d) (hms : 1 ≤ c.minSplit) : ForestInput c (encData fba c.y c.w) lab := by
  subst hc
  refine ⟨hE.holds hy hw hcat, ⟨⟨hmf.1, by rw [show (encData c.fba c.y c.w).d = d from hE.cols]; exact hmf.2⟩, hms⟩, fun i hi => hl _ ?_⟩
  have : i < c.y.length := by rw [hy]; exact hi.trans_eq hE.rows
  simp [encData, this]

/-- What is known of a fitted estimator. -/
structure FitFacts (lib : Lib V K F G W) (a : FitArgs N V) (p : FitData F Y P G) (lab : F → Prop) (okW : List F → Prop)
    (e e' : Est L V K F P G) : Prop where
  fitted : e'.fitted = true
  nTrees : e'.trees.length = if e.ovr then e.nEstimators * e.nClasses else e.nEstimators
  encoder : ∃ cfg enc, e'.encoder = some (cfg, enc) ∧ FittedOn lib.conv cfg a.X enc ∧ 1 ≤ cfg.maxBins ∧ (∀ fc ∈ enc, fc.nBins < 2 ^ 63) ∧
    enc.length = nCols a.X ∧ e'.isCategorical_ = enc.map FitCol.isCat ∧ Acceptable lib.conv cfg enc a.X
  trees : ∀ o ∈ e'.trees, ∃ (c : Ctx F) (gb : Garbage F) (seed : Nat) (D : Data F), ForestInput c D lab ∧ c.w.length = D.n ∧ D.n = a.nRows ∧
    D.d = nCols a.X ∧ okW c.w ∧ D.w = (fun i => c.w.getD i Num.zero) ∧ (∃ y ∈ p.ys, D.y = fun i => y.getD i Num.zero) ∧
    buildTree lib.rng p.task (lib.boot a.nRows) lib.frames c gb e.dirichlet seed = .ok o
  indexed : ∃ train, e'.encode lib a.nRows a.X = .ok train ∧ train.nSamples = a.nRows ∧ train.nFeatures = nCols a.X ∧ ∀ (i : Nat) (o : TreeObj F P G), e'.trees[i]? = some o →
    ∃ (c : Ctx F) (gb : Garbage F) (seed : Nat) (y w : List F), e'.seeds[i]? = some seed ∧ p.ys[if p.ovr then i / e.nEstimators else 0]? = some y ∧
      p.ws[if p.ovr then i / e.nEstimators else 0]? = some w ∧ y.length = a.nRows ∧ w.length = a.nRows ∧ c.w = w ∧ c.aggregation = e.aggregation ∧
      c.step = e.step ∧ ForestInput c (encData train y w) lab ∧
      buildTree lib.rng p.task (lib.boot a.nRows) lib.frames c gb e.dirichlet seed = .ok o

/-- Tree `i` of the forest is built with seed and depth number `i`. -/
theorem growTrees_getElem? {lib : Lib V K F G W} {n : Nat} {p : FitData F Y P G} {e : Est L V K F P G} {mf : Nat} {isCat : List Bool} {fba : FBA}
    {seeds depths : List Nat} {trees : List (TreeObj F P G)} (h : growTrees lib n p e mf isCat fba seeds depths = .ok trees) {i : Nat} {o : TreeObj F P G}
    (hi : trees[i]? = some o) :
    ∃ seed depth y w, seeds[i]? = some seed ∧ depths[i]? = some depth ∧ p.ys[if p.ovr then i / e.nEstimators else 0]? = some y ∧
      p.ws[if p.ovr then i / e.nEstimators else 0]? = some w ∧
      buildTree lib.rng p.task (lib.boot n) lib.frames
        { fba := fba, y := y, w := w, maxFeatures := mf, minSplit := e.minSplit, minLeaf := e.minLeaf, maxDepth := depth, aggregation := e.aggregation,
          step := e.step, isCategorical := isCat } (lib.garbage i) e.dirichlet seed = .ok o := by
  unfold growTrees at h
  have h := mapM_eq_ok.1 h
  obtain ⟨hlt, rfl⟩ := List.getElem?_eq_some_iff.1 hi
  have hl := h.length_eq
  have hx := h.get (i := i) (by omega) hlt
  simp only [List.get_eq_getElem, List.getElem_zipIdx, List.getElem_zip, Nat.zero_add] at hx
  rw [bind_eq_ok] at hx
  obtain ⟨y, hy, hx⟩ := hx
  rw [bind_eq_ok] at hx
  obtain ⟨w, hw, hx⟩ := hx
  rw [rd_ok] at hy hw
  exact ⟨_, _, y, w, List.getElem?_eq_getElem _, List.getElem?_eq_getElem _, hy, hw, hx⟩

theorem fit_outcome {lib : Lib V K F G W} {a : FitArgs N V} {p : FitData F Y P G} {e : Est L V K F P G} {np : W} {w0 : World L V K F P G W}
    {k : Nat} {lab : F → Prop} {okY : Y → Prop} {okP : P → Prop} {okW : List F → Prop}
    (hlib : LibOK lib a.nRows) (hp : ParamsValid e (nCols a.X)) (hd : DataValid lib.conv a w0 k)
    (hT : TaskSafe (p.task e.dirichlet) lab okY okP)
    (hprep : FitDataOK p lab e.nEstimators a.nRows (if e.ovr then e.nEstimators * e.nClasses else e.nEstimators) okW) :
    ∃ o : Outcome lib a p e np, FitFacts lib a p lab okW e o.est := by
  obtain ⟨mf, hmf, hmf1, hmf2⟩ := maxFeatures_ok hd.columns hp
  obtain ⟨ic, hic, hfit⟩ := hd.fittable
  obtain ⟨enc, henc, hF, h63, hA⟩ := encoderFit_total (cv := lib.conv) (cfg := e.encCfg lib a.nRows ic)
    (subset := (subsetOf lib e a.nRows (seedsOf lib e np).2).1) (n := a.nRows) hp.binsPos hp.bins.2 hd.rows.2 hd.good hd.small
    (fun m hm => getIsCategorical_length (hic.trans (by rw [← hm]; rfl))) (subsetOf_lt hlib e _) hfit
  obtain ⟨hlen, _⟩ := encoderFit_ok (cfg := e.encCfg lib a.nRows ic) hp.binsPos hF
  obtain ⟨fba, hfba, hE⟩ := encoded_ok (cfg := e.encCfg lib a.nRows ic) hp.binsPos hF h63 hd.rows.1 hd.good lib.words hA
  rw [hlen] at hE
  have hseeds := seedsOf_length hlib e np
  have htree : ∀ x ∈ ((seedsOf lib e np).1.zip (depthsOf lib a.randomizedDepth (e.maxDepth.getD (2 ^ 64 - 1)) (seedsOf lib e np).1.length
      (subsetOf lib e a.nRows (seedsOf lib e np).2).2).1).zipIdx, ∃ y w, rd p.ys (if p.ovr then x.2 / e.nEstimators else 0) = .ok y ∧
      rd p.ws (if p.ovr then x.2 / e.nEstimators else 0) = .ok w ∧ y.length = a.nRows ∧ w.length = a.nRows ∧ (∀ v ∈ y, lab v) ∧ okW w := by
    intro x hx
    have hlt : x.2 < (seedsOf lib e np).1.length := by
      have := (List.mem_zipIdx hx).2.1
      simp only [Nat.zero_add, List.length_zip, depthsOf_length, Nat.min_self] at this
      exact this
    obtain ⟨y, w, h1, h2, h3⟩ := hprep x.2 (by rw [← hseeds]; exact hlt)
    exact ⟨y, w, rd_ok.2 h1, rd_ok.2 h2, h3⟩
  obtain ⟨trees, htrees⟩ : ∃ trees, growTrees lib a.nRows p e mf (enc.map FitCol.isCat) fba (seedsOf lib e np).1
      (depthsOf lib a.randomizedDepth (e.maxDepth.getD (2 ^ 64 - 1)) (seedsOf lib e np).1.length
      (subsetOf lib e a.nRows (seedsOf lib e np).2).2).1 = .ok trees := by
    unfold growTrees
    refine mapM_total fun x hx => ?_
    obtain ⟨y, w, h1, h2, h3, h4, h5, _⟩ := htree x hx
    obtain ⟨b, hb⟩ := hlib.returns x.1.1
    have hin := tree_input hE (c := { fba := fba, y := y, w := w, maxFeatures := mf, minSplit := e.minSplit, minLeaf := e.minLeaf, maxDepth := x.1.2, aggregation := e.aggregation, step := e.step, isCategorical := enc.map FitCol.isCat })
      rfl h3 h4 h5 (by simp [hlen]) ⟨hmf1, hmf2⟩ hp.minSplit
    obtain ⟨o, ho⟩ := buildTree_ok (R := lib.rng) (T := p.task) (draw := lib.boot a.nRows) (depth := lib.frames) (seed := x.1.1) hT hin
      (h4.trans hE.rows.symm) (lib.garbage x.2) (b := b)
      (by rw [show (encData fba y w).n = a.nRows from hE.rows]; exact (genTV_ok hlib.boot _ _ _ hb).1)
      (by rw [show (encData fba y w).n = a.nRows from hE.rows]; exact hb)
    refine ⟨o, ?_⟩
    simp only [h1, h2, bind_ok]
    exact ho
  refine ⟨⟨mf, ic, enc, fba, trees, hmf, hp.state, hic, hp.accepts, henc, hfba, htrees⟩, rfl, ?_, ?_, ?_, ?_⟩
  · change trees.length = _
    have := (mapM_eq_ok.1 htrees).length_eq
    rw [← this]
    simp [depthsOf_length, hseeds]
  · exact ⟨_, enc, rfl, hF, hp.binsPos, h63, hlen, rfl, hA⟩
  · intro o ho
    obtain ⟨x, hx, hb⟩ := mapM_mem_inv htrees ho
    obtain ⟨y, w, h1, h2, h3, h4, h5, h6⟩ := htree x hx
    simp only [h1, h2, bind_ok] at hb
    exact ⟨_, _, x.1.1, encData fba y w, tree_input hE rfl h3 h4 h5 (by simp [hlen]) ⟨hmf1, hmf2⟩ hp.minSplit, h4.trans hE.rows.symm, hE.rows, hE.cols,
      h6, rfl, ⟨y, List.mem_of_getElem? (rd_ok.1 h1), rfl⟩, hb⟩
  · refine ⟨fba, hfba, hE.rows, hE.cols, fun i o hi => ?_⟩
    obtain ⟨seed, depth, y, w, h1, -, h3, h4, h5⟩ := growTrees_getElem? htrees hi
    have hlt : i < (seedsOf lib e np).1.length := (List.getElem?_eq_some_iff.1 h1).1
    obtain ⟨y', w', g1, g2, g3, g4, g5, -⟩ := hprep i (by rw [← hseeds]; exact hlt)
    have hy' : y' = y := by have := g1.symm.trans h3; injection this
    have hw' : w' = w := by have := g2.symm.trans h4; injection this
    subst hy' hw'
    exact ⟨_, _, seed, y', w', h1, h3, h4, g3, g4, rfl, rfl, rfl, tree_input hE rfl g3 g4 g5 (by simp [hlen]) ⟨hmf1, hmf2⟩ hp.minSplit, h5⟩

/-- Encoding rows to predict with a fitted estimator. -/
theorem FitFacts.encode {lib : Lib V K F G W} {a : FitArgs N V} {p : FitData F Y P G} {lab : F → Prop} {okW : List F → Prop}
    {e e' : Est L V K F P G} (h : FitFacts lib a p lab okW e e') {N' : Type} [DecidableEq N'] {n : Nat} (hn : 0 < n) {X : Dataset N' V}
    (hX : GoodInput n X) (hA : ∀ cfg enc, e'.encoder = some (cfg, enc) → Acceptable lib.conv cfg enc X) :
    ∃ fba, e'.encode lib n X = .ok fba ∧ fba.nSamples = n ∧ RowsOK fba (nCols a.X) := by
  obtain ⟨cfg, enc, he, hF, hm, h63, hlen, _⟩ := h.encoder
  obtain ⟨fba, hb, hE⟩ := encoded_ok hm hF h63 hn hX lib.words (hA _ _ he)
  refine ⟨fba, by simp only [Est.encode, he]; exact hb, hE.rows, fun i hi j hj => ?_⟩
  obtain ⟨v, hv, _⟩ := hE.value i j (by rw [← hE.rows]; exact hi) (by omega)
  exact ⟨v, hv⟩

/-! ## Classes -/

theorem mem_sortedUnique {y : List L} {l : L} : l ∈ sortedUnique y ↔ l ∈ y := by
  unfold sortedUnique
  rw [List.mem_insertionSort, List.mem_dedup]

theorem sortedUnique_length (y : List L) : (sortedUnique y).length = y.dedup.length := by
  unfold sortedUnique
  exact List.length_insertionSort _ _

theorem sortedUnique_sorted (y : List L) : (sortedUnique y).Pairwise (· < ·) := by
  have h1 : (sortedUnique y).Pairwise (· ≤ ·) := List.pairwise_insertionSort _ _
  have h2 : (sortedUnique y).Nodup := (List.perm_insertionSort (· ≤ ·) y.dedup).nodup_iff.2 (List.nodup_dedup y)
  exact (h1.and h2).imp fun h => lt_of_le_of_ne h.1 h.2

theorem labelCodes_lt {y : List L} : ∀ v ∈ labelCodes (sortedUnique y) y, v < (sortedUnique y).length := by
  intro v hv
  obtain ⟨l, hl, rfl⟩ := List.mem_map.1 hv
  exact List.idxOf_lt_length_iff.2 (mem_sortedUnique.2 hl)

/-- Small natural numbers are represented exactly. -/
theorem codes_prep {lib : Lib V K F G W} {e : Est L V K F (List F) G} {y : List L} {sw : List F} {n : Nat} (hy : y.length = n)
    (hsw : sw.length = n) (hF : ∀ k, k < max 2 (sortedUnique y).length → Num.toNat (Num.ofNat k : F) = k) {okW : List F → Prop}
    (hW : ∀ w ∈ classWeights e y sw, okW w) :
    FitDataOK (preparedOf lib e y sw) (ClassLabel (if staysOvr e y then 2 else (sortedUnique y).length)) e.nEstimators n
      (if staysOvr e y then e.nEstimators * (sortedUnique y).length else e.nEstimators) okW := by
  intro i hi
  have hk : (if staysOvr e y then i / e.nEstimators else 0) < (codesOf e y).length := by
    unfold codesOf
    split
    · rename_i h
      rw [if_pos h] at hi
      simp only [List.length_map, List.length_range]
      exact Nat.div_lt_of_lt_mul hi
    · simp
  have hwl : (classWeights e y sw).length = (codesOf e y).length := by unfold classWeights; split <;> simp
  have hcl : ∀ c ∈ codesOf e y, c.length = n := by
    intro c hc
    unfold codesOf at hc
    split at hc
    · obtain ⟨k, _, rfl⟩ := List.mem_map.1 hc; simp [oneHot, hy]
    · rw [List.mem_singleton] at hc; subst hc; simp [labelCodes, hy]
  have hcv : ∀ c ∈ codesOf e y, ∀ v ∈ c, v < if staysOvr e y then 2 else (sortedUnique y).length := by
    intro c hc v hv
    unfold codesOf at hc
    split at hc
    · obtain ⟨k, _, rfl⟩ := List.mem_map.1 hc
      obtain ⟨l, _, rfl⟩ := List.mem_map.1 hv
      simp only [*, if_true]
      split <;> omega
    · rw [List.mem_singleton] at hc; subst hc
      simp only [*]
      exact labelCodes_lt v hv
  have hm := List.getElem_mem hk
  refine ⟨((codesOf e y)[if staysOvr e y then i / e.nEstimators else 0]).map Num.ofNat,
    (classWeights e y sw)[if staysOvr e y then i / e.nEstimators else 0]'(by omega), ?_, ?_, ?_, ?_, ?_, ?_⟩
  · change ((codesOf e y).map fun y => y.map (Num.ofNat : Nat → F))[if staysOvr e y then i / e.nEstimators else 0]? = _
    rw [List.getElem?_map, List.getElem?_eq_getElem hk]
    rfl
  · simp only [preparedOf]
    exact List.getElem?_eq_getElem _
  · simp [hcl _ hm]
  · have hm2 : (classWeights e y sw)[if staysOvr e y then i / e.nEstimators else 0]'(by omega) ∈ classWeights e y sw := List.getElem_mem _
    revert hm2
    generalize (classWeights e y sw)[if staysOvr e y then i / e.nEstimators else 0]'(by omega) = w
    intro hm2
    unfold classWeights at hm2
    split at hm2
    · obtain ⟨c, hc, rfl⟩ := List.mem_map.1 hm2
      simp [balancedWeights, hcl c hc, hsw]
    · obtain ⟨c, hc, rfl⟩ := List.mem_map.1 hm2
      exact hsw
  · intro v hv
    obtain ⟨k, hk', rfl⟩ := List.mem_map.1 hv
    have := hcv _ hm k hk'
    unfold ClassLabel
    rw [hF k (by split at this <;> omega)]
    exact this
  · exact hW _ (List.getElem_mem _)

end

end Verif
