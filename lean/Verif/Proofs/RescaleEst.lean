import Verif.Proofs.RescaleTask
import Verif.Proofs.EstEnd
import Verif.Model.Inspect

set_option linter.unusedSectionVars false

/-! Fitted estimators in lockstep, see Proofs/Rescale.lean. -/
namespace Verif

open Spec

section
variable {Y P G : Type} {T T' : ℝ → Task ℝ Y P G} {d d' : ℝ}

theorem bootWeights_sim (κ : ℝ) (b : Boot) (w : List ℝ) :
    SameResult (fun x y => y = x.map (κ * ·)) (bootWeights b w) (bootWeights b (w.map (κ * ·))) := by
  unfold bootWeights
  refine SameResult.foldlM (fun s s' p hs => ?_) rfl
  rw [hs]
  refine (rd_map_sim _).bind ?_
  rintro x _ ⟨rfl, -⟩
  refine (wr_sim (by simp)).mono ?_
  rintro a b ⟨rfl, rfl, -⟩
  rw [List.map_set, show Num.mul (κ * x) (Num.ofNat p.2) = κ * Num.mul x (Num.ofNat p.2) from mul_assoc _ _ _]

theorem bootWeights_mul {b : Boot} {w w' : List ℝ} (h : bootWeights b w = .ok w') {i : Nat} {v : ℝ} (hv : w'[i]? = some v) :
    ∃ (u : ℝ) (m : Nat), w[i]? = some u ∧ v = u * m := by
  have key : ∀ (l : List (Nat × Nat)) (s : List ℝ), (∀ (i : Nat) v, s[i]? = some v → ∃ (u : ℝ) (m : Nat), w[i]? = some u ∧ v = u * m) →
      ∀ t, l.foldlM (fun w p => do
        let x ← rd w p.1
        wr w p.1 (Num.mul x (Num.ofNat p.2))) s = .ok t → ∀ (i : Nat) v, t[i]? = some v → ∃ (u : ℝ) (m : Nat), w[i]? = some u ∧ v = u * m := by
    intro l
    induction l with
    | nil => intro s hs t ht; cases ht; exact hs
    | cons p l ih =>
      intro s hs t ht
      rw [List.foldlM_cons, bind_eq_ok] at ht
      obtain ⟨s1, h1, h2⟩ := ht
      refine ih s1 ?_ t h2
      rw [bind_eq_ok] at h1
      obtain ⟨x, hx, h1⟩ := h1
      unfold wr at h1
      split at h1
      · obtain rfl := Except.ok.inj h1
        intro i v hv
        by_cases hi : p.1 = i
        · subst hi
          rw [List.getElem?_set_self (by assumption)] at hv
          obtain ⟨u, m, h3, h4⟩ := hs _ _ (rd_ok.1 hx)
          refine ⟨u, m * p.2, h3, ?_⟩
          rw [← Option.some.inj hv, h4]
          show u * m * ((p.2 : Nat) : ℝ) = _
          push_cast
          ring
        · rw [List.getElem?_set_ne hi] at hv
          exact hs _ _ hv
      · cases h1
  exact key _ w (fun i v h => ⟨v, 1, h, by simp⟩) w' h i v hv

/-- Two trees with related predictions and the same leaves. -/
structure TreesSim (RF : P → P → Prop) (mix : ℝ → P → P → P) (o o' : TreeObj ℝ P G) : Prop where
  predict : ∀ fba, SameResult (List.Forall₂ RF) (o.predict mix fba) (o'.predict mix fba)
  leaves : ∀ fba i, findLeaf o'.arr fba i = findLeaf o.arr fba i

theorem buildTree_sim {R : Rng G} {draw : Nat → List Nat} {depth : Nat} {c c' : Ctx ℝ} {D : Data ℝ} {lab : ℝ → Prop} {gb : Garbage ℝ} {seed : Nat}
    {o : TreeObj ℝ P G} (S : TaskSim (T d) (T' d')) {RF : P → P → Prop} (hRF : ∀ w p p', S.NZ w → S.RP w p p' → RF p p')
    {mix : ℝ → P → P → P} (hmix : ∀ x a a' b b', RF a a' → RF b b' → RF (mix x a b) (mix x a' b')) (hT : ValidTask (T d) lab)
    (hc : CtxR S c c') (ho : (∀ b ∈ c.isCategorical, b = false) ∨ SameOrders S) (hstep : c'.step * S.lam = c.step)
    (hd : DrawsOK D.n draw) (h : ForestInput c D lab) (hlen : c.w.length = D.n)
    (hpos : (∀ x, S.NZ x) ∨ (∀ i, i < D.n → 0 < D.w i) ∧ ∀ x, x ≠ 0 → S.NZ x)
    (hb : buildTree R T draw depth c gb d seed = .ok o) :
    ∃ o', buildTree R T' draw depth c' gb d' seed = .ok o' ∧ TreesSim RF mix o o' := by
  obtain ⟨b, w, hg, hB⟩ := buildTree_boot hd h hlen hb
  have hw := bootWeights_sim S.κ b c.w
  rw [hB.weights] at hw
  cases hw' : bootWeights b (c.w.map (S.κ * ·)) with
  | error e => rw [hw'] at hw; exact hw.elim
  | ok w' =>
    rw [hw'] at hw
    have hw : w' = w.map (S.κ * ·) := hw
    obtain ⟨okP, t, hF⟩ := fit_facts hT hB.input hB.fit
    have hc2 : CtxR S { c with w := w } { c' with w := w' } := by
      refine ⟨?_, hc.len, fun {i l l'} h1 h2 {v} hv => ?_⟩
      swap
      · obtain ⟨u, m, hu, rfl⟩ := bootWeights_mul hB.weights hv
        exact S.mulL (hc.labels h1 h2 hu) m
      conv_lhs => rw [hc.eq]
      rw [hw]
    obtain ⟨arr', h1, h2⟩ := fitTree_sim S (RF := RF) hRF hc2 ho hstep hF (hpos.imp id fun h => ⟨boot_weight_pos hB.part h.1, h.2⟩) hB.fit
    refine ⟨{ arr := arr', aggregation := c'.aggregation, step := c'.step, dirichlet := d', ctx := some { c' with w := w' }, work := o.work }, ?_, ?_, ?_⟩
    · unfold buildTree
      rw [show c'.fba.nSamples = D.n by rw [hc.eq]; exact h.holds.n, hg, bind_ok, show c'.w = c.w.map (S.κ * ·) by rw [hc.eq], hw', bind_ok]
      unfold TreeObj.fit
      rw [h1]
      rfl
    · intro fba
      unfold TreeObj.predict
      simp only
      rw [hB.agg, hB.step, show c'.aggregation = c.aggregation by rw [hc.eq]]
      exact treePredict_sim S hF h2 hstep hmix fba c.aggregation
    · exact fun fba i => (findLeaf_same S h2 fba i).symm

end

section
variable {L V K Y P G W N : Type} [LinearOrder L] [DecidableEq V] [DecidableEq N] [LinearOrder K] [Field K] [IsStrictOrderedRing K]
  [FloorSemiring K]

/-- The second half of `fit`, for two tasks in lockstep. -/
theorem rest_sim {lib : Lib V K ℝ G W} {a : FitArgs N V} {p p' : FitData ℝ Y P G} {e : Est L V K ℝ P G} {st di : ℝ} {cl : List L} {np : W} {lab : ℝ → Prop}
    {okW : List ℝ → Prop} (o : Outcome lib a p e np) (o' : Outcome lib a p' { e with step := st, dirichlet := di, classes := cl } np) (hf : FitFacts lib a p lab okW e o.est)
    (hlib : LibOK lib a.nRows) (hp : ParamsValid e (nCols a.X)) {w0 : World L V K ℝ P G W} {k : Nat} (hd : DataValid lib.conv a w0 k)
    (S : TaskSim (p.task e.dirichlet) (p'.task di))
    (hprep : FitDataOK p lab e.nEstimators a.nRows (if e.ovr then e.nEstimators * e.nClasses else e.nEstimators)
      (fun w => (∀ x, S.NZ x) ∨ (∀ v ∈ w, 0 < v) ∧ ∀ x, x ≠ 0 → S.NZ x))
    (hovr : p'.ovr = p.ovr)
    (hys : ∀ (i : Nat) y y' w, p.ys[i]? = some y → p'.ys[i]? = some y' → p.ws[i]? = some w → y'.length = y.length ∧
      ∀ (j : Nat) l l' v, y[j]? = some l → y'[j]? = some l' → w[j]? = some v → S.RL v l l')
    (hws : p'.ws = p.ws.map (List.map (S.κ * ·))) (hT : ValidTask (p.task e.dirichlet) lab)
    (ho : (∀ b ∈ o.est.isCategorical_, b = false) ∨ SameOrders S) (hstep : st * S.lam = e.step)
    {RF : P → P → Prop} (hRF : ∀ w p p', S.NZ w → S.RP w p p' → RF p p')
    {mix : ℝ → P → P → P} (hmix : ∀ x a a' b b', RF a a' → RF b b' → RF (mix x a b) (mix x a' b')) :
    o'.est.encoder = o.est.encoder ∧ List.Forall₂ (TreesSim RF mix) o.est.trees o'.est.trees := by
  have hic : o'.ic = o.ic := Except.ok.inj (o'.hic.symm.trans o.hic)
  have hmf : o'.mf = o.mf := Except.ok.inj (o'.hmf.symm.trans o.hmf)
  have henc : o'.enc = o.enc := by
    have h1 := o'.henc
    rw [hic] at h1
    exact Except.ok.inj (h1.symm.trans o.henc)
  have hfba : o'.fba = o.fba := by
    have h1 := o'.hfba
    rw [hic, henc] at h1
    exact Except.ok.inj (h1.symm.trans o.hfba)
  have ht' := o'.htrees
  rw [hmf, henc, hfba] at ht'
  refine ⟨?_, ?_⟩
  · simp only [Outcome.est, hic, henc]
    rfl
  have hl : o'.trees.length = o.trees.length := by
    rw [← (mapM_eq_ok.1 o.htrees).length_eq, ← (mapM_eq_ok.1 ht').length_eq]
    rfl
  have hE : EncodedOK a.nRows (nCols a.X) o.fba := by
    obtain ⟨cfg, enc, h1, h2, h3, h4, h5, -, h6⟩ := hf.encoder
    have h1 : (e.encCfg lib a.nRows o.ic, o.enc) = (cfg, enc) := Option.some.inj h1
    obtain ⟨h7, h8⟩ := Prod.mk.inj h1
    subst h7 h8
    obtain ⟨fba, g1, g2⟩ := encoded_ok h3 h2 h4 hd.rows.1 hd.good lib.words h6
    have := Except.ok.inj (g1.symm.trans o.hfba)
    rw [← this, ← h5]
    exact g2
  have hcat : (o.enc.map FitCol.isCat).length = nCols a.X := by
    obtain ⟨cfg, enc, h1, -, -, -, h5, -⟩ := hf.encoder
    have h1 : (e.encCfg lib a.nRows o.ic, o.enc) = (cfg, enc) := Option.some.inj h1
    obtain ⟨-, h8⟩ := Prod.mk.inj h1
    rw [List.length_map, h8, h5]
  obtain ⟨mf, hm1, hm2⟩ := maxFeatures_ok hd.columns hp
  have hm : mf = o.mf := Except.ok.inj (hm1.symm.trans o.hmf)
  refine List.forall₂_iff_get.2 ⟨by exact hl.symm, fun i h1 h2 => ?_⟩
  simp only [Outcome.est, List.get_eq_getElem] at h1 h2 ⊢
  obtain ⟨sd, dp, y, w, g1, g2, g3, g4, g5⟩ := growTrees_getElem? o.htrees (List.getElem?_eq_getElem h1)
  obtain ⟨sd', dp', y', w', g1', g2', g3', g4', g5'⟩ := growTrees_getElem? ht' (List.getElem?_eq_getElem h2)
  have e1 : sd' = sd := Option.some.inj (g1'.symm.trans g1)
  have e2 : dp' = dp := Option.some.inj (g2'.symm.trans g2)
  subst e1 e2
  rw [hovr] at g3' g4'
  obtain ⟨hyl, hyR⟩ := hys _ y y' w g3 g3' g4
  have hww : w' = w.map (S.κ * ·) := by
    rw [hws, List.getElem?_map, g4] at g4'
    exact (Option.some.inj g4').symm
  have hlt : i < (if e.ovr then e.nEstimators * e.nClasses else e.nEstimators) := by
    have := hf.nTrees
    simp only [Outcome.est] at this
    omega
  obtain ⟨y1, w1, q1, q2, q3, q4, q5, q6⟩ := hprep i hlt
  have e3 : y1 = y := Option.some.inj (q1.symm.trans g3)
  have e4 : w1 = w := Option.some.inj (q2.symm.trans g4)
  subst e3 e4
  have hin := tree_input hE (c := { fba := o.fba, y := y1, w := w1, maxFeatures := o.mf, minSplit := e.minSplit, minLeaf := e.minLeaf, maxDepth := dp', aggregation := e.aggregation, step := e.step, isCategorical := o.enc.map FitCol.isCat })
      rfl q3 q4 q5 hcat (by rw [← hm]; exact hm2) hp.minSplit
  have hc : CtxR S { fba := o.fba, y := y1, w := w1, maxFeatures := o.mf, minSplit := e.minSplit, minLeaf := e.minLeaf, maxDepth := dp', aggregation := e.aggregation, step := e.step, isCategorical := o.enc.map FitCol.isCat }
      { fba := o.fba, y := y', w := w', maxFeatures := o.mf, minSplit := e.minSplit, minLeaf := e.minLeaf, maxDepth := dp', aggregation := e.aggregation, step := st, isCategorical := o.enc.map FitCol.isCat } := by
    refine ⟨?_, hyl, fun h1 h2 _ h3 => hyR _ _ _ _ h1 h2 h3⟩
    rw [hww]
  obtain ⟨t, ht1, ht2⟩ := buildTree_sim S hRF hmix hT hc ho hstep (by rw [show (encData o.fba y1 w1).n = a.nRows from hE.rows]; exact hlib.boot) hin
    (q4.trans hE.rows.symm) (q6.imp id fun q6 => ⟨fun j hj => by
      have : j < w1.length := by rw [q4, ← hE.rows]; exact hj
      show 0 < w1.getD j Num.zero
      rw [List.getD_eq_getElem?_getD, List.getElem?_eq_getElem this]
      exact q6.1 _ (List.getElem_mem this), q6.2⟩) g5
  have := Except.ok.inj (ht1.symm.trans g5')
  rw [← this]
  exact ht2

/-! ### Forests -/

theorem Forall₂.zipIdx {α β : Type} {R : α → β → Prop} {l : List α} {l' : List β} (h : List.Forall₂ R l l') (k : Nat) :
    List.Forall₂ (fun x y => R x.1 y.1 ∧ y.2 = x.2) (l.zipIdx k) (l'.zipIdx k) := by
  induction h generalizing k with
  | nil => exact .nil
  | cons h _ ih => exact .cons ⟨h, rfl⟩ (ih (k + 1))

theorem foldlM_forall₂ {α β σ : Type} {R : α → β → Prop} {f : σ → α → M σ} {g : σ → β → M σ} (hfg : ∀ s x y, R x y → g s y = f s x) {l : List α}
    {l' : List β} (h : List.Forall₂ R l l') (s : σ) : l'.foldlM g s = l.foldlM f s := by
  induction h generalizing s with
  | nil => rfl
  | cons h _ ih =>
    simp only [List.foldlM_cons]
    rw [hfg _ _ _ h]
    congr 1
    funext s
    exact ih s

theorem mapM_forall₂ {α β σ : Type} {R : α → β → Prop} {f : α → M σ} {g : β → M σ} (hfg : ∀ x y, R x y → g y = f x) {l : List α}
    {l' : List β} (h : List.Forall₂ R l l') : l'.mapM g = l.mapM f := by
  induction h with
  | nil => rfl
  | cons h _ ih => rw [List.mapM_cons, List.mapM_cons, hfg _ _ h, ih]

theorem forall₂_eq {α : Type} {l l' : List α} (h : List.Forall₂ (fun x y => y = x) l l') : l' = l := by
  induction h with
  | nil => rfl
  | cons h _ ih => rw [h, ih]

theorem TreesSim.eq {mix : ℝ → P → P → P} {o o' : TreeObj ℝ P G} (h : TreesSim (fun x y => y = x) mix o o') (fba : FBA) :
    o'.predict mix fba = o.predict mix fba :=
  (SameResult.eq ((h.predict fba).mono fun _ _ h => (forall₂_eq h).symm)).symm

theorem proba_same {l l' : List (TreeObj ℝ (List ℝ) G)} (h : List.Forall₂ (TreesSim (fun x y => y = x) mixV) l l') (n : Nat) (fba : FBA) :
    predictProba n l' fba = predictProba n l fba := by
  unfold predictProba accumulateProba
  rw [h.length_eq, foldlM_forall₂ (fun s x y hxy => by rw [hxy.eq]) h]

theorem probaOvr_same {l l' : List (TreeObj ℝ (List ℝ) G)} (h : List.Forall₂ (TreesSim (fun x y => y = x) mixV) l l') (eps : ℝ) (n m : Nat) (fba : FBA) :
    predictProbaOvr eps n m l' fba = predictProbaOvr eps n m l fba := by
  unfold predictProbaOvr
  rw [foldlM_forall₂ (f := fun out (x : TreeObj ℝ (List ℝ) G × Nat) => do
    let p ← x.1.predict mixV fba
    if out.length = p.length then (out.zip p).mapM fun (row, q) => addCol (x.2 / m) row q
    else .error .valueError) (fun s x y hxy => by obtain ⟨x, i⟩ := x; obtain ⟨y, j⟩ := y; obtain ⟨h1, h2⟩ := hxy; simp only at h1 h2 ⊢; rw [h1.eq, h2])
    (Forall₂.zipIdx h 0)]

theorem reg_sum {α β : ℝ} {l l' : List (TreeObj ℝ ℝ G)} (h : List.Forall₂ (TreesSim (fun p p' => p' = α * p + β) mixF) l l') (fba : FBA) :
    ∀ (m : Nat) (out : List ℝ), SameResult (fun x y => y = x.map fun v => α * v + ((m + l.length : Nat) : ℝ) * β)
      (l.foldlM (fun out o => do let p ← o.predict mixF fba; addRows Num.add out p) out)
      (l'.foldlM (fun out o => do let p ← o.predict mixF fba; addRows Num.add out p) (out.map fun v => α * v + (m : ℝ) * β)) := by
  induction h with
  | nil => exact fun m out => rfl
  | @cons _ _ l _ h _ ih =>
    intro m out
    simp only [List.foldlM_cons]
    refine SameResult.bind (S := fun x y => y = x.map fun v => α * v + ((m + 1 : Nat) : ℝ) * β) ?_ ?_
    · refine (h.predict fba).bind fun p p' hp => ?_
      rw [forall₂_eq_map (f := fun p => α * p + β) hp]
      unfold addRows
      simp only [List.length_map]
      split
      · refine SameResult.ok ?_
        rw [List.zipWith_map, List.map_zipWith]
        congr 1
        funext a b
        show α * a + m * β + (α * b + β) = α * (a + b) + ((m + 1 : Nat) : ℝ) * β
        push_cast
        ring
      · rfl
    · rintro x _ rfl
      have := ih (m + 1) x
      refine this.mono fun u v huv => ?_
      rw [huv, List.length_cons, show m + 1 + l.length = m + (l.length + 1) by omega]

theorem reg_sim {α β : ℝ} {l l' : List (TreeObj ℝ ℝ G)} (h : List.Forall₂ (TreesSim (fun p p' => p' = α * p + β) mixF) l l') (hl : l ≠ []) (fba : FBA) :
    forestPredict l' fba = (forestPredict l fba).map (List.map fun v => α * v + β) := by
  have hlen : (l.length : ℝ) ≠ 0 := by
    have := List.length_pos_iff.2 hl
    positivity
  have := reg_sum h fba 0 (List.replicate fba.nSamples 0)
  rw [List.map_replicate, show α * 0 + ((0 : Nat) : ℝ) * β = 0 by simp] at this
  unfold forestPredict
  have h2 : ∀ (x y : M (List ℝ)), SameResult (fun x y => y = x.map fun v => α * v + ((0 + l.length : Nat) : ℝ) * β) x y →
      (do let out ← y; return out.map fun v => Num.div v (Num.ofNat l'.length) : M (List ℝ)) =
        (do let out ← x; return out.map fun v => Num.div v (Num.ofNat l.length) : M (List ℝ)).map (List.map fun v => α * v + β) := by
    intro x y hxy
    cases x with
    | error e =>
      cases y with
      | error e' => rw [show e = e' from hxy]; rfl
      | ok v => exact hxy.elim
    | ok u =>
      cases y with
      | error e' => exact hxy.elim
      | ok v =>
        rw [show v = _ from hxy]
        show Except.ok _ = Except.ok _
        congr 1
        rw [List.map_map, List.map_map]
        refine List.map_congr_left fun v _ => ?_
        show (α * v + ((0 + l.length : Nat) : ℝ) * β) / (l'.length : ℝ) = α * (v / (l.length : ℝ)) + β
        rw [← h.length_eq, Nat.zero_add]
        field_simp
  exact h2 _ _ this

theorem apply_same {RF : P → P → Prop} {mix : ℝ → P → P → P} {l l' : List (TreeObj ℝ P G)} (h : List.Forall₂ (TreesSim RF mix) l l') (fba : FBA) :
    (l'.mapM fun o => treeApply o.arr fba) = l.mapM fun o => treeApply o.arr fba := by
  refine mapM_forall₂ (R := TreesSim RF mix) (fun x y hxy => ?_) h
  unfold treeApply
  rw [show findLeaf y.arr fba = findLeaf x.arr fba from funext (hxy.leaves fba)]

theorem encode_eq {lib : Lib V K ℝ G W} {e e' : Est L V K ℝ P G} (he : e'.encoder = e.encoder) (n : Nat) (E : Dataset N V) :
    e'.encode lib n E = e.encode lib n E := by
  unfold Est.encode
  rw [he]

theorem predictReg_of {lib : Lib V K ℝ G W} {e e' : Est L V K ℝ ℝ G} {f : List ℝ → List ℝ} (he : e'.encoder = e.encoder)
    (h : ∀ fba, forestPredict e'.trees fba = (forestPredict e.trees fba).map f) (n : Nat) (E : Dataset N V) :
    e'.predictReg lib n E = (e.predictReg lib n E).map f := by
  unfold Est.predictReg
  rw [encode_eq he]
  cases e.encode lib n E with
  | error x => rfl
  | ok fba => exact h fba

theorem predictProba_of {lib : Lib V K ℝ G W} {e e' : Est L V K ℝ (List ℝ) G} (he : e'.encoder = e.encoder) (h1 : e'.fitted = e.fitted)
    (h2 : e'.ovr = e.ovr) (h3 : e'.nClasses = e.nClasses) (h4 : e'.nEstimators = e.nEstimators)
    (h : List.Forall₂ (TreesSim (fun x y => y = x) mixV) e.trees e'.trees) (eps : ℝ) (n : Nat) (E : Dataset N V) :
    e'.predictProba lib eps n E = e.predictProba lib eps n E := by
  unfold Est.predictProba
  rw [encode_eq he, h1, h2, h3, h4]
  congr 1
  funext fba
  rw [probaOvr_same h, proba_same h]

theorem apply_of {lib : Lib V K ℝ G W} {e e' : Est L V K ℝ P G} (he : e'.encoder = e.encoder) {RF : P → P → Prop} {mix : ℝ → P → P → P}
    (h : List.Forall₂ (TreesSim RF mix) e.trees e'.trees) (n : Nat) (E : Dataset N V) : e'.apply lib n E = e.apply lib n E := by
  unfold Est.apply
  rw [encode_eq he]
  congr 1
  funext fba
  exact apply_same h fba

/-! ### `fit` -/

/-- The state before the second fit: another step, dirichlet and unit of the weights. -/
def rescaled (s : World L V K ℝ P G W) (st di κ : ℝ) : World L V K ℝ P G W :=
  { s with self := { s.self with step := st, dirichlet := di }, weights := s.weights.map (κ * ·) }

theorem weightsOf_rescaled {a : FitArgs N V} {s : World L V K ℝ P G W} {st di κ : ℝ} (hκ : a.weights ≠ none ∨ κ = 1) :
    weightsOf a (rescaled s st di κ) = (weightsOf a s).map (κ * ·) := by
  unfold weightsOf rescaled
  cases h : a.weights with
  | none =>
    rw [h] at hκ
    obtain rfl : κ = 1 := hκ.resolve_left fun h => h rfl
    simp
  | some b => rfl

theorem weightsOf_pos {a : FitArgs N V} {s : World L V K ℝ P G W} (h : a.weights ≠ none → ∀ w ∈ s.weights, 0 < w) : ∀ w ∈ weightsOf a s, 0 < w := by
  unfold weightsOf
  cases hw : a.weights with
  | none => intro w hw; rw [List.eq_of_mem_replicate hw]; exact one_pos
  | some b => exact h (by rw [hw]; simp)

theorem reg_rescaled {lib : Lib V K ℝ G W} {a : FitArgs N V} {y : List ℝ} {s : World L V K ℝ ℝ G W}
    (hlib : LibOK lib a.nRows) (hp : ParamsValid s.self (nCols a.X)) (hd : DataValid lib.conv a s y.length)
    (hovr : s.self.ovr = false) (hw : a.weights ≠ none → ∀ w ∈ s.weights, 0 < w) {κ α : ℝ} (β : ℝ) (hκ : 0 < κ) (hα : 0 < α) (hnone : a.weights ≠ none ∨ κ = 1) :
    ∃ t t', fitRegressor lib a y s = (.ok (), t) ∧
      fitRegressor lib a (y.map fun v => α * v + β) (rescaled s (s.self.step / (κ * α ^ 2)) s.self.dirichlet κ) = (.ok (), t') ∧
      ((∀ b ∈ t.self.isCategorical_, b = false) ∨ (β = 0 ∧ ArgsortByOrder lib.argsort) → ∀ n (E : Dataset N V),
        t'.self.predictReg lib n E = (t.self.predictReg lib n E).map (List.map fun v => α * v + β) ∧
        t'.self.apply lib n E = t.self.apply lib n E) := by
  obtain ⟨_, o, rfl, h1, hf⟩ := fitRegressor_ok hlib hp hd
  obtain ⟨_, o', rfl, h2, -⟩ := fitRegressor_ok (a := a) (y := y.map fun v => α * v + β)
    (s := rescaled s (s.self.step / (κ * α ^ 2)) s.self.dirichlet κ) hlib ⟨hp.1, hp.2, hp.3, hp.4, hp.5, hp.6, hp.7⟩
    ⟨hd.1, by rw [List.length_map]; exact hd.2, hd.3, fun h => by simp [rescaled, hd.4 h], hd.5, hd.6, hd.7⟩
  refine ⟨_, _, h1, h2, fun hcat n E => ?_⟩
  have hT : ValidTask (regressorTask (G := G) lib.argsort) (fun _ => True) := .regressor hlib.argsort
  have hp' : ParamsValid (withCategorical a.categorical s.self) (nCols a.X) := ⟨hp.1, hp.2, hp.3, hp.4, hp.5, hp.6, hp.7⟩
  obtain ⟨e1, e2⟩ := rest_sim (st := s.self.step / (κ * α ^ 2)) (di := s.self.dirichlet) (cl := s.self.classes) o o' hf hlib hp' hd
    (regSim lib.argsort β hκ hα)
    (fun i _ => ⟨y, weightsOf a s, rfl, rfl, hd.labels, weightsOf_length hd, fun _ _ => trivial, .inr ⟨weightsOf_pos hw, fun _ h => h⟩⟩) rfl
    (by
      intro i y1 y2 w1 g1 g2 _
      match i with
      | 0 =>
        obtain rfl : y = y1 := by simpa using g1
        obtain rfl : y.map (fun v => α * v + β) = y2 := by simpa using g2
        refine ⟨by simp, fun j l l' _ h1 h2 _ => ?_⟩
        rw [List.getElem?_map, h1] at h2
        exact (Option.some.inj h2).symm
      | i + 1 => simp at g1)
    (by rw [weightsOf_rescaled hnone]; rfl) hT
    (hcat.imp id fun ⟨hb, ha⟩ => by subst hb; exact regSim_orders ha hκ hα)
    (by
      show s.self.step / (κ * α ^ 2) * (κ * α ^ 2) = s.self.step
      exact div_mul_cancel₀ _ (by positivity))
    (RF := fun p p' => p' = α * p + β) (fun w p p' hw h => h hw) (mix := mixF)
    (by
      rintro x u _ v _ rfl rfl
      show x * (α * u + β) + (1 - x) * (α * v + β) = α * (x * u + (1 - x) * v) + β
      ring)
  have hne : o.est.trees ≠ [] := by
    have h3 := hf.nTrees
    intro h0
    rw [h0, show (withCategorical a.categorical s.self).ovr = false from hovr] at h3
    have h4 := hp.estimators
    have h3 : 0 = s.self.nEstimators := h3
    omega
  exact ⟨predictReg_of e1 (reg_sim e2 hne) n E, apply_of e1 e2 n E⟩

theorem class_rescaled {lib : Lib V K ℝ G W} {a : FitArgs N V} {y : List L} {s : World L V K ℝ (List ℝ) G W}
    (hlib : LibOK lib a.nRows) (hp : ParamsValid s.self (nCols a.X)) (hd : DataValid lib.conv a s y.length) (ht : a.targetsOK = true)
    (hrefit : s.self.ovr = true → s.self.fitted = true → 2 < (sortedUnique y).length)
    (hdir : s.self.aggregation = true → s.self.dirichlet ≠ 0)
    (hst : StrategyOK (sortedUnique y).length s.self.strategy)
    (hw : ∀ w ∈ s.weights, 0 < w) (hnone : a.weights ≠ none) {κ : ℝ} (hκ : 0 < κ) :
    ∃ t t', fitClassifier lib a y s = (.ok (), t) ∧
      fitClassifier lib a y (rescaled s (s.self.step / κ) (κ * s.self.dirichlet) κ) = (.ok (), t') ∧
      ∀ eps n (E : Dataset N V), t'.self.predictProba lib eps n E = t.self.predictProba lib eps n E ∧
        t'.self.predict lib eps n E = t.self.predict lib eps n E ∧ t'.self.apply lib n E = t.self.apply lib n E := by
  have hpos := weightsOf_pos (a := a) fun _ => hw
  have hW : ∀ w ∈ classWeights s.self y (weightsOf a s), ∀ v ∈ w, 0 < v := fun w h => (classWeights_sign (fun v h => (hpos v h).le) w h).2 hpos
  have hF : ∀ k, k < max 2 (sortedUnique y).length → Num.toNat (Num.ofNat k : ℝ) = k := fun k _ => Nat.floor_natCast k
  have hz : ∀ x : ℝ, x ≠ 0 → ¬(Num.le x Num.zero = true ∧ Num.le Num.zero x = true) := fun x hx ⟨h1, h2⟩ =>
    hx (le_antisymm (of_decide_eq_true h1) (of_decide_eq_true h2))
  obtain ⟨_, o, rfl, h1, hf⟩ := fitClassifier_ok hlib hp hd ht hrefit (fun h => hz _ (hdir h)) hst hF hW
  obtain ⟨_, o', rfl, h2, -⟩ := fitClassifier_ok (a := a) (y := y) (okW := fun _ => True)
    (s := rescaled s (s.self.step / κ) (κ * s.self.dirichlet) κ) hlib ⟨hp.1, hp.2, hp.3, hp.4, hp.5, hp.6, hp.7⟩
    ⟨hd.1, hd.2, hd.3, fun h => by simp [rescaled, hd.4 h], hd.5, hd.6, hd.7⟩ ht hrefit
    (fun h => hz _ (mul_ne_zero hκ.ne' (hdir h))) hst hF (fun _ _ => trivial)
  refine ⟨_, _, h1, h2, fun eps n E => ?_⟩
  have hp' : ParamsValid (preparedEst (withCategorical a.categorical s.self) y) (nCols a.X) := ⟨hp.1, hp.2, hp.3, hp.4, hp.5, hp.6, hp.7⟩
  obtain ⟨e1, e2⟩ := rest_sim (st := s.self.step / κ) (di := κ * s.self.dirichlet) (cl := sortedUnique y) o o' hf hlib hp' hd
    (classSim lib.rng lib.argsort (if staysOvr s.self y then 2 else (sortedUnique y).length) s.self.dirichlet s.self.criterion s.self.strategy hκ)
    (codes_prep hd.labels (weightsOf_length hd) hF fun _ _ => .inl fun _ => trivial) rfl
    (by
      intro i y1 y2 _ g1 g2 _
      obtain rfl : y1 = y2 := Option.some.inj (g1.symm.trans g2)
      refine ⟨rfl, fun j l l' _ h1 h2 _ => ?_⟩
      exact (Option.some.inj (h1.symm.trans h2)).symm)
    (by
      rw [weightsOf_rescaled (.inl hnone)]
      show classWeights s.self y ((weightsOf a s).map (κ * ·)) = (classWeights s.self y (weightsOf a s)).map (List.map (κ * ·))
      unfold classWeights
      split
      · rw [List.map_map]
        refine List.map_congr_left fun c _ => ?_
        rw [Function.comp_apply, List.map_zipWith, List.zipWith_map_left]
        congr 1
        funext u v
        exact mul_assoc _ _ _
      · rw [List.map_map]
        rfl)
    (.classifier lib.rng _ _ _ hlib.argsort (strategy_tree hst _))
    (.inr (classSim_orders _ _ _ _ _ _ hκ))
    (by
      show s.self.step / κ * κ = s.self.step
      exact div_mul_cancel₀ _ hκ.ne')
    (RF := fun p p' => p' = p) (fun w p p' hw h => h) (mix := mixV) (by rintro x u _ v _ rfl rfl; rfl)
  have hpr : o'.est.predictProba lib eps n E = o.est.predictProba lib eps n E := predictProba_of e1 rfl rfl rfl rfl e2 eps n E
  refine ⟨hpr, ?_, apply_of e1 e2 n E⟩
  show (do let p ← o'.est.predictProba lib eps n E; predictLabels o'.est.classes p) = (do let p ← o.est.predictProba lib eps n E; predictLabels o.est.classes p)
  rw [hpr]
  rfl

end

end Verif
