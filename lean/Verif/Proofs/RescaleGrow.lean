import Verif.Proofs.Rescale

set_option linter.unusedSectionVars false

/-! Split search and growth in lockstep. -/
namespace Verif

open Spec

variable {Y P G : Type} {T T' : Task ℝ Y P G}

section
variable (S : TaskSim T T') {c c' : Ctx ℝ}

/-- A split with weights multiplied by `κ` and impurities by `μ`. -/
noncomputable def Split.sc (s : Split ℝ) : Split ℝ :=
  { s with gain := s.gain.map (S.κ * S.μ * ·), wTrainL := S.κ * s.wTrainL, wTrainR := S.κ * s.wTrainR, impL := S.μ * s.impL, impR := S.μ * s.impR }

theorem gainGt_sim (g : ℝ) (o : Option ℝ) : gainGt (S.κ * S.μ * g) (o.map (S.κ * S.μ * ·)) = gainGt g o := by
  cases o with
  | none => rfl
  | some b =>
    show decide (S.κ * S.μ * b < S.κ * S.μ * g) = decide (b < g)
    exact decide_eq_decide.2 (mul_lt_mul_iff_right₀ (mul_pos S.κ_pos S.μ_pos))

/-- Related running sums. -/
structure TryR (a a' : TryAcc ℝ Y) : Prop where
  nL : a'.nL = a.nL
  nR : a'.nR = a.nR
  vL : a'.vL = a.vL
  wL : a'.wL = S.κ * a.wL
  wR : a'.wR = S.κ * a.wR
  yL : S.RY a.wL a.yL a'.yL
  yR : S.RY a.wR a.yR a'.yR

theorem tryBins_sim (hc : CtxR S c c') {nc nc' : NodeCtx ℝ Y P} (hn : NcR S nc nc') {h h' : Hist ℝ Y} (hh : HistR S h h') (f : Nat) (isCat : Bool)
    (cs o : List Nat) (l : List Nat) {a a' : TryAcc ℝ Y} (ha : TryR S a a') (best : Split ℝ) :
    SameResult (fun b b' => b' = b.sc S) (tryBins T c nc h f isCat cs o l a best) (tryBins T' c' nc' h' f isCat cs o l a' (best.sc S)) := by
  induction l generalizing a a' best with
  | nil => exact SameResult.ok rfl
  | cons bin l ih =>
    unfold tryBins
    rw [hh.nTrain, hh.nValid, hh.wTrain, hn.nValid, ha.nL, ha.nR, ha.vL, show c'.minLeaf = c.minLeaf by rw [hc.eq],
      show c'.aggregation = c.aggregation by rw [hc.eq], show c'.maxNBins = c.maxNBins by rw [hc.eq]; rfl]
    refine SameResult.same.bind fun n _ hb => ?_
    subst hb
    refine (rd_map_sim _).bind ?_
    rintro w _ ⟨rfl, hw⟩
    refine (rd_sim (S := S.RY w) hh.lenY fun x y hx hy => hh.ySum hw hx hy).bind fun y y' hy => ?_
    refine SameResult.same.bind fun nR _ hb => ?_
    subst hb
    refine SameResult.same.bind fun vL _ hb => ?_
    subst hb
    refine SameResult.same.bind fun vR _ hb => ?_
    subst hb
    have hacc : TryR S { nL := a.nL + n, nR, wL := Num.add a.wL w, wR := Num.sub a.wR w, yL := T.plusY a.yL y, yR := T.minusY a.yR y, vL }
        { nL := a.nL + n, nR, wL := Num.add a'.wL (S.κ * w), wR := Num.sub a'.wR (S.κ * w), yL := T'.plusY a'.yL y',
          yR := T'.minusY a'.yR y', vL } := by
      refine ⟨rfl, rfl, rfl, ?_, ?_, S.plusY ha.yL hy, S.minusY ha.yR hy⟩
      · rw [ha.wL]; exact (mul_add _ _ _).symm
      · rw [ha.wR]; exact (mul_sub _ _ _).symm
    split
    · exact ih hacc best
    · split
      · exact SameResult.ok rfl
      · have e1 : Num.add a'.wL (S.κ * w) = S.κ * Num.add a.wL w := hacc.wL
        have e2 : Num.sub a'.wR (S.κ * w) = S.κ * Num.sub a.wR w := hacc.wR
        have hch := S.childs hacc.yL hacc.yR
        simp only at hch
        rw [← e1, ← e2] at hch
        refine hch.bind ?_
        rintro ⟨iL, iR⟩ _ rfl
        simp only
        have hg : informationGainProxy (S.μ * iL) (S.μ * iR) (Num.add a'.wL (S.κ * w)) (Num.sub a'.wR (S.κ * w)) =
            S.κ * S.μ * informationGainProxy iL iR (Num.add a.wL w) (Num.sub a.wR w) := by
          rw [e1, e2]
          show -(S.κ * (a.wL + w)) * (S.μ * iL) - S.κ * (a.wR - w) * (S.μ * iR) = S.κ * S.μ * (-(a.wL + w) * iL - (a.wR - w) * iR)
          ring
        rw [hg, show (best.sc S).gain = best.gain.map (S.κ * S.μ * ·) from rfl, gainGt_sim]
        split
        · split
          · have := ih hacc { best with
              found := true, gain := some (informationGainProxy iL iR (Num.add a.wL w) (Num.sub a.wR w)), feature := f, binThreshold := bin,
              impL := iL, impR := iR, nTrainL := a.nL + n, nTrainR := nR, wTrainL := Num.add a.wL w, wTrainR := Num.sub a.wR w, nValidL := vL,
              nValidR := vR, isCat := isCat, bins := o }
            rw [e1, e2] at this ⊢
            exact this
          · rfl
        · exact ih hacc best

theorem total_sim {ws : List ℝ} {ys ys' : List Y} (h1 : ys.length = ws.length) (h2 : ys'.length = ys.length)
    (h : ∀ {b : Nat} {w : ℝ} {y y' : Y}, ws[b]? = some w → ys[b]? = some y → ys'[b]? = some y' → S.RY w y y') {w0 : ℝ} {y0 y0' : Y}
    (h0 : S.RY w0 y0 y0') : S.RY (w0 + ws.sum) (ys.foldl T.plusY y0) (ys'.foldl T'.plusY y0') := by
  induction ws generalizing ys ys' w0 y0 y0' with
  | nil =>
    obtain rfl := List.length_eq_zero_iff.1 h1
    obtain rfl := List.length_eq_zero_iff.1 h2
    simpa using h0
  | cons w ws ih =>
    cases ys with
    | nil => exact absurd h1 (by simp)
    | cons y ys =>
      cases ys' with
      | nil => exact absurd h2 (by simp)
      | cons y' ys' =>
        simp only [List.length_cons, Nat.add_right_cancel_iff] at h1 h2
        rw [List.sum_cons, ← add_assoc, List.foldl_cons, List.foldl_cons]
        exact ih h1 h2 (fun {b} {v} {z} {z'} e1 e2 e3 => h (b := b + 1) (by simpa using e1) (by simpa using e2) (by simpa using e3))
          (S.plusY h0 (h (b := 0) rfl rfl rfl))

theorem tryOrder_sim (hc : CtxR S c c') {nc nc' : NodeCtx ℝ Y P} (hn : NcR S nc nc') {h h' : Hist ℝ Y} (hh : HistR S h h')
    (hs : h.wTrain.sum = nc.wTrain) (f : Nat) (isCat : Bool) (cs o : List Nat) (best : Split ℝ) :
    SameResult (fun b b' => b' = b.sc S) (tryOrder T c nc h f isCat cs o best) (tryOrder T' c' nc' h' f isCat cs o (best.sc S)) := by
  unfold tryOrder
  have := total_sim S hh.lenWY hh.lenY hh.ySum S.zeroY
  rw [zero_add, hs] at this
  have h0 : TryR S { nL := 0, nR := nc.nTrain, wL := Num.zero, wR := nc.wTrain, yL := T.zeroY, yR := h.ySum.foldl T.plusY T.zeroY, vL := 0 }
      { nL := 0, nR := nc'.nTrain, wL := Num.zero, wR := nc'.wTrain, yL := T'.zeroY, yR := h'.ySum.foldl T'.plusY T'.zeroY, vL := 0 } :=
    ⟨rfl, hn.nTrain, rfl, (mul_zero _).symm, hn.wTrain, S.zeroY, this⟩
  exact tryBins_sim S hc hn hh f isCat cs o _ h0 best

/-- The orders of the categories are the same in both trees. -/
def SameOrders : Prop := ∀ (h h' : Hist ℝ Y), HistR S h h' → ∀ g, T'.orders h.neTrain h'.ySum g = T.orders h.neTrain h.ySum g

theorem findBestAlong_sim (hc : CtxR S c c') (ho : (∀ b ∈ c.isCategorical, b = false) ∨ SameOrders S) {nc nc' : NodeCtx ℝ Y P} (hn : NcR S nc nc')
    {h h' : Hist ℝ Y} (hh : HistR S h h') (hs : h.wTrain.sum = nc.wTrain) (f : Nat) (best : Split ℝ) (g : G) :
    SameResult (fun b b' => b' = (b.1.sc S, b.2)) (findBestAlong T c nc h f best g) (findBestAlong T' c' nc' h' f (best.sc S) g) := by
  unfold findBestAlong
  rw [hh.nTrain, hh.neTrain, hh.neValid, hh.nValid, show c'.isCategorical = c.isCategorical by rw [hc.eq],
    show c'.aggregation = c.aggregation by rw [hc.eq]]
  refine (SameResult.same.and (Q := fun b => b ∈ c.isCategorical) fun x hx => mem_rd hx).bind ?_
  rintro b _ ⟨rfl, hb⟩
  cases b with
  | true =>
    rcases ho with ho | ho
    · exact absurd (ho _ hb) (by simp)
    · simp only [if_true]
      rw [ho h h' hh g]
      refine SameResult.same.bind ?_
      rintro ⟨os, g1⟩ _ rfl
      simp only
      refine (SameResult.foldlM (S := fun b b' => b' = b.sc S) (fun s s' x e => ?_) rfl).bind ?_
      · rw [e]
        exact tryOrder_sim S hc hn hh hs f true _ x s
      · rintro b _ rfl
        exact SameResult.pure rfl
  | false =>
    simp only [Bool.false_eq_true, if_false]
    refine SameResult.same.bind ?_
    rintro cs _ rfl
    refine (tryOrder_sim S hc hn hh hs f false cs _ best).bind ?_
    rintro b _ rfl
    exact SameResult.pure rfl

theorem reset_sc : (Split.reset : Split ℝ).sc S = Split.reset := by
  unfold Split.sc Split.reset
  simp only [Option.map_none]
  rw [show S.κ * (Num.zero : ℝ) = Num.zero from mul_zero _, show S.μ * (Num.zero : ℝ) = Num.zero from mul_zero _]

theorem computeBinPartition_sim (hc : CtxR S c c') (s : Split ℝ) :
    SameResult (fun b b' => b' = b.sc S) (computeBinPartition c s) (computeBinPartition c' (s.sc S)) := by
  unfold computeBinPartition
  rw [show c'.maxNBins = c.maxNBins by rw [hc.eq]; rfl]
  refine SameResult.same.bind ?_
  rintro n _ rfl
  split
  · exact SameResult.pure rfl
  · rfl

theorem findNodeSplit_sim (hc : CtxR S c c') (ho : (∀ b ∈ c.isCategorical, b = false) ∨ SameOrders S) {nc nc' : NodeCtx ℝ Y P} (hn : NcR S nc nc')
    (hs : ∀ x ∈ nc.hists, x.wTrain.sum = nc.wTrain) (sampled : List Nat) (g : G) :
    SameResult (fun b b' => b' = (b.1.sc S, b.2)) (findNodeSplit T c nc sampled g) (findNodeSplit T' c' nc' sampled g) := by
  unfold findNodeSplit
  refine SameResult.bind (S := fun b b' => b' = (b.1.sc S, b.2)) (SameResult.foldlM (fun s s' x e => ?_) ?_) ?_
  · rw [e]
    simp only
    refine ((rd_sim (S := HistR S) hn.hists.length_eq.symm fun a b ha hb => ?_).and (Q := fun h => h ∈ nc.hists) fun x hx => mem_rd hx).bind ?_
    · obtain ⟨i1, e1⟩ := List.getElem?_eq_some_iff.1 ha
      obtain ⟨i2, e2⟩ := List.getElem?_eq_some_iff.1 hb
      have := hn.hists.get i1 i2
      simp only [List.get_eq_getElem] at this
      rw [e1, e2] at this
      exact this
    · rintro h h' ⟨hh, hm⟩
      rw [hh.neTrain]
      split
      · exact findBestAlong_sim S hc ho hn hh (hs h hm) _ _ _
      · exact SameResult.pure rfl
  · rw [reset_sc]
  · rintro ⟨b, g1⟩ _ rfl
    simp only
    rw [show (b.sc S).found = b.found from rfl, show (b.sc S).isCat = b.isCat from rfl]
    split
    · refine (computeBinPartition_sim S hc b).bind ?_
      rintro b1 _ rfl
      exact SameResult.pure rfl
    · exact SameResult.pure rfl

/-! ### Growth -/

/-- A record with the impurity multiplied by `μ`. -/
noncomputable def Record.sc (r : Record ℝ) : Record ℝ := { r with impurity := r.impurity.map (S.μ * ·) }

theorem stopHere_sim (hc : CtxR S c c') (r : Record ℝ) (nT nV : Nat) : stopHere c' (r.sc S) nT nV = stopHere c r nT nV := by
  unfold stopHere
  rw [show c'.minSplit = c.minSplit by rw [hc.eq], show c'.aggregation = c.aggregation by rw [hc.eq], show c'.maxDepth = c.maxDepth by rw [hc.eq]]
  obtain ⟨p, d, il, imp, a, b, e, f⟩ := r
  cases imp with
  | none => rfl
  | some x =>
    have : decide (S.μ * x ≤ 0) = decide (x ≤ 0) :=
      decide_eq_decide.2 ⟨fun h => by by_contra h0; exact absurd (mul_pos S.μ_pos (not_le.1 h0)) (not_lt.2 h),
        fun h => mul_nonpos_of_nonneg_of_nonpos S.μ_pos.le h⟩
    show (_ || _ || decide (S.μ * x ≤ 0) || _) = (_ || _ || decide (x ≤ 0) || _)
    rw [this]
    rfl

theorem chooseSplit_sim (hc : CtxR S c c') (ho : (∀ b ∈ c.isCategorical, b = false) ∨ SameOrders S) (r : Record ℝ) {nc nc' : NodeCtx ℝ Y P}
    (hn : NcR S nc nc') (hs : ∀ x ∈ nc.hists, x.wTrain.sum = nc.wTrain) (k : Work G) :
    SameResult (fun b b' => b' = (b.1.sc S, b.2)) (chooseSplit T c r nc k) (chooseSplit T' c' (r.sc S) nc' k) := by
  unfold chooseSplit
  rw [hn.nTrain, hn.nValid, stopHere_sim S hc]
  split
  · show _ = _
    rw [reset_sc]
  · exact findNodeSplit_sim S hc ho hn hs _ _

theorem computeNodeContext_sim (R : Rng G) (hc : CtxR S c c') (k : Work G) (sT eT sV eV : Nat) :
    SameResult (fun x y => (NcR S x.1 y.1 ∧ y.2 = x.2) ∧ ∀ h ∈ x.1.hists, h.wTrain.sum = x.1.wTrain) (computeNodeContext R T c k sT eT sV eV)
      (computeNodeContext R T' c' k sT eT sV eV) := by
  refine SameResult.and ?_ ?_
  · unfold computeNodeContext
    rw [show sampleFeatures R c' k = sampleFeatures R c k by rw [hc.eq]; rfl]
    refine SameResult.same.bind ?_
    rintro k _ rfl
    refine SameResult.same.bind ?_
    rintro nT _ rfl
    refine SameResult.same.bind ?_
    rintro nV _ rfl
    refine (nodeStats_sim S hc _ _ _ _ _).bind fun nc nc' hn => ?_
    exact SameResult.pure ⟨hn, rfl⟩
  · intro x hx
    unfold computeNodeContext at hx
    simp only [bind_eq_ok] at hx
    obtain ⟨k, -, nT, -, nV, -, nc, h, hx⟩ := hx
    injection hx with hx
    rw [← hx]
    exact nodeStats_sum h

/-! ### Node tables -/

/-- A node with weights multiplied by `κ`, impurity by `μ` and another loss. -/
noncomputable def Node.sc (x : ℝ) (n : Node ℝ) : Node ℝ :=
  { n with impurity := n.impurity.map (S.μ * ·), wTrain := S.κ * n.wTrain, wValid := S.κ * n.wValid, loss := x }

/-- Related node tables; the first `m` nodes are in use and `W` gives their weights. -/
def NodesR (W : Nat → ℝ) (m : Nat) (ns ns' : List (Node ℝ)) : Prop :=
  ns'.length = ns.length ∧ ∀ (j : Nat) n n', ns[j]? = some n → ns'[j]? = some n' →
    ∃ x, n' = n.sc S x ∧ (j < m → n.wTrain = W j) ∧ (S.NZ n.wTrain ∨ m ≤ j → x = S.lam * n.loss)

theorem NodesR.rd {W : Nat → ℝ} {m : Nat} {ns ns' : List (Node ℝ)} (h : NodesR S W m ns ns') (k : Nat) :
    SameResult (fun n n' => ∃ x, n' = n.sc S x ∧ (k < m → n.wTrain = W k) ∧ (S.NZ n.wTrain ∨ m ≤ k → x = S.lam * n.loss))
      (rd ns k) (rd ns' k) := rd_sim h.1 fun n n' h1 h2 => h.2 k n n' h1 h2

theorem NodesR.wr {W : Nat → ℝ} {m : Nat} {ns ns' : List (Node ℝ)} (h : NodesR S W m ns ns') {k : Nat} {n n' : Node ℝ}
    (hn : ∃ x, n' = n.sc S x ∧ (k < m → n.wTrain = W k) ∧ (S.NZ n.wTrain ∨ m ≤ k → x = S.lam * n.loss)) :
    SameResult (NodesR S W m) (wr ns k n) (wr ns' k n') := by
  refine (wr_sim h.1).mono ?_
  rintro u v ⟨rfl, rfl, hlt⟩
  refine ⟨by simp [h.1], fun j a a' ha ha' => ?_⟩
  by_cases hj : k = j
  · subst hj
    rw [List.getElem?_set_self hlt] at ha
    rw [List.getElem?_set_self (h.1 ▸ hlt)] at ha'
    injection ha with ha
    injection ha' with ha'
    rw [← ha, ← ha']
    exact hn
  · rw [List.getElem?_set_ne hj] at ha ha'
    exact h.2 j a a' ha ha'

/-- Related tree arrays: predictions are related for the first `m` nodes. -/
structure ArrR (W : Nat → ℝ) (m q : Nat) (t t' : TreeArr ℝ P) : Prop where
  nodes : NodesR S W m t.nodes t'.nodes
  lenP : t'.yPred.length = t.yPred.length
  yPred : ∀ (j : Nat) p p', j < q → t.yPred[j]? = some p → t'.yPred[j]? = some p' → S.RP (W j) p p'
  count : t'.nodeCount = t.nodeCount
  capacity : t'.capacity = t.capacity
  binParts : t'.binParts = t.binParts
  bpCapacity : t'.bpCapacity = t.bpCapacity
  bpEnd : t'.bpEnd = t.bpEnd
  fits : m ≤ t.nodes.length ∧ q ≤ t.yPred.length

theorem zero_sc : (Node.zero : Node ℝ).sc S (S.lam * 0) = Node.zero := by
  unfold Node.sc Node.zero
  simp only [Option.map_some]
  rw [show S.κ * (Num.zero : ℝ) = Num.zero from mul_zero _, show S.μ * (Num.zero : ℝ) = Num.zero from mul_zero _,
    show S.lam * (0 : ℝ) = Num.zero from mul_zero _]

theorem resizeNodes_sim {W : Nat → ℝ} {m : Nat} {ns ns' : List (Node ℝ)} (h : NodesR S W m ns ns') (hm : m ≤ ns.length) (n : Nat) :
    SameResult (fun a b => NodesR S W m a b ∧ m ≤ a.length) (resizeArr (fun _ => Node.zero) ns n) (resizeArr (fun _ => Node.zero) ns' n) := by
  unfold resizeArr
  rw [h.1]
  split
  · refine SameResult.ok ⟨⟨by simp [h.1], fun j x x' hx hx' => ?_⟩, by simp; omega⟩
    by_cases hj : j < ns.length
    · rw [List.getElem?_append_left hj] at hx
      rw [List.getElem?_append_left (by rw [h.1]; exact hj)] at hx'
      exact h.2 j x x' hx hx'
    · rw [List.getElem?_append_right (by omega)] at hx
      rw [List.getElem?_append_right (by rw [h.1]; omega), h.1, hx] at hx'
      injection hx' with hx'
      have hz : x = Node.zero := by
        have := List.mem_of_getElem? hx
        rw [List.mem_map] at this
        obtain ⟨_, _, e⟩ := this
        exact e.symm
      refine ⟨S.lam * 0, ?_, fun h0 => absurd h0 (by omega), fun _ => by rw [hz]; rfl⟩
      rw [← hx', hz, zero_sc]
  · rfl

theorem resizePred_sim {z z' : P} {ps ps' : List P} (hl : ps'.length = ps.length) (n : Nat) :
    SameResult (fun a b => b.length = a.length ∧ ps.length ≤ a.length ∧ ∀ j : Nat, j < ps.length → a[j]? = ps[j]? ∧ b[j]? = ps'[j]?)
      (resizeArr (fun _ => z) ps n) (resizeArr (fun _ => z') ps' n) := by
  unfold resizeArr
  rw [hl]
  split
  · refine SameResult.ok ⟨by simp [hl], by simp, fun j hj => ⟨List.getElem?_append_left hj, List.getElem?_append_left (by omega)⟩⟩
  · rfl

theorem resizeTree'_sim (z z' : P) {W : Nat → ℝ} {m q : Nat} {t t' : TreeArr ℝ P} (h : ArrR S W m q t t') (n : Nat) :
    SameResult (fun u u' => ArrR S W m q u u' ∧ u.nodeCount = t.nodeCount) (resizeTree' z t n) (resizeTree' z' t' n) := by
  unfold resizeTree'
  refine (resizeNodes_sim S h.nodes h.fits.1 n).bind fun a a' ha => ?_
  refine (resizePred_sim h.lenP n).bind fun b b' hb => ?_
  have hq := h.fits.2
  refine SameResult.pure ⟨⟨ha.1, hb.1, fun j p p' hj h1 h2 => ?_, h.count, rfl, h.binParts, h.bpCapacity, h.bpEnd, ha.2, by simp only; omega⟩, rfl⟩
  obtain ⟨e1, e2⟩ := hb.2.2 j (by omega)
  exact h.yPred j p p' hj (e1 ▸ h1) (e2 ▸ h2)

theorem resizeTree_sim (z z' : P) {W : Nat → ℝ} {m q : Nat} {t t' : TreeArr ℝ P} (h : ArrR S W m q t t') (o : Option Nat) :
    SameResult (fun u u' => ArrR S W m q u u' ∧ u.nodeCount = t.nodeCount) (resizeTree z t o) (resizeTree z' t' o) := by
  cases o with
  | none =>
    simp only [resizeTree, h.capacity]
    split
    · exact resizeTree'_sim S z z' h 3
    · exact resizeTree'_sim S z z' h _
  | some n =>
    simp only [resizeTree, h.capacity, h.nodes.1]
    split
    · exact SameResult.ok ⟨h, rfl⟩
    · exact resizeTree'_sim S z z' h n

theorem setChild_sim {W : Nat → ℝ} {m : Nat} {ns ns' : List (Node ℝ)} (h : NodesR S W m ns ns') (r : Record ℝ) (k : Nat) :
    SameResult (NodesR S W m) (setChild ns r k) (setChild ns' (r.sc S) k) := by
  unfold setChild
  rw [show (r.sc S).parent = r.parent from rfl, show (r.sc S).isLeft = r.isLeft from rfl]
  cases hp : r.parent with
  | none => exact SameResult.ok h
  | some p =>
    refine (NodesR.rd S h p).bind ?_
    rintro n _ ⟨x, rfl, h1, h2⟩
    refine NodesR.wr S h ⟨x, ?_, ?_⟩
    · split <;> rfl
    · split
      · exact ⟨h1, h2⟩
      · exact ⟨h1, h2⟩

theorem NodesR.length_wr {ns ns1 : List (Node ℝ)} {k : Nat} {n : Node ℝ} (h : Verif.wr ns k n = .ok ns1) : ns1.length = ns.length ∧ k < ns.length := by
  obtain ⟨h1, rfl⟩ := wr_ok.1 h
  exact ⟨by simp, h1⟩

theorem setChild_length {ns ns1 : List (Node ℝ)} {r : Record ℝ} {k : Nat} (h : setChild ns r k = .ok ns1) : ns1.length = ns.length := by
  unfold setChild at h
  split at h
  · injection h with h; rw [h]
  · rw [bind_eq_ok] at h
    obtain ⟨n, -, h⟩ := h
    exact (NodesR.length_wr h).1

/-- The new node: from `m` to `m + 1` nodes in use. -/
theorem writeNode_sim {W : Nat → ℝ} {q : Nat} {t t' : TreeArr ℝ P} (h : ArrR S W t.nodeCount q t t') (hq : q ≤ t.nodeCount) (r : Record ℝ)
    {nc nc' : NodeCtx ℝ Y P} (hn : NcR S nc nc') (i : SplitInfo) :
    SameResult (fun u u' => ArrR S (Function.update W t.nodeCount nc.wTrain) (t.nodeCount + 1) q u u' ∧ u.nodeCount = t.nodeCount)
      (writeNode t r nc i) (writeNode t' (r.sc S) nc' i) := by
  have hN : NodesR S (Function.update W t.nodeCount nc.wTrain) t.nodeCount t.nodes t'.nodes := by
    refine ⟨h.nodes.1, fun j n n' h1 h2 => ?_⟩
    obtain ⟨x, e1, e2, e3⟩ := h.nodes.2 j n n' h1 h2
    exact ⟨x, e1, fun hj => by rw [Function.update_of_ne (by omega)]; exact e2 hj, e3⟩
  unfold writeNode
  rw [h.count]
  refine (NodesR.rd S hN t.nodeCount).bind ?_
  rintro old _ ⟨x, rfl, -, -⟩
  rw [hn.nTrain, hn.nValid, hn.wTrain, hn.wValid]
  -- write the new node
  refine SameResult.bind (S := fun a b => NodesR S (Function.update W t.nodeCount nc.wTrain) (t.nodeCount + 1) a b ∧ a.length = t.nodes.length ∧
      t.nodeCount < t.nodes.length) ?_ fun a a' ha => ?_
  · refine (wr_sim h.nodes.1).mono ?_
    rintro u v ⟨rfl, rfl, hlt⟩
    refine ⟨⟨by simp [h.nodes.1], fun j a a' ha ha' => ?_⟩, by simp, hlt⟩
    by_cases hj : t.nodeCount = j
    · subst hj
      rw [List.getElem?_set_self hlt] at ha
      rw [List.getElem?_set_self (h.nodes.1 ▸ hlt)] at ha'
      injection ha with ha
      injection ha' with ha'
      refine ⟨nc'.loss, ?_, ?_, ?_⟩
      · rw [← ha, ← ha']
        cases i.isLeaf <;> rfl
      · rw [← ha]
        intro _
        rw [Function.update_self]
        cases i.isLeaf <;> rfl
      · rw [← ha]
        cases i.isLeaf with
        | true => exact fun h0 => hn.loss (h0.resolve_right (by omega))
        | false => exact fun h0 => hn.loss (h0.resolve_right (by omega))
    · rw [List.getElem?_set_ne hj] at ha ha'
      obtain ⟨x, e1, e2, e3⟩ := hN.2 j a a' ha ha'
      exact ⟨x, e1, fun h0 => e2 (by omega), fun h0 => e3 (h0.imp id (by omega))⟩
  · refine ((setChild_sim S ha.1 r _).and (Q := fun b => b.length = a.length) fun x hx => setChild_length hx).bind ?_
    rintro b b' ⟨hb, hlen⟩
    refine SameResult.pure ⟨⟨hb, h.lenP, fun j p p' hj h1 h2 => ?_, rfl, h.capacity, h.binParts, h.bpCapacity, h.bpEnd, ?_, h.fits.2⟩, rfl⟩
    · rw [Function.update_of_ne (by omega)]
      exact h.yPred j p p' hj h1 h2
    · simp only
      have := ha.2
      omega

theorem resizeBinParts_sim (g : Nat → Nat) {W : Nat → ℝ} {m q : Nat} {t t' : TreeArr ℝ P} (h : ArrR S W m q t t') (n : Nat) :
    SameResult (ArrR S W m q) (resizeBinParts g t n) (resizeBinParts g t' n) := by
  unfold resizeBinParts
  rw [h.bpCapacity, h.binParts]
  split
  · exact SameResult.ok h
  · refine SameResult.same.bind ?_
    rintro b _ rfl
    exact SameResult.pure ⟨h.nodes, h.lenP, h.yPred, h.count, h.capacity, rfl, rfl, h.bpEnd, h.fits⟩

theorem writePartition_sim (g : Nat → Nat) {W : Nat → ℝ} {m q : Nat} {t t' : TreeArr ℝ P} (h : ArrR S W m q t t') (i : SplitInfo) :
    SameResult (ArrR S W m q) (writePartition g t i) (writePartition g t' i) := by
  unfold writePartition
  rw [h.count, h.bpEnd]
  have key : ∀ {u u' : TreeArr ℝ P}, ArrR S W m q u u' → ∀ a b, SameResult (fun x y => NodesR S W m x y ∧ x.length = u.nodes.length)
      (do let node ← rd u.nodes t.nodeCount; wr u.nodes t.nodeCount { node with bpS := a, bpE := b })
      (do let node ← rd u'.nodes t.nodeCount; wr u'.nodes t.nodeCount { node with bpS := a, bpE := b }) := by
    intro u u' hu a b
    refine SameResult.and ?_ fun x hx => ?_
    · refine (NodesR.rd S hu.nodes _).bind ?_
      rintro n _ ⟨x, rfl, h1, h2⟩
      exact NodesR.wr S hu.nodes ⟨x, rfl, h1, h2⟩
    · rw [bind_eq_ok] at hx
      obtain ⟨n, -, hx⟩ := hx
      exact (NodesR.length_wr hx).1
  split
  · refine SameResult.bind (S := ArrR S W m q) ?_ fun u u' hu => ?_
    · rw [h.bpCapacity]
      split
      · exact resizeBinParts_sim S g h _
      · exact SameResult.ok h
    · rw [hu.binParts]
      refine SameResult.same.bind ?_
      rintro b _ rfl
      have := (key hu t.bpEnd (t.bpEnd + i.partition.length)).bind (S' := ArrR S W m q)
        (f := fun nodes => Pure.pure { u with binParts := b, nodes := nodes, bpEnd := t.bpEnd + i.partition.length })
        (g := fun nodes => Pure.pure { u' with binParts := b, nodes := nodes, bpEnd := t.bpEnd + i.partition.length })
        fun c c' hc => SameResult.pure ⟨hc.1, hu.lenP, hu.yPred, hu.count, hu.capacity, rfl, hu.bpCapacity, rfl, by simp only; rw [hc.2]; exact hu.fits⟩
      simpa only [bind_assoc] using this
  · have := (key h 0 0).bind (S' := ArrR S W m q) (f := fun nodes => Pure.pure { t with nodes := nodes })
        (g := fun nodes => Pure.pure { t' with nodes := nodes, nodeCount := t.nodeCount, bpEnd := t.bpEnd })
        fun c c' hc => SameResult.pure ⟨hc.1, h.lenP, h.yPred, rfl, h.capacity, h.binParts, h.bpCapacity, rfl, by simp only; rw [hc.2]; exact h.fits⟩
    simpa only [bind_assoc] using this

theorem writePartition_count {g : Nat → Nat} {t u : TreeArr ℝ P} {i : SplitInfo} (h : writePartition g t i = .ok u) : u.yPred = t.yPred := by
  unfold writePartition at h
  split at h
  · rw [bind_eq_ok] at h
    obtain ⟨v, hv, h⟩ := h
    have : v.yPred = t.yPred := by
      split at hv
      · unfold resizeBinParts at hv
        split at hv
        · injection hv with hv; rw [hv]
        · rw [bind_eq_ok] at hv
          obtain ⟨b, -, hv⟩ := hv
          injection hv with hv
          rw [← hv]
      · injection hv with hv; rw [hv]
    simp only [bind_eq_ok] at h
    obtain ⟨bp, -, node, -, nodes, -, h⟩ := h
    injection h with h
    rw [← h]
    exact this
  · simp only [bind_eq_ok] at h
    obtain ⟨node, -, nodes, -, h⟩ := h
    injection h with h
    rw [← h]

theorem addNode_sim (z z' : P) (g : Nat → Nat) {W : Nat → ℝ} {t t' : TreeArr ℝ P} (h : ArrR S W t.nodeCount t.nodeCount t t') (r : Record ℝ)
    {nc nc' : NodeCtx ℝ Y P} (hn : NcR S nc nc') (i : SplitInfo) :
    SameResult (fun x y => ArrR S (Function.update W t.nodeCount nc.wTrain) (t.nodeCount + 1) t.nodeCount x.1 y.1 ∧ x.1.nodeCount = t.nodeCount + 1 ∧
        x.2 = t.nodeCount ∧ y.2 = t.nodeCount)
      (addNode z g t r nc i) (addNode z' g t' (r.sc S) nc' i) := by
  unfold addNode
  rw [h.count, h.capacity]
  refine SameResult.bind (S := fun u u' => ArrR S W t.nodeCount t.nodeCount u u' ∧ u.nodeCount = t.nodeCount) ?_ fun u u' hu => ?_
  · split
    · exact resizeTree_sim S z z' h none
    · exact SameResult.ok ⟨h, rfl⟩
  · obtain ⟨hu, hc⟩ := hu
    have := writeNode_sim S (t := u) (t' := u') (W := W) (q := t.nodeCount) (by rw [hc]; exact hu) (by omega) r hn i
    rw [hc] at this
    refine this.bind fun a a' ha => ?_
    refine (writePartition_sim S g ha.1 i).bind fun b b' hb => ?_
    exact SameResult.pure ⟨⟨hb.nodes, hb.lenP, hb.yPred, rfl, hb.capacity, hb.binParts, hb.bpCapacity, hb.bpEnd, hb.fits⟩, rfl, rfl, rfl⟩

/-- Related stacks. -/
structure RecsR (s s' : Records ℝ) : Prop where
  capacity : s'.capacity = s.capacity
  top : s'.top = s.top
  len : s'.stack.length = s.stack.length
  fits : s.top ≤ s.stack.length
  stack : ∀ (j : Nat) r r', j < s.top → s.stack[j]? = some r → s'.stack[j]? = some r' → r' = r.sc S

theorem push_sim (gb : Garbage ℝ) {s s' : Records ℝ} (h : RecsR S s s') (r : Record ℝ) :
    SameResult (RecsR S) (s.push gb r) (s'.push gb (r.sc S)) := by
  unfold Records.push
  refine SameResult.bind (S := RecsR S) ?_ fun u u' hu => ?_
  · rw [h.capacity, h.top]
    split
    · refine SameResult.bind (S := fun a b => b.length = a.length ∧ s.top ≤ a.length ∧
          ∀ j : Nat, j < s.top → a[j]? = s.stack[j]? ∧ b[j]? = s'.stack[j]?) ?_ fun a b hab => ?_
      · have hf := h.fits
        have hl := h.len
        unfold resizeArr
        rw [h.len]
        split
        · refine SameResult.ok ⟨by simp [hl], by simp; omega, fun j hj => ⟨List.getElem?_append_left (by omega), List.getElem?_append_left (by omega)⟩⟩
        · rfl
      · refine SameResult.pure ⟨rfl, rfl, hab.1, hab.2.1, fun j r r' hj h1 h2 => ?_⟩
        obtain ⟨e1, e2⟩ := hab.2.2 j hj
        exact h.stack j r r' hj (e1 ▸ h1) (e2 ▸ h2)
    · exact SameResult.ok h
  · rw [hu.top]
    refine (wr_sim hu.len).bind ?_
    rintro a b ⟨rfl, rfl, hlt⟩
    refine SameResult.pure ⟨hu.capacity, rfl, by simp [hu.len], by simp; omega, fun j x x' hj h1 h2 => ?_⟩
    by_cases hjt : u.top = j
    · subst hjt
      simp only [List.getElem?_set_self hlt] at h1
      simp only [List.getElem?_set_self (hu.len ▸ hlt)] at h2
      injection h1 with h1
      injection h2 with h2
      rw [← h1, ← h2]
    · simp only [List.getElem?_set_ne hjt] at h1 h2
      simp only at hj
      exact hu.stack j x x' (by omega) h1 h2

theorem pop_sim {s s' : Records ℝ} (h : RecsR S s s') : SameResult (fun x y => y.1 = x.1.sc S ∧ RecsR S x.2 y.2) s.pop s'.pop := by
  unfold Records.pop
  rw [h.top]
  refine (SameResult.same.and (Q := fun t => t < s.top) fun x hx => ?_).bind ?_
  · unfold usub at hx
    split at hx
    · injection hx with hx
      omega
    · exact absurd hx (by simp)
  rintro top _ ⟨rfl, ht⟩
  refine (rd_sim (S := fun r r' => r' = r.sc S) h.len fun r r' h1 h2 => h.stack top r r' ht h1 h2).bind ?_
  rintro r _ rfl
  have := h.fits
  exact SameResult.pure ⟨rfl, h.capacity, rfl, h.len, by simp only; omega, fun j x x' hj h1 h2 => h.stack j x x' (by simp only at hj; omega) h1 h2⟩

/-- Related states of the loop. -/
structure StR (s s' : GState ℝ P G) : Prop where
  tree : ∃ W, ArrR S W s.tree.nodeCount s.tree.nodeCount s.tree s'.tree
  recs : RecsR S s.recs s'.recs
  work : s'.work = s.work

theorem growStep_sim (R : Rng G) (hc : CtxR S c c') (ho : (∀ b ∈ c.isCategorical, b = false) ∨ SameOrders S) (gb : Garbage ℝ)
    {s s' : GState ℝ P G} (h : StR S s s') : SameResult (StR S) (growStep R T c gb s) (growStep R T' c' gb s') := by
  unfold growStep
  refine (pop_sim S h.recs).bind ?_
  rintro ⟨r, recs⟩ ⟨_, recs'⟩ ⟨rfl, hr⟩
  simp only at hr ⊢
  rw [h.work]
  refine (computeNodeContext_sim S R hc s.work _ _ _ _).bind ?_
  rintro ⟨nc, k0⟩ ⟨nc', k⟩ ⟨⟨hn, hk⟩, hs⟩
  obtain rfl : k = k0 := hk
  simp only at hn hs ⊢
  refine (chooseSplit_sim S hc ho r hn hs k).bind ?_
  rintro ⟨sp, g⟩ _ rfl
  simp only
  obtain ⟨W, hW⟩ := h.tree
  rw [show (sp.sc S).info = sp.info from rfl]
  refine (addNode_sim S T.zeroP T'.zeroP gb.bin hW r hn sp.info).bind ?_
  rintro ⟨t, j⟩ ⟨t', j'⟩ ⟨ht, hcount, rfl, rfl⟩
  simp only at ht hcount ⊢
  refine (wr_sim ht.lenP).bind ?_
  rintro ps ps' ⟨rfl, rfl, hlt⟩
  have hT : ∃ W, ArrR S W t.nodeCount t.nodeCount { t with yPred := t.yPred.set s.tree.nodeCount nc.yPred }
      { t' with yPred := t'.yPred.set s.tree.nodeCount nc'.yPred } := by
    refine ⟨Function.update W s.tree.nodeCount nc.wTrain, hcount ▸ ht.nodes, by simp [ht.lenP], fun j p p' hj h1 h2 => ?_, ht.count, ht.capacity,
      ht.binParts, ht.bpCapacity, ht.bpEnd, hcount ▸ ht.fits.1, by simp; omega⟩
    by_cases hjt : s.tree.nodeCount = j
    · subst hjt
      rw [List.getElem?_set_self hlt] at h1
      rw [List.getElem?_set_self (ht.lenP ▸ hlt)] at h2
      injection h1 with h1
      injection h2 with h2
      rw [← h1, ← h2, Function.update_self]
      exact hn.yPred
    · rw [List.getElem?_set_ne hjt] at h1 h2
      exact ht.yPred j p p' (by omega) h1 h2
  rw [show (sp.sc S).found = sp.found from rfl]
  split
  · have : ∀ k sT eT sV eV, splitIndices c' (sp.sc S) k sT eT sV eV = splitIndices (G := G) c sp k sT eT sV eV := by
      intro k sT eT sV eV
      rw [hc.eq]
      rfl
    rw [this]
    refine SameResult.same.bind ?_
    rintro ⟨w, pT, pV⟩ _ rfl
    simp only
    refine (push_sim S gb hr _).bind fun r1 r1' h1 => ?_
    refine (push_sim S gb h1 _).bind fun r2 r2' h2 => ?_
    exact SameResult.pure ⟨hT, h2, rfl⟩
  · exact SameResult.pure ⟨hT, hr, rfl⟩

theorem growLoop_sim (R : Rng G) (hc : CtxR S c c') (ho : (∀ b ∈ c.isCategorical, b = false) ∨ SameOrders S) (gb : Garbage ℝ) (n : Nat)
    {s s' : GState ℝ P G} (h : StR S s s') : SameResult (StR S) (growLoop R T c gb n s) (growLoop R T' c' gb n s') := by
  induction n generalizing s s' with
  | zero =>
    unfold growLoop Records.nonEmpty
    rw [h.recs.top]
    split
    · rfl
    · exact h
  | succ n ih =>
    unfold growLoop Records.nonEmpty
    rw [h.recs.top]
    split
    · exact (growStep_sim S R hc ho gb h).bind fun x y hxy => ih hxy
    · exact h

theorem growRaw_sim (R : Rng G) (hc : CtxR S c c') (ho : (∀ b ∈ c.isCategorical, b = false) ∨ SameOrders S) (gb : Garbage ℝ) (seed : Nat)
    (train valid : List Nat) :
    SameResult (StR S) (growRaw R T c gb (initWork R c gb seed train valid)) (growRaw R T' c' gb (initWork R c' gb seed train valid)) := by
  have hi : initWork R c' gb seed train valid = initWork R c gb seed train valid := by rw [hc.eq]; rfl
  rw [hi]
  unfold growRaw
  have h0 : ArrR S (fun _ => 0) 0 0 (TreeArr.empty : TreeArr ℝ P) TreeArr.empty :=
    ⟨⟨rfl, fun j n n' h => absurd h (by simp [TreeArr.empty])⟩, rfl, fun j _ _ hj => absurd hj (by omega), rfl, rfl, rfl, rfl, rfl, by simp⟩
  refine (resizeTree_sim S T.zeroP T'.zeroP h0 (some 2047)).bind ?_
  rintro t t' ⟨ht, hcount⟩
  have hr : RecsR S (Records.init gb 10) (Records.init gb 10) :=
    ⟨rfl, rfl, rfl, by simp [Records.init], fun j _ _ hj => absurd hj (by simp [Records.init])⟩
  refine (push_sim S gb hr _).bind fun r r' hr => ?_
  refine growLoop_sim S R hc ho gb _ ⟨⟨fun _ => 0, ?_⟩, hr, rfl⟩
  simp only
  rw [hcount]
  exact ht

end

end Verif
