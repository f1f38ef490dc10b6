import Verif.Proofs.RescaleGrow
import Verif.Proofs.StepSetter
import Verif.Proofs.Climb
import Verif.Proofs.RealSplit

set_option linter.unusedSectionVars false

/-! Fitted trees in lockstep, see Proofs/Rescale.lean. -/
namespace Verif

open Spec

variable {Y P G : Type} {T T' : Task ℝ Y P G}

section
variable (S : TaskSim T T') {c c' : Ctx ℝ}

/-- The final relation between the nodes. -/
noncomputable def Node.scl (n : Node ℝ) : Node ℝ := n.sc S (S.lam * n.loss)

/-- Related fitted trees. -/
structure ArrF (RF : P → P → Prop) (t t' : TreeArr ℝ P) : Prop where
  nodes : t'.nodes = t.nodes.map (Node.scl S)
  count : t'.nodeCount = t.nodeCount
  binParts : t'.binParts = t.binParts
  lenP : t'.yPred.length = t.yPred.length
  yPred : ∀ (j : Nat) p p', j < t.nodeCount → t.yPred[j]? = some p → t'.yPred[j]? = some p' → RF p p'

theorem set_scl (ns : List (Node ℝ)) (k : Nat) (n : Node ℝ) (x : Option ℝ) :
    (ns.map (Node.scl S)).set k { n.scl S with logW := x } = (ns.set k { n with logW := x }).map (Node.scl S) := by
  rw [List.map_set]
  rfl

theorem own_same {step step' : ℝ} (h : step' * S.lam = step) (x : ℝ) :
    Num.mul (Num.neg step') (S.lam * x) = Num.mul (Num.neg step) x := by
  show -step' * (S.lam * x) = -step * x
  rw [← h]
  ring

theorem weightStep_sim {step step' : ℝ} (h : step' * S.lam = step) (ns : List (Node ℝ)) (k : Nat) :
    SameResult (fun a b => b = a.map (Node.scl S)) (weightStep step ns k) (weightStep step' (ns.map (Node.scl S)) k) := by
  unfold weightStep
  refine (rd_map_sim _).bind ?_
  rintro n _ ⟨rfl, -⟩
  simp only
  rw [show (n.scl S).loss = S.lam * n.loss from rfl, own_same S h, show (n.scl S).isLeaf = n.isLeaf from rfl,
    show (n.scl S).left = n.left from rfl, show (n.scl S).right = n.right from rfl]
  have hw : ∀ x : Option ℝ, SameResult (fun a b => b = a.map (Node.scl S)) (wr ns k { n with logW := x })
      (wr (ns.map (Node.scl S)) k { n.scl S with logW := x }) := by
    intro x
    refine (wr_sim (by simp)).mono ?_
    rintro a b ⟨rfl, rfl, -⟩
    exact set_scl S ns k n x
  split
  · exact hw _
  · refine SameResult.same.bind ?_
    rintro l _ rfl
    refine SameResult.same.bind ?_
    rintro r _ rfl
    refine (rd_map_sim _).bind ?_
    rintro ln _ ⟨rfl, -⟩
    refine (rd_map_sim _).bind ?_
    rintro rn _ ⟨rfl, -⟩
    rw [show (ln.scl S).logW = ln.logW from rfl, show (rn.scl S).logW = rn.logW from rfl]
    split
    · exact hw _
    · rfl

theorem weights_sim {step step' : ℝ} (h : step' * S.lam = step) (ns : List (Node ℝ)) (m : Nat) :
    SameResult (fun a b => b = a.map (Node.scl S)) (computeTreeWeights ns m step) (computeTreeWeights (ns.map (Node.scl S)) m step') := by
  unfold computeTreeWeights
  refine SameResult.foldlM (fun a b x hab => ?_) rfl
  rw [hab]
  exact weightStep_sim S h a x

/-! ### The fit -/

variable {R : Rng G} {D : Data ℝ} {lab : ℝ → Prop} {okP : P → Prop} {gb : Garbage ℝ} {seed : Nat} {train valid : List Nat}
  {arr : TreeArr ℝ P} {w : Work G} {t : GTree ℝ Y P}

theorem Facts.wTrain_pos (h : Facts T c D lab okP train valid arr w t) (hpos : ∀ i, i < D.n → 0 < D.w i) {k : Nat} {n : Node ℝ} (hn : NodeAt arr k n) :
    0 < n.wTrain := by
  obtain ⟨u, hu⟩ := h.ofNode hn
  obtain ⟨bS, bE, e, -⟩ := hu.holds.node
  have hg : NodeFacts T c D lab okP u.root := by
    cases u with
    | leaf a => exact hu.ok.1
    | node a l r => exact hu.ok.1
  obtain ⟨f, -, h2, -⟩ := hg.stats
  rw [e]
  show 0 < u.root.nc.wTrain
  rw [h2.wTrain, sumW_real]
  exact totalW_pos (fun i hi => hpos i (hg.okTrain i hi).1) hg.nonempty

theorem ArrR.final {W : Nat → ℝ} {RF : P → P → Prop} (hRF : ∀ w p p', S.NZ w → S.RP w p p' → RF p p') {u u' : TreeArr ℝ P}
    (h : ArrR S W u.nodeCount u.nodeCount u u') (hpos : ∀ (k : Nat) n, k < u.nodeCount → u.nodes[k]? = some n → S.NZ n.wTrain) : ArrF S RF u u' where
  nodes := by
    refine List.ext_getElem? fun j => ?_
    by_cases hj : j < u.nodes.length
    · have h1 := List.getElem?_eq_getElem hj
      have h2 := List.getElem?_eq_getElem (h.nodes.1 ▸ hj : j < u'.nodes.length)
      obtain ⟨x, e, -, e2⟩ := h.nodes.2 j _ _ h1 h2
      rw [List.getElem?_map, h1, h2, e]
      rw [e2 ?_]
      · rfl
      · by_cases hk : j < u.nodeCount
        · exact Or.inl (hpos j _ hk h1)
        · exact Or.inr (by omega)
    · rw [List.getElem?_eq_none (by rw [h.nodes.1]; omega), List.getElem?_eq_none (by simp; omega)]
  count := h.count
  binParts := h.binParts
  lenP := h.lenP
  yPred j p p' hj h1 h2 := by
    have hl : j < u.nodes.length := by have := h.fits.1; omega
    have e1 := List.getElem?_eq_getElem hl
    have e2 := List.getElem?_eq_getElem (h.nodes.1 ▸ hl : j < u'.nodes.length)
    obtain ⟨x, -, e, -⟩ := h.nodes.2 j _ _ e1 e2
    refine hRF (W j) p p' ?_ (h.yPred j p p' hj h1 h2)
    rw [← e hj]
    exact hpos j _ hj e1

/-- The two fits. -/
theorem fitTree_sim {RF : P → P → Prop} (hRF : ∀ w p p', S.NZ w → S.RP w p p' → RF p p') (hc : CtxR S c c')
    (ho : (∀ b ∈ c.isCategorical, b = false) ∨ SameOrders S) (hstep : c'.step * S.lam = c.step)
    (h : Facts T c D lab okP train valid arr w t) (hpos : (∀ x, S.NZ x) ∨ (∀ i, i < D.n → 0 < D.w i) ∧ ∀ x, x ≠ 0 → S.NZ x)
    (hf : fitTree R T c gb seed train valid = .ok (arr, w)) :
    ∃ arr', fitTree R T' c' gb seed train valid = .ok (arr', w) ∧ ArrF S RF arr arr' := by
  obtain ⟨s, h1, h2, h3⟩ := fitTree_raw hf
  have hs := growRaw_sim S R hc ho gb seed train valid
  rw [h1] at hs
  cases h1' : growRaw R T' c' gb (initWork R c' gb seed train valid) with
  | error e => rw [h1'] at hs; exact hs.elim
  | ok s' =>
    rw [h1'] at hs
    obtain ⟨⟨W, hW⟩, -, hwork⟩ : StR S s s' := hs
    have hagg : c'.aggregation = c.aggregation := by rw [hc.eq]
    have hsame : SameBut s.tree.nodes arr.nodes ∧ arr.nodeCount = s.tree.nodeCount := by
      rcases h3 with ⟨-, ns, -, rfl, hb⟩ | ⟨-, rfl⟩
      · exact ⟨hb, rfl⟩
      · exact ⟨SameBut.refl _, rfl⟩
    have hp : ∀ (k : Nat) n, k < s.tree.nodeCount → s.tree.nodes[k]? = some n → S.NZ n.wTrain := by
      intro k n hk hn
      obtain ⟨x, hx⟩ := hsame.1.2 k n hn
      rcases hpos with hpos | ⟨hpos, hnz⟩
      · exact hpos _
      refine hnz _ (ne_of_gt ?_)
      exact h.wTrain_pos hpos (k := k) (n := { n with logW := x }) ⟨by rw [hsame.2]; exact hk, hx⟩
    have hF := hW.final S hRF hp
    rcases h3 with ⟨ha, ns, hns, rfl, -⟩ | ⟨ha, rfl⟩
    · have := weights_sim S hstep s.tree.nodes s.tree.nodeCount
      rw [hns] at this
      cases hns' : computeTreeWeights (s.tree.nodes.map (Node.scl S)) s.tree.nodeCount c'.step with
      | error e => rw [hns'] at this; exact this.elim
      | ok ns' =>
        rw [hns'] at this
        have this : ns' = ns.map (Node.scl S) := this
        refine ⟨{ s'.tree with nodes := ns' }, ?_, this, hF.count, hF.binParts, hF.lenP, hF.yPred⟩
        rw [fitTree_eq, h1', bind_ok]
        unfold growEnd
        rw [hagg, ha, if_pos rfl, hF.nodes, hF.count, hns', bind_ok, hwork, h2]
        rfl
    · refine ⟨s'.tree, ?_, hF⟩
      rw [fitTree_eq, h1', bind_ok]
      unfold growEnd
      rw [hagg, ha, hwork, h2]
      rfl

/-! ### Predictions -/

variable {RF : P → P → Prop} {arr' : TreeArr ℝ P}

theorem findLeaf_same (hA : ArrF S RF arr arr') (fba : FBA) (i : Nat) : findLeaf arr fba i = findLeaf arr' fba i := by
  have key : ∀ fuel k, findLeafFrom arr fba i fuel k = findLeafFrom arr' fba i fuel k := by
    intro fuel
    induction fuel with
    | zero => exact fun _ => rfl
    | succ m ih =>
      intro k
      unfold findLeafFrom
      rw [hA.nodes]
      refine SameResult.eq ((rd_map_sim (Node.scl S)).bind ?_)
      rintro n _ ⟨rfl, -⟩
      rw [show (n.scl S).isLeaf = n.isLeaf from rfl, show childOf arr' fba i (n.scl S) = childOf arr fba i n by
        unfold childOf; rw [hA.binParts]; rfl]
      split
      · exact SameResult.same
      · refine SameResult.same.bind ?_
        rintro k' _ rfl
        rw [ih]
        exact SameResult.same
  unfold findLeaf
  rw [hA.count]
  exact key _ _

theorem leaf_lt (h : Facts T c D lab okP train valid arr w t) {fba : FBA} {i : Nat} : ∀ (fuel k j : Nat), k < arr.nodeCount →
    findLeafFrom arr fba i fuel k = .ok j → j < arr.nodeCount := by
  intro fuel
  induction fuel with
  | zero => exact fun _ _ _ h => absurd h (by simp [findLeafFrom])
  | succ m ih =>
    intro k j hk hj
    unfold findLeafFrom at hj
    rw [bind_eq_ok] at hj
    obtain ⟨n, hn, hj⟩ := hj
    obtain ⟨u, hu⟩ := h.ofNode (k := k) (n := n) ⟨hk, rd_ok.1 hn⟩
    rcases hu.shape with ⟨a, -, hl, -⟩ | ⟨a, l, r, rfl, hl, h1, h2⟩
    · rw [hl, if_pos rfl] at hj
      injection hj with hj
      omega
    · rw [hl] at hj
      simp only [Bool.false_eq_true, if_false] at hj
      rw [bind_eq_ok] at hj
      obtain ⟨k', hk', hj⟩ := hj
      refine ih k' j ?_ hj
      have hr := hu.sub.range
      simp only [GTree.size] at hr
      have := l.size_pos
      rw [h.count]
      unfold childOf at hk'
      simp only [bind_eq_ok] at hk'
      obtain ⟨-, -, -, -, b, -, hk'⟩ := hk'
      rw [h1, h2] at hk'
      cases b with
      | true =>
        injection hk' with hk'
        omega
      | false =>
        injection hk' with hk'
        omega

theorem climb_sim (h : Facts T c D lab okP train valid arr w t) (hA : ArrF S RF arr arr') {step step' : ℝ} (hstep : step' * S.lam = step)
    {mix : ℝ → P → P → P} (hmix : ∀ x a a' b b', RF a a' → RF b b' → RF (mix x a b) (mix x a' b')) :
    ∀ (fuel k : Nat) (v v' : P), k < arr.nodeCount → RF v v' →
      SameResult RF (climb arr.nodes step (rd arr.yPred) mix fuel k v) (climb arr'.nodes step' (rd arr'.yPred) mix fuel k v') := by
  intro fuel
  induction fuel with
  | zero => exact fun _ _ _ _ _ => rfl
  | succ m ih =>
    intro k v v' hk hv
    unfold climb
    split
    · rename_i hk0
      rw [hA.nodes]
      refine (rd_map_sim _).bind ?_
      rintro n _ ⟨rfl, hn⟩
      rw [show (n.scl S).parent = n.parent from rfl]
      obtain ⟨u, hu⟩ := h.ofNode (k := k) (n := n) ⟨hk, hn⟩
      obtain ⟨q, isL, a, l, r, hlt, hch⟩ := h.childOf hu.sub hk0
      have hpar : n.parent = some q := by
        rw [hu.holds.fields.2.1, hch.rcd]; cases isL <;> rfl
      rw [hpar]
      simp only [idx, bind_ok]
      have hq : q < arr.nodeCount := by omega
      refine (rd_map_sim _).bind ?_
      rintro pn _ ⟨rfl, -⟩
      refine (rd_sim hA.lenP fun x y hx hy => hA.yPred q x y hq hx hy).bind fun pv pv' hpv => ?_
      rw [show nodeAlpha step' (pn.scl S) = nodeAlpha step pn by
        unfold nodeAlpha
        rw [show (pn.scl S).logW = pn.logW from rfl, show (pn.scl S).loss = S.lam * pn.loss from rfl, own_same S hstep]]
      refine SameResult.same.bind ?_
      rintro al _ rfl
      have := ih q _ _ hq (hmix al pv pv' v v' hpv hv)
      rw [hA.nodes] at this
      exact this
    · exact hv

theorem predictRow_sim (h : Facts T c D lab okP train valid arr w t) (hA : ArrF S RF arr arr') {step step' : ℝ} (hstep : step' * S.lam = step)
    {mix : ℝ → P → P → P} (hmix : ∀ x a a' b b', RF a a' → RF b b' → RF (mix x a b) (mix x a' b')) (fba : FBA) (agg : Bool) (i : Nat) :
    SameResult RF (predictRow mix arr fba agg step i) (predictRow mix arr' fba agg step' i) := by
  unfold predictRow
  rw [← findLeaf_same S hA, hA.count]
  refine (SameResult.same.and (Q := fun k => k < arr.nodeCount) fun k hk => leaf_lt h _ _ _ (by rw [h.count]; exact t.size_pos) hk).bind ?_
  · rintro k _ ⟨rfl, hk⟩
    refine (rd_sim hA.lenP fun x y hx hy => hA.yPred k x y hk hx hy).bind fun p p' hp => ?_
    split
    · exact climb_sim S h hA hstep hmix _ _ _ _ hk hp
    · exact hp

theorem treePredict_sim (h : Facts T c D lab okP train valid arr w t) (hA : ArrF S RF arr arr') {step step' : ℝ} (hstep : step' * S.lam = step)
    {mix : ℝ → P → P → P} (hmix : ∀ x a a' b b', RF a a' → RF b b' → RF (mix x a b) (mix x a' b')) (fba : FBA) (agg : Bool) :
    SameResult (List.Forall₂ RF) (treePredict mix arr fba agg step) (treePredict mix arr' fba agg step') :=
  SameResult.mapM fun i _ => predictRow_sim S h hA hstep hmix fba agg i

end

end Verif
