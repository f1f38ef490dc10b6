import Verif.Proofs.ExactSums
import Verif.Proofs.FullTree

/-! Leaves of trees without limits, when the sums are exact. -/
set_option linter.unusedSectionVars false
namespace Verif

open Spec

section
variable {F Y P G V : Type} [Num F] [AddCommGroup V] {T : Task F Y P G} {lab : F → Prop} {okY : Y → Prop} {okP : P → Prop} {c : Ctx F} {D : Data F}
  {train valid : List Nat} {arr : TreeArr F P} {w : Work G} {t : GTree F Y P}

/-- The training samples of a node are among those of the tree, in the same order. -/
theorem Facts.train_sublist (h : Facts T c D lab okP train valid arr w t) {k : Nat} {u : GTree F Y P} (hs : SubAt t 0 u k) :
    u.root.train.Sublist train := by
  rw [(h.routed k u hs).1]
  exact List.filter_sublist

/-- The recorded impurity of a node other than the root comes from the sums over its training samples. -/
theorem ExactSums.impurity {Rw : F → ℤ → Prop} {bw : ℤ → Prop} {kw : Nat → ℤ} {Ry : Y → V → Prop} {bv : V → Prop} {e : Nat → V}
    {Q : ℤ → V → F → Prop} (E : ExactSums T D train Rw bw kw Ry bv e) (hT : TaskSafe T lab okY okP)
    (hQ : ∀ {wL wR a b x y u u' v v'}, T.childs wL wR a b = .ok (x, y) → Rw wL u → Rw wR u' → Ry a v → Ry b v' → Q u v x ∧ Q u' v' y)
    (hD : Holds c D) (hp : ParamsOK c D) (h : Facts T c D lab okP train valid arr w t) {k : Nat} {u : GTree F Y P} (hs : SubAt t 0 u k) (hk : k ≠ 0) :
    ∃ x, u.root.rcd.impurity = some x ∧ Q (u.root.train.map kw).sum (u.root.train.map e).sum x := by
  obtain ⟨p, isL, a, l, r, -, hc⟩ := h.childOf hs hk
  obtain ⟨hnf, hfd, -⟩ := h.ok.sub hc.sub
  obtain ⟨feats, h1, h2, h3, h4⟩ := hnf.stats
  have hstop := (hnf.split hfd).1
  obtain ⟨g, g', hsp⟩ := h4 hstop
  have hv : c.aggregation = true → a.valid ≠ [] := by
    intro ha hv
    have := (stopHere_false hstop).2.1 ha
    rw [h2.nValid, hv] at this
    have := hp.minSplit
    simp at *
    omega
  obtain ⟨hh, isCat, cumsum, pre, H, k1, k2, k3, k4⟩ := found_origin hT hD h2 h1.2.2 hnf.okTrain hnf.okValid hv hsp hfd
  have E' := E.sub (h.train_sublist hc.sub)
  simp only [GTree.root] at E'
  obtain ⟨r1, r2, r3, r4⟩ := E'.accOf H h2.wTrain isCat (cumsum := cumsum) pre k1 k2
  have hf1 : (a.train.filter fun i => decide (D.X i a.sp.feature ∈ pre)) = a.leftT D := List.filter_congr fun i hi => (k3 i hi).symm
  have hf2 : (a.train.filter fun i => !decide (D.X i a.sp.feature ∈ pre)) = a.rightT D := List.filter_congr fun i hi => by rw [k3 i hi]
  rw [hf1] at r1 r3
  rw [hf2] at r2 r4
  obtain ⟨q1, q2⟩ := hQ k4 r1 r2 r3 r4
  rw [hc.rcd, hc.train]
  cases isL with
  | true => exact ⟨_, rfl, q1⟩
  | false => exact ⟨_, rfl, q2⟩

/-- A leaf of a tree without limits: one sample, or all samples have the same bins, or the recorded impurity is not positive. -/
theorem leaf_reason {R : Rng G} {gb : Garbage F} {seed N : Nat} (hV : ValidTask T lab) (hT : TaskSafe T lab okY okP)
    (hne : ∀ bins ySum g os g', T.orders bins ySum g = .ok (os, g') → os ≠ [])
    (hG : GainLaws F) (hI : LtIrrefl F) (hinf : ∀ x : F, Num.gtNegInf x = true) (hin : FitInput c D lab train valid)
    (hf : fitTree R T c gb seed train valid = .ok (arr, w)) (h : Facts T c D lab okP train valid arr w t)
    (hN : train.length ≤ N) (hlim : LimitFor N c.maxDepth none) (hagg : c.aggregation = false) (hsplit : c.minSplit = 2) (hleaf : c.minLeaf = 1)
    (hmf : c.maxFeatures = D.d) {k : Nat} {a : GNode F Y P} (hs : SubAt t 0 (.leaf a) k) {i r : Nat} (hi : i ∈ a.train) (hr : r ∈ a.train) :
    r = i ∨ (∀ j < D.d, D.X r j = D.X i j) ∨ k ≠ 0 ∧ ∃ x, a.rcd.impurity = some x ∧ Num.le x Num.zero = true := by
  obtain ⟨hnf, hfd, -⟩ := h.ok.sub hs
  obtain ⟨feats, h1, h2, h3, h4⟩ := hnf.stats
  obtain ⟨n, hn, hb⟩ := h.below hs
  cases hstop : stopHere c a.rcd a.nc.nTrain a.nc.nValid with
  | true =>
    rcases stopHere_true hstop with h0 | ⟨h0, -⟩ | h0 | h0
    · left
      rw [hsplit, h2.nTrain] at h0
      match hl : a.train with
      | [] => rw [hl] at hi; cases hi
      | [b] =>
        rw [hl, List.mem_singleton] at hi hr
        rw [hi, hr]
      | b :: b' :: l => rw [hl] at h0; simp at h0
    · rw [hagg] at h0; cases h0
    · obtain ⟨-, -, h5, -⟩ := (tree_limits hV hin hf hN hlim).2 k n hn
      obtain ⟨m, hm, -⟩ := h5 (by rw [(hb.holds.fields).2.2.1]; exact h0)
      cases hm
    · right; right
      refine ⟨fun hk => ?_, h0⟩
      subst hk
      obtain rfl := hs.unique (.refl _ _)
      have := h.rcd
      simp only [GTree.root] at this
      obtain ⟨x, hx, -⟩ := h0
      rw [this] at hx
      cases hx
  | false =>
    right; left
    obtain ⟨g, g', hsp⟩ := h4 hstop
    intro j hj
    rw [hmf] at h1
    exact notFound_same_bins hT hne hG hI hinf hin.holds h2 h1.2.2 hnf.okTrain hnf.okValid hagg hleaf hsp hfd (sample_all h1 hj) hi hr

end

end Verif
