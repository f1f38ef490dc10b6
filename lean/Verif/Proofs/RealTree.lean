import Verif.Proofs.Impurity
import Verif.Proofs.TreeFacts

set_option linter.unusedSectionVars false

/-! Nodes of fitted trees over the real numbers. -/
namespace Verif

open Spec

section
variable {F Y P G : Type} [Num F]

theorem fitted_of {R : Rng G} {T : Task F Y P G} {lab : F → Prop} {okY : Y → Prop} {okP : P → Prop}
    (hs : TaskSafe T lab okY okP) {c : Ctx F} {D : Data F}
    {gb : Garbage F} {seed : Nat} {train valid : List Nat} (h : FitInput c D lab train valid) {arr : TreeArr F P}
    {w : Work G} (hf : fitTree R T c gb seed train valid = .ok (arr, w)) :
    ∃ t, Fitted R T c D lab okP gb seed train valid arr w t := by
  obtain ⟨arr', w', t, e1, e2⟩ := fitTree_spec R hs gb seed h
  rw [hf] at e1
  injection e1 with e1
  injection e1 with e3 e4
  subst e3 e4
  exact ⟨t, e2⟩

theorem stopHere_true {c : Ctx F} {r : Record F} {a b : Nat} (h : stopHere c r a b = true) :
    a < c.minSplit ∨ (c.aggregation = true ∧ b < c.minSplit) ∨ c.maxDepth ≤ r.depth ∨
      ∃ x, r.impurity = some x ∧ Num.le x Num.zero = true := by
  unfold stopHere at h
  simp only [Bool.or_eq_true, Bool.and_eq_true, decide_eq_true_eq] at h
  rcases h with ((h | h) | h) | h
  · exact Or.inl h
  · exact Or.inr (Or.inl h)
  · right; right; right
    cases hi : r.impurity with
    | none => rw [hi] at h; exact absurd h (by simp)
    | some x => rw [hi] at h; exact ⟨x, rfl, h⟩
  · exact Or.inr (Or.inr (Or.inl h))

end

variable {Y P G : Type} {T : Task ℝ Y P G} {lab : ℝ → Prop} {I : Data ℝ → List Nat → ℝ} {Ks : List (List Key)}
  {c : Ctx ℝ} {D : Data ℝ} {okP : P → Prop}

theorem AllCandidates.mono {feats train valid : List Nat} {Q Q' : (Nat → Bool) → Prop}
    (h : AllCandidates c D Ks feats train valid Q) (hq : ∀ goes, Q goes → Q' goes) :
    AllCandidates c D Ks feats train valid Q' := by
  intro j hj
  obtain ⟨h1, h2⟩ := h j hj
  refine ⟨fun hc b hb1 hb2 ha => hq _ (h1 hc b hb1 hb2 ha), fun hc => ?_⟩
  obtain ⟨keys, hk1, hk2⟩ := h2 hc
  refine ⟨keys, hk1, fun key hkey => ?_⟩
  obtain ⟨o, ho1, ho2⟩ := hk2 key hkey
  exact ⟨o, ho1, fun S S' hS h3 h4 ha => hq _ (ho2 S S' hS h3 h4 ha)⟩

/-- The split of a node, over the reals. -/
theorem NodeFacts.real {V : Type} [AddCommGroup V] {okY : Y → Prop} {φ : Y → V} {e : ℝ → ℝ → V} {imp : ℝ → V → ℝ}
    (hT : TaskSafe T lab okY okP) (L : LinTask T lab okY φ e imp)
    (hI : ∀ (D : Data ℝ) (l : List Nat), (∀ i ∈ l, 0 ≤ D.w i) → imp (totalW D l) (vsum e D l) = I D l)
    (hO : OrdersSorted T lab Ks) (hD : Holds c D) (hp : ParamsOK c D) {a : GNode ℝ Y P}
    (h : NodeFacts T c D lab okP a) (hw : ∀ i ∈ a.train, 0 < D.w i) :
    stopHere c a.rcd a.nc.nTrain a.nc.nValid = true ∧ a.sp.found = false ∨
    ∃ feats, IsSample D.d c.maxFeatures feats ∧
      ((a.sp.found = true ∧ SplitOK c D feats a.train a.valid a.sp ∧ a.sp.impL = I D (a.leftT D) ∧
        a.sp.impR = I D (a.rightT D) ∧
        IsCandidate c D Ks feats a.train a.sp.feature (fun i => goesLeft a.sp (D.X i a.sp.feature)) ∧
        AllCandidates c D Ks feats a.train a.valid fun goes =>
          infoGain I D a.train goes ≤ infoGain I D a.train fun i => goesLeft a.sp (D.X i a.sp.feature)) ∨
      (a.sp.found = false ∧ AllCandidates c D Ks feats a.train a.valid fun _ => False)) := by
  obtain ⟨feats, h1, h2, h3, h4⟩ := h.stats
  cases hstop : stopHere c a.rcd a.nc.nTrain a.nc.nValid with
  | true =>
    rcases h3 with ⟨h3, _⟩ | ⟨_, h3, _⟩
    · exact Or.inl ⟨rfl, h3⟩
    · rw [hstop] at h3; exact absurd h3 (by simp)
  | false =>
    right
    refine ⟨feats, h1, ?_⟩
    obtain ⟨g, g', hsp⟩ := h4 hstop
    have hv : c.aggregation = true → a.valid ≠ [] := by
      intro ha hv
      have := (stopHere_false hstop).2.1 ha
      rw [h2.nValid, hv] at this
      have := hp.minSplit
      simp at *
      omega
    have hW := totalW_pos hw h.nonempty
    rcases findNodeSplit_real hT L hI hO hD h2 h1.2.2 h.okTrain h.okValid hv hw hsp with
      ⟨k1, k2, _, _, k3, _, k4, k6, k5⟩ | ⟨k1, k2⟩
    · exact Or.inl ⟨k1, k2, k3, k4, k6, AllCandidates.mono k5 fun goes hg => infoGain_le I hW hg⟩
    · exact Or.inr ⟨by rw [k1]; rfl, k2⟩

end Verif
