import Verif.Proofs.Categorical
import Verif.Props.Gain
import Verif.Props.Grow

/-! The trees of `C66_shift_violated`. -/
namespace Verif

open Spec

section
variable {F Y P G : Type} [Num F] {T : Task F Y P G} {lab : F → Prop} {R : Rng G} {c : Ctx F} {D : Data F} {gb : Garbage F} {seed : Nat}
  {train valid : List Nat} {arr : TreeArr F P} {w : Work G}

/-- With `max_depth = 1` a row ends in the child of the root chosen by the test of the root. -/
theorem depth_one_leaf (hT : ValidTask T lab) (h : FitInput c D lab train valid) (hf : fitTree R T c gb seed train valid = .ok (arr, w))
    (hd : c.maxDepth = 1) {n : Node F} (hn : NodeAt arr 0 n) (hleaf : n.isLeaf = false) {f : Nat} (hfe : n.feature = some f) :
    ∃ l r, n.left = some l ∧ n.right = some r ∧ l ≠ r ∧ ∀ i, i < D.n →
      (TestLeft arr n (D.X i f) → findLeaf arr c.fba i = .ok l) ∧ (¬TestLeft arr n (D.X i f) → findLeaf arr c.fba i = .ok r) := by
  have hwf := C21_well_formed hT h hf
  obtain ⟨l, r, nl, nr, h1, h2, h3, -, -, h4, h5, -, -, h6, h7⟩ := hwf.children 0 n hn hleaf
  rw [hwf.rootDepth n hn] at h6 h7
  have hL : ∀ k m, NodeAt arr k m → m.depth = 0 + 1 → m.isLeaf = true := by
    intro k m hm hmd
    by_contra hl
    have := (C19_stopping hT h hf hm).2.2 (by simpa using hl)
    omega
  refine ⟨l, r, h1, h2, h3, fun i hi => ?_⟩
  obtain ⟨k, m, g1, -, -, -, -, g2⟩ := C23_apply_total hT h hf c.fba i (D.X i) fun j hj => h.holds.value i j hi hj
  constructor
  · intro ht
    rw [g1, g2 l nl h4 (hL _ _ h4 h6) (.left .root hn hleaf hfe ht h1)]
  · intro ht
    rw [g1, g2 r nr h5 (hL _ _ h5 h7) (.right .root hn hleaf hfe ht h2)]

end

/-- Three categories with 1, 1 and 4 rows. -/
noncomputable def shiftY (β : ℝ) : List ℝ := [0 + β, 10 + β, 4 + β, 4 + β, 4 + β, 4 + β]

/-- See `shiftY`. -/
noncomputable def shiftData (β : ℝ) : Data ℝ := dataOf 6 [[0, 1, 2, 2, 2, 2]] (shiftY β) [1, 1, 1, 1, 1, 1]

/-- See `shiftY`. -/
noncomputable def shiftCtx (β : ℝ) (fba : FBA) : Ctx ℝ :=
  { fba := fba, y := shiftY β, w := [1, 1, 1, 1, 1, 1], maxFeatures := 1, minSplit := 2, minLeaf := 1
    maxDepth := 1, aggregation := false, step := 1, isCategorical := [true] }

theorem shift_input : ∃ fba : FBA, ∀ β, FitInput (shiftCtx β fba) (shiftData β) (fun _ => True) sumTrain [] := by
  obtain ⟨fba, h1, _⟩ := holds_of_matrix (F := ℝ) (fun _ => 0) 6 [[0, 1, 2, 2, 2, 2]] (shiftY 0) [1, 1, 1, 1, 1, 1]
    (by norm_num) (by decide) (by decide) rfl rfl [true] rfl
  refine ⟨fba, fun β => ?_⟩
  obtain ⟨fba', h1', h2⟩ := holds_of_matrix (F := ℝ) (fun _ => 0) 6 [[0, 1, 2, 2, 2, 2]] (shiftY β) [1, 1, 1, 1, 1, 1]
    (by norm_num) (by decide) (by decide) rfl rfl [true] rfl
  obtain rfl : fba = fba' := Except.ok.inj (h1.symm.trans h1')
  exact ⟨h2 _ rfl rfl rfl rfl, ⟨⟨by norm_num [shiftCtx], by simp [shiftCtx, shiftData, dataOf]⟩, by norm_num [shiftCtx]⟩,
      by intro i hi; exact ⟨by simp [sumTrain] at hi; simp [shiftData, dataOf]; omega, trivial⟩, by simp, by decide, by simp, by decide⟩

theorem shift_perm {β : ℝ} {o : List Nat} (h : SortedBins (shiftData β) 0 sumTrain sumKey o) : o ∈ [0, 1, 2].permutations' := by
  have hp : o.Perm [0, 1, 2] := by
    rw [List.perm_ext_iff_of_nodup h.nodup (by decide)]
    intro b
    rw [h.mem]
    simp only [sumTrain, shiftData, dataOf]
    constructor
    · rintro ⟨i, hi, rfl⟩
      simp only [List.mem_cons, List.not_mem_nil, or_false] at hi
      rcases hi with rfl | rfl | rfl | rfl | rfl | rfl <;> simp
    · intro hb
      simp only [List.mem_cons, List.not_mem_nil, or_false] at hb
      rcases hb with rfl | rfl | rfl
      · exact ⟨0, by simp, by simp⟩
      · exact ⟨1, by simp, by simp⟩
      · exact ⟨2, by simp, by simp⟩
  exact List.mem_permutations'.2 hp

theorem shift_keys (β : ℝ) : sumKey (shiftData β) (inBin (shiftData β) 0 0 sumTrain) = β ∧
    sumKey (shiftData β) (inBin (shiftData β) 0 1 sumTrain) = 10 + β ∧
    sumKey (shiftData β) (inBin (shiftData β) 0 2 sumTrain) = 16 + 4 * β := by
  refine ⟨?_, ?_, ?_⟩
  · rw [show inBin (shiftData β) 0 0 sumTrain = [0] from rfl]; simp [sumKey, shiftData, dataOf, shiftY]
  · rw [show inBin (shiftData β) 0 1 sumTrain = [1] from rfl]; simp [sumKey, shiftData, dataOf, shiftY]
  · rw [show inBin (shiftData β) 0 2 sumTrain = [2, 3, 4, 5] from rfl]; simp [sumKey, shiftData, dataOf, shiftY]; ring

theorem shift_order0 {o : List Nat} (h : SortedBins (shiftData 0) 0 sumTrain sumKey o) : o = [0, 1, 2] := by
  obtain ⟨k0, k1, k2⟩ := shift_keys 0
  have hs := h.sorted
  have hm := shift_perm h
  simp [List.permutations'] at hm
  rcases hm with rfl | rfl | rfl | rfl | rfl | rfl
  all_goals first | rfl | (exfalso; simp [k0, k1, k2] at hs; try norm_num at hs)

theorem shift_order10 {o : List Nat} (h : SortedBins (shiftData (-10)) 0 sumTrain sumKey o) : o = [2, 0, 1] := by
  obtain ⟨k0, k1, k2⟩ := shift_keys (-10)
  have hs := h.sorted
  have hm := shift_perm h
  simp [List.permutations'] at hm
  rcases hm with rfl | rfl | rfl | rfl | rfl | rfl
  all_goals first | rfl | (exfalso; simp [k0, k1, k2] at hs; try norm_num at hs)

theorem shift_w (β : ℝ) : ∀ i ∈ sumTrain, 0 < (shiftData β).w i := by
  intro i hi
  simp only [sumTrain, List.mem_cons, List.not_mem_nil, or_false] at hi
  rcases hi with rfl | rfl | rfl | rfl | rfl | rfl <;> simp [shiftData, dataOf]

/-- The root is split at the best of the two places in the order of the categories. -/
theorem shift_root {β : ℝ} {fba : FBA} (h : FitInput (shiftCtx β fba) (shiftData β) (fun _ => True) sumTrain []) {a b c : Nat}
    (hord : ∀ o, SortedBins (shiftData β) 0 sumTrain sumKey o → o = [a, b, c])
    (hsplit : ∀ S, S = [a] ∨ S = [a, b] → (∃ i ∈ sumTrain, (shiftData β).X i 0 ∈ S) ∧ ∃ i ∈ sumTrain, (shiftData β).X i 0 ∉ S) :
    ∃ (arr : TreeArr ℝ ℝ) (w : Work Nat) (n : Node ℝ),
      fitTree toyRng (regressorTask realArgsort) (shiftCtx β fba) realGarbage 3 sumTrain [] = .ok (arr, w) ∧
      NodeAt arr 0 n ∧ n.isLeaf = false ∧ n.feature = some 0 ∧
      ∃ S, (S = [a] ∨ S = [a, b]) ∧ nodeTest arr (shiftData β) n 0 = (fun i => decide ((shiftData β).X i 0 ∈ S)) ∧
        ∀ S', S' = [a] ∨ S' = [a, b] → infoGain variance (shiftData β) sumTrain (fun i => decide ((shiftData β).X i 0 ∈ S')) ≤
          infoGain variance (shiftData β) sumTrain (fun i => decide ((shiftData β).X i 0 ∈ S)) := by
  have hT := RealTask.regressor (G := Nat) realArgsort_sorts
  obtain ⟨_, _, _, _, _, _, _, _, _, hs, _⟩ := RealTask.elim hT
  obtain ⟨arr, w, t, e1, e2⟩ := fitTree_spec toyRng hs realGarbage 3 h
  obtain ⟨n, hn, hb⟩ := e2.facts.below (.refl _ _)
  obtain ⟨r1, r2⟩ := e2.facts.routed 0 t (.refl _ _)
  rw [e2.okTrain] at r1
  rw [e2.okValid] at r2
  obtain ⟨g1, g2, _⟩ := C26_max_gain hT h (shift_w β) e1 hn
  rw [← r1, ← r2] at g1 g2
  have hfeat : ∀ feats, IsSample (shiftData β).d (shiftCtx β fba).maxFeatures feats → feats = [0] := by
    rintro feats ⟨a1, a2, a3⟩
    match feats, a1 with
    | [x], _ =>
      have := a3 x (by simp)
      simp [shiftData, dataOf] at this
      rw [this]
  have hfree : LeafFree (shiftCtx β fba) (shiftData β) 0 sumTrain [] := by
    intro b hb
    refine ⟨?_, fun ha => absurd ha (by simp [shiftCtx])⟩
    obtain ⟨i, hi, rfl⟩ := hb
    have : i ∈ inBin (shiftData β) 0 ((shiftData β).X i 0) sumTrain := List.mem_filter.2 ⟨hi, by simp⟩
    exact List.length_pos_of_mem this
  have hadm : ∀ S, S = [a] ∨ S = [a, b] → Admissible (shiftCtx β fba) (fun i => decide ((shiftData β).X i 0 ∈ S)) sumTrain [] := by
    intro S hS
    obtain ⟨⟨i, hi, p1⟩, j, hj, p2⟩ := hsplit S hS
    exact hfree.admissible (S := fun b => decide (b ∈ S)) ⟨i, hi, decide_eq_true p1⟩ ⟨j, hj, decide_eq_false p2⟩
  have hleaf : n.isLeaf = false := by
    by_contra hl
    have hl : n.isLeaf = true := by simpa using hl
    obtain ⟨_, _, f3, f4, f5, f6, _⟩ := hb.holds.fields
    have hcnt := hb.ok.facts.counts
    rw [e2.okTrain, e2.okValid] at hcnt
    rcases g2 hl with (h3 | ⟨h3, _⟩ | h3 | h3) | ⟨feats, hfe, hall⟩
    · rw [f5, hcnt.1] at h3; exact absurd h3 (by simp [shiftCtx, sumTrain])
    · exact absurd h3 (by simp [shiftCtx])
    · rw [f3, e2.rcd] at h3; exact absurd h3 (by simp [shiftCtx, rootRecord])
    · exact h3.1 rfl
    · have := hfeat feats hfe
      subst this
      obtain ⟨keys, hk1, hk2⟩ := (hall 0 (by simp)).2 rfl
      rw [List.mem_singleton] at hk1
      subst hk1
      obtain ⟨o, ho1, ho2⟩ := hk2 sumKey (by simp)
      have := hord _ ho1
      subst this
      exact ho2 [a] [b, c] rfl (by simp) (by simp) (hadm _ (.inl rfl))
  obtain ⟨feats, f, b1, b2, b3, _, b5⟩ := g1 hleaf
  have := hfeat feats b1
  subst this
  obtain ⟨b3, b4⟩ := b3
  have hf0 : f = 0 := by simpa using b3
  subst hf0
  refine ⟨arr, w, n, e1, hn, hleaf, b2, ?_⟩
  rcases b4 with ⟨b4, _⟩ | ⟨_, keys, hk1, key, hk2, o, ho, S, S', e, hS, hS', hgo⟩
  · exact absurd b4 (by simp [shiftCtx])
  · rw [List.mem_singleton] at hk1
    subst hk1
    rw [List.mem_singleton] at hk2
    subst hk2
    have := hord _ ho
    subst this
    refine ⟨S, ?_, hgo, fun S1 hS1 => ?_⟩
    · match S, hS, S', hS', e with
      | [x], _, _, _, e => simp only [List.cons_append, List.nil_append, List.cons.injEq] at e; simp [e.1]
      | [x, y], _, _, _, e => simp only [List.cons_append, List.nil_append, List.cons.injEq] at e; simp [e.1, e.2.1]
      | x :: y :: z :: S, _, u :: S', _, e => simp at e
    · obtain ⟨keys, hk1, hk2⟩ := (b5 0 (by simp)).2 rfl
      rw [List.mem_singleton] at hk1
      subst hk1
      obtain ⟨o, ho1, ho2⟩ := hk2 sumKey (by simp)
      have := hord _ ho1
      subst this
      rw [← hgo]
      rcases hS1 with rfl | rfl
      · exact ho2 [a] [b, c] rfl (by simp) (by simp) (hadm _ (.inl rfl))
      · exact ho2 [a, b] [c] rfl (by simp) (by simp) (hadm _ (.inr rfl))

end Verif
