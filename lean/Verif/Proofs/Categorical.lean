import Verif.Proofs.Fisher
import Verif.Proofs.RealTree

set_option linter.unusedSectionVars false

/-! Gain of categorical splits in terms of sums of squares. -/
namespace Verif

open Spec

variable {c : Ctx ℝ} {D : Data ℝ}

/-- Indicator of class `k`. -/
noncomputable def classInd (D : Data ℝ) (k i : Nat) : ℝ := if ⌊D.y i⌋₊ = k then 1 else 0

theorem zOf_class (D : Data ℝ) (l : List Nat) (k : Nat) (p : Nat → Bool) :
    zOf D.w (classInd D k) l p = classW D (l.filter p) k := by
  unfold zOf classW
  induction l.filter p with
  | nil => simp
  | cons i l ih =>
    rw [List.map_cons, List.sum_cons, ih]
    by_cases h : ⌊D.y i⌋₊ = k
    · simp [h, classInd]
    · simp [h, classInd]

theorem gini_two {D : Data ℝ} {l : List Nat} (hl : ∀ i ∈ l, ClassLabel 2 (D.y i)) (hW : 0 < totalW D l) {k : Nat} (hk : k < 2) :
    totalW D l * classImpurity 2 .gini D l = 2 * classW D l k - 2 * (classW D l k ^ 2 / totalW D l) := by
  have hs := sum_classW hl
  simp only [Finset.sum_range_succ, Finset.sum_range_zero, zero_add] at hs
  simp only [classImpurity, Finset.sum_range_succ, Finset.sum_range_zero, zero_add]
  have h01 : k = 0 ∨ k = 1 := by omega
  rcases h01 with rfl | rfl
  · have e : classW D l 1 = totalW D l - classW D l 0 := by linarith
    rw [e]; field_simp; ring
  · have e : classW D l 0 = totalW D l - classW D l 1 := by linarith
    rw [e]; field_simp; ring

/-- Sides of a test with samples on both sides. -/
theorem sides_pos {l : List Nat} (hw : ∀ i ∈ l, 0 < D.w i) {goes : Nat → Bool} (h1 : ∃ i ∈ l, goes i = true)
    (h2 : ∃ i ∈ l, goes i = false) : 0 < totalW D (l.filter goes) ∧ 0 < totalW D (l.filter fun i => !goes i) :=
  ⟨wOf_pos hw h1, wOf_pos (p := fun i => !goes i) hw (by simpa using h2)⟩

theorem gini_between {l : List Nat} (hw : ∀ i ∈ l, 0 < D.w i) (hl : ∀ i ∈ l, ClassLabel 2 (D.y i)) {k : Nat} (hk : k < 2)
    {goes : Nat → Bool} (h1 : ∃ i ∈ l, goes i = true) (h2 : ∃ i ∈ l, goes i = false) :
    infoGain (classImpurity 2 .gini) D l goes = classImpurity 2 .gini D l +
      (2 * between D.w (classInd D k) l goes - 2 * classW D l k) / totalW D l := by
  rw [infoGain_eq]
  obtain ⟨hA, hB⟩ := sides_pos hw h1 h2
  unfold proxyGain
  rw [gini_two (fun i hi => hl i (List.mem_filter.1 hi).1) hA hk, gini_two (fun i hi => hl i (List.mem_filter.1 hi).1) hB hk]
  unfold between
  rw [zOf_class, zOf_class]
  have ht : classW D (l.filter goes) k + classW D (l.filter fun i => !goes i) k = classW D l k := by
    rw [← zOf_class, ← zOf_class, zOf_total]
    have := zOf_class D l k (fun _ => true)
    simp only [zOf, List.filter_true] at this
    exact this
  rw [← ht]
  congr 2
  unfold wOf totalW
  ring

theorem zOf_y (D : Data ℝ) (l : List Nat) (p : Nat → Bool) :
    zOf D.w D.y l p = ((l.filter p).map fun i => D.w i * D.y i).sum := rfl

theorem variance_two {D : Data ℝ} {l : List Nat} (hW : 0 < totalW D l) :
    totalW D l * variance D l = (l.map fun i => D.w i * D.y i * D.y i).sum - (l.map fun i => D.w i * D.y i).sum ^ 2 / totalW D l := by
  rw [← variance_eq, vsum_reg]
  field_simp

theorem variance_between {l : List Nat} (hw : ∀ i ∈ l, 0 < D.w i) {goes : Nat → Bool} (h1 : ∃ i ∈ l, goes i = true)
    (h2 : ∃ i ∈ l, goes i = false) :
    infoGain variance D l goes = variance D l +
      (between D.w D.y l goes - (l.map fun i => D.w i * D.y i * D.y i).sum) / totalW D l := by
  rw [infoGain_eq]
  obtain ⟨hA, hB⟩ := sides_pos hw h1 h2
  unfold proxyGain
  rw [variance_two hA, variance_two hB, sum_filter_not (fun i => D.w i * D.y i * D.y i) goes l]
  unfold between zOf wOf totalW
  congr 2
  ring

/-- Splits are not excluded by `min_samples_leaf`. -/
theorem _root_.Verif.Spec.LeafFree.admissible {j : Nat} {train valid : List Nat} (h : LeafFree c D j train valid) {S : Nat → Bool}
    (h1 : ∃ i ∈ train, S (D.X i j) = true) (h2 : ∃ i ∈ train, S (D.X i j) = false) :
    Admissible c (fun i => S (D.X i j)) train valid := by
  have key : ∀ (S : Nat → Bool) (l : List Nat) (b : Nat), S b = true →
      (inBin D j b l).length ≤ (l.filter fun i => S (D.X i j)).length := by
    intro S l b hb
    unfold inBin
    rw [← List.countP_eq_length_filter, ← List.countP_eq_length_filter]
    apply List.countP_mono_left
    intro i _ hi
    simp only [decide_eq_true_eq] at hi
    rw [hi]; exact hb
  obtain ⟨i1, hi1, hb1⟩ := h1
  obtain ⟨i2, hi2, hb2⟩ := h2
  obtain ⟨a1, a2⟩ := h _ ⟨i1, hi1, rfl⟩
  obtain ⟨b1, b2⟩ := h _ ⟨i2, hi2, rfl⟩
  have hb2' : (!S (D.X i2 j)) = true := by rw [hb2]; rfl
  exact ⟨a1.trans (key S _ _ hb1), b1.trans (key (fun b => !S b) _ _ hb2'), fun ha =>
    ⟨(a2 ha).trans (key S _ _ hb1), (b2 ha).trans (key (fun b => !S b) _ _ hb2')⟩⟩

/-- If the prefixes of an order sorted by the mean are not better than `best`, no split of the categories is. -/
theorem all_subsets {I : Data ℝ → List Nat → ℝ} {j : Nat} {tr va : List Nat} {z : Nat → ℝ} {best : ℝ}
    (hw : ∀ i ∈ tr, 0 < D.w i)
    (hI : ∀ g1 g2 : Nat → Bool, (∃ i ∈ tr, g1 i = true) → (∃ i ∈ tr, g1 i = false) → (∃ i ∈ tr, g2 i = true) →
      (∃ i ∈ tr, g2 i = false) → between D.w z tr g1 ≤ between D.w z tr g2 → infoGain I D tr g1 ≤ infoGain I D tr g2)
    (hfree : LeafFree c D j tr va) {o : List Nat} (hnd : o.Nodup) (hmem : ∀ b, b ∈ o ↔ ∃ i ∈ tr, D.X i j = b)
    (hs : o.Pairwise fun a b => binMean D.w z (fun i => D.X i j) tr a ≤ binMean D.w z (fun i => D.X i j) tr b)
    (ho : ∀ S S', o = S ++ S' → S ≠ [] → S' ≠ [] → Admissible c (fun i => decide (D.X i j ∈ S)) tr va →
      infoGain I D tr (fun i => decide (D.X i j ∈ S)) ≤ best)
    (S : Nat → Bool) (h1 : ∃ i ∈ tr, S (D.X i j) = true) (h2 : ∃ i ∈ tr, S (D.X i j) = false) :
    infoGain I D tr (fun i => S (D.X i j)) ≤ best := by
  obtain ⟨A, A', e, hA, hA', hle⟩ := prefix_optimal (x := fun i => D.X i j) hw hmem hnd hs S h1 h2
  have k1 : ∃ i ∈ tr, decide (D.X i j ∈ A) = true := by
    obtain ⟨b, A1, rfl⟩ := List.exists_cons_of_ne_nil hA
    obtain ⟨i, hi, hb⟩ := (hmem b).1 (by rw [e]; simp)
    exact ⟨i, hi, by simp [hb]⟩
  have k2 : ∃ i ∈ tr, decide (D.X i j ∈ A) = false := by
    obtain ⟨b, A1, rfl⟩ := List.exists_cons_of_ne_nil hA'
    obtain ⟨i, hi, hb⟩ := (hmem b).1 (by rw [e]; simp)
    refine ⟨i, hi, ?_⟩
    rw [e] at hnd
    have := (List.nodup_append.1 hnd).2.2
    simp only [hb, decide_eq_false_iff_not]
    intro hbS
    exact this b hbS b (by simp) rfl
  exact (hI _ _ h1 h2 k1 k2 hle).trans (ho A A' e hA hA' (hfree.admissible (S := fun b => decide (b ∈ A)) k1 k2))

end Verif
