import Verif.Proofs.Impurity

set_option linter.unusedSectionVars false

/-! Among all splits of categories in two groups, one that maximises the between-group sum of squares is a prefix of the
categories sorted by mean. -/
namespace Verif

open Spec

variable (w z : Nat → ℝ) (x : Nat → Nat) (l : List Nat)

/-- Sum of the weights and weighted sum of the values of the samples that satisfy `p`. -/
noncomputable def wOf (p : Nat → Bool) : ℝ := ((l.filter p).map w).sum

/-- See `wOf`. -/
noncomputable def zOf (p : Nat → Bool) : ℝ := ((l.filter p).map fun i => w i * z i).sum

/-- The quantity to maximise. -/
noncomputable def between (p : Nat → Bool) : ℝ :=
  zOf w z l p ^ 2 / wOf w l p + zOf w z l (fun i => !p i) ^ 2 / wOf w l (fun i => !p i)

/-- Lower bound of the quantity to maximise, exact when `u` and `v` are the means of the two sides. -/
noncomputable def lowerB (u v : ℝ) (p : Nat → Bool) : ℝ :=
  2 * u * zOf w z l p - u ^ 2 * wOf w l p + (2 * v * zOf w z l (fun i => !p i) - v ^ 2 * wOf w l (fun i => !p i))

variable {w z x l}

theorem side_le {a A : ℝ} (u : ℝ) (hA : 0 < A) : 2 * u * a - u ^ 2 * A ≤ a ^ 2 / A := by
  have : a ^ 2 / A - (2 * u * a - u ^ 2 * A) = (a - u * A) ^ 2 / A := by field_simp; ring
  have h2 : 0 ≤ (a - u * A) ^ 2 / A := by positivity
  linarith

theorem side_eq {a A : ℝ} (hA : 0 < A) : 2 * (a / A) * a - (a / A) ^ 2 * A = a ^ 2 / A := by
  field_simp; ring

theorem lowerB_le {p : Nat → Bool} (u v : ℝ) (hL : 0 < wOf w l p) (hR : 0 < wOf w l fun i => !p i) :
    lowerB w z l u v p ≤ between w z l p := by
  unfold lowerB between
  have := side_le (a := zOf w z l p) u hL
  have := side_le (a := zOf w z l fun i => !p i) v hR
  linarith

theorem lowerB_eq {p : Nat → Bool} (hL : 0 < wOf w l p) (hR : 0 < wOf w l fun i => !p i) :
    lowerB w z l (zOf w z l p / wOf w l p) (zOf w z l (fun i => !p i) / wOf w l fun i => !p i) p = between w z l p := by
  unfold lowerB between
  rw [side_eq hL, side_eq hR]

theorem wOf_pos {p : Nat → Bool} (hw : ∀ i ∈ l, 0 < w i) (h : ∃ i ∈ l, p i = true) : 0 < wOf w l p := by
  obtain ⟨i, hi, hp⟩ := h
  unfold wOf
  apply List.sum_pos
  · intro y hy
    obtain ⟨i, hi, rfl⟩ := List.mem_map.1 hy
    exact hw i (List.mem_filter.1 hi).1
  · simp only [ne_eq, List.map_eq_nil_iff]
    intro h0
    have : i ∈ l.filter p := List.mem_filter.2 ⟨hi, hp⟩
    rw [h0] at this; simp at this

theorem wOf_total (p : Nat → Bool) : wOf w l p + wOf w l (fun i => !p i) = (l.map w).sum := by
  unfold wOf
  rw [sum_filter_not w p l]; ring

theorem zOf_total (p : Nat → Bool) : zOf w z l p + zOf w z l (fun i => !p i) = (l.map fun i => w i * z i).sum := by
  unfold zOf
  rw [sum_filter_not (fun i => w i * z i) p l]; ring

/-- The lower bound as a sum over bins. -/
theorem lowerB_bins (u v : ℝ) (B : Nat → Bool) {cap : Nat} (hx : ∀ i ∈ l, x i < cap) :
    lowerB w z l u v (fun i => B (x i)) = ∑ b ∈ Finset.range cap,
      if B b then 2 * u * zOf w z l (fun i => decide (x i = b)) - u ^ 2 * wOf w l (fun i => decide (x i = b))
      else 2 * v * zOf w z l (fun i => decide (x i = b)) - v ^ 2 * wOf w l (fun i => decide (x i = b)) := by
  have key : lowerB w z l u v (fun i => B (x i)) =
      (l.map fun i => if B (x i) then w i * (2 * u * z i - u ^ 2) else w i * (2 * v * z i - v ^ 2)).sum := by
    unfold lowerB zOf wOf
    clear hx
    induction l with
    | nil => simp
    | cons i l ih =>
      cases hB : B (x i)
      · simp only [List.filter_cons, hB, Bool.false_eq_true, if_false, Bool.not_false, if_true, List.map_cons,
          List.sum_cons]
        linarith
      · simp only [List.filter_cons, hB, if_true, Bool.not_true, Bool.false_eq_true, if_false, List.map_cons,
          List.sum_cons]
        linarith
  rw [key, ← sum_bins _ x cap l hx]
  apply Finset.sum_congr rfl
  intro b _
  unfold zOf wOf
  clear hx key
  induction l with
  | nil => simp
  | cons i l ih =>
    by_cases hb : x i = b
    · simp only [List.filter_cons, hb, decide_true, if_true, List.map_cons, List.sum_cons, ih]
      split <;> ring
    · simp only [List.filter_cons, hb, decide_false, Bool.false_eq_true, if_false, ih]

/-- Mean of a bin. -/
noncomputable def binMean (w z : Nat → ℝ) (x : Nat → Nat) (l : List Nat) (b : Nat) : ℝ :=
  zOf w z l (fun i => decide (x i = b)) / wOf w l (fun i => decide (x i = b))

/-- For fixed `u ≤ v`, bins are best sent to the side of the closest of `u` and `v`. -/
theorem lowerB_threshold (hw : ∀ i ∈ l, 0 < w i) {u v : ℝ} (huv : u ≤ v) (B : Nat → Bool) :
    lowerB w z l u v (fun i => B (x i)) ≤
      lowerB w z l u v (fun i => decide (binMean w z x l (x i) ≤ (u + v) / 2)) := by
  obtain ⟨cap, hcap⟩ : ∃ cap, ∀ i ∈ l, x i < cap := ⟨(l.map x).sum + 1, fun i hi =>
    Nat.lt_succ_of_le (List.le_sum_of_mem (List.mem_map_of_mem hi))⟩
  rw [lowerB_bins u v B hcap, lowerB_bins u v (fun b => decide (binMean w z x l b ≤ (u + v) / 2)) hcap]
  apply Finset.sum_le_sum
  intro b _
  by_cases hb : ∃ i ∈ l, x i = b
  · have hA : 0 < wOf w l fun i => decide (x i = b) := wOf_pos hw (by simpa using hb)
    have hm : zOf w z l (fun i => decide (x i = b)) = binMean w z x l b * wOf w l (fun i => decide (x i = b)) := by
      unfold binMean; field_simp
    rw [hm]
    by_cases hle : binMean w z x l b ≤ (u + v) / 2
    · simp only [hle, decide_true, if_true]
      cases B b
      · simp only [Bool.false_eq_true, if_false]
        nlinarith [mul_nonneg (mul_nonneg (sub_nonneg.2 huv) (by linarith : 0 ≤ u + v - 2 * binMean w z x l b)) hA.le]
      · simp
    · simp only [hle, decide_false, Bool.false_eq_true, if_false]
      have hle := not_le.1 hle
      cases B b
      · simp
      · simp only [if_true]
        nlinarith [mul_nonneg (mul_nonneg (sub_nonneg.2 huv) (by linarith : 0 ≤ 2 * binMean w z x l b - (u + v))) hA.le]
  · have hnil : (l.filter fun i => decide (x i = b)) = [] := by
      apply List.filter_eq_nil_iff.2
      intro i hi
      simp only [decide_eq_true_eq]
      exact fun h => hb ⟨i, hi, h⟩
    have h1 : zOf w z l (fun i => decide (x i = b)) = 0 := by unfold zOf; rw [hnil]; rfl
    have h2 : wOf w l (fun i => decide (x i = b)) = 0 := by unfold wOf; rw [hnil]; rfl
    simp [h1, h2]

/-- Sorted lists are cut in a prefix and a suffix by a threshold. -/
theorem takeWhile_mem {key : Nat → ℝ} {m : ℝ} {o : List Nat} (hs : o.Pairwise fun a b => key a ≤ key b) {b : Nat} (hb : b ∈ o) :
    b ∈ o.takeWhile (fun b => decide (key b ≤ m)) ↔ key b ≤ m := by
  induction o with
  | nil => simp at hb
  | cons a o ih =>
    rw [List.pairwise_cons] at hs
    by_cases ha : key a ≤ m
    · rw [List.takeWhile_cons_of_pos (by simpa using ha)]
      rcases List.mem_cons.1 hb with rfl | hb
      · simp [ha]
      · have := ih hs.2 hb
        by_cases hba : b = a
        · subst hba; simp [ha]
        · simp [hba, this]
    · rw [List.takeWhile_cons_of_neg (by simpa using ha)]
      have : ¬ key b ≤ m := by
        rcases List.mem_cons.1 hb with rfl | hb
        · exact ha
        · intro h; exact ha ((hs.1 b hb).trans h)
      simp [this]

theorem between_not (p : Nat → Bool) : between w z l (fun i => !p i) = between w z l p := by
  unfold between
  simp only [Bool.not_not]
  rw [add_comm]

theorem between_congr {p q : Nat → Bool} (h : ∀ i ∈ l, p i = q i) : between w z l p = between w z l q := by
  have e1 : l.filter p = l.filter q := List.filter_congr h
  have e2 : (l.filter fun i => !p i) = l.filter fun i => !q i := List.filter_congr fun i hi => by rw [h i hi]
  unfold between zOf wOf
  rw [e1, e2]

theorem lowerB_congr {u v : ℝ} {p q : Nat → Bool} (h : ∀ i ∈ l, p i = q i) : lowerB w z l u v p = lowerB w z l u v q := by
  have e1 : l.filter p = l.filter q := List.filter_congr h
  have e2 : (l.filter fun i => !p i) = l.filter fun i => !q i := List.filter_congr fun i hi => by rw [h i hi]
  unfold lowerB zOf wOf
  rw [e1, e2]

/-- Some value is at most, and some at least, the mean. -/
theorem exists_bin_le (hw : ∀ i ∈ l, 0 < w i) {B : Nat → Bool} (h : ∃ i ∈ l, B (x i) = true) {m : ℝ}
    (hm : zOf w z l (fun i => B (x i)) / wOf w l (fun i => B (x i)) < m) : ∃ i ∈ l, binMean w z x l (x i) ≤ m := by
  by_contra hno
  push Not at hno
  have hA := wOf_pos hw (p := fun i => B (x i)) h
  rw [div_lt_iff₀ hA] at hm
  obtain ⟨cap, hcap⟩ : ∃ cap, ∀ i ∈ l, x i < cap := ⟨(l.map x).sum + 1, fun i hi =>
    Nat.lt_succ_of_le (List.le_sum_of_mem (List.mem_map_of_mem hi))⟩
  have e1 : ∀ g : Nat → ℝ, ((l.filter fun i => B (x i)).map g).sum = ∑ b ∈ Finset.range cap,
      if B b then ((l.filter fun i => decide (x i = b)).map g).sum else 0 := by
    intro g
    rw [← sum_bins g x cap _ fun i hi => hcap i (List.mem_filter.1 hi).1]
    apply Finset.sum_congr rfl
    intro b _
    rw [List.filter_filter]
    split
    · congr 2
      apply List.filter_congr
      intro i _
      by_cases hxb : x i = b <;> simp [*]
    · rw [List.filter_eq_nil_iff.2]
      · rfl
      · intro i _
        by_cases hxb : x i = b <;> simp [*]
  have : m * wOf w l (fun i => B (x i)) ≤ zOf w z l (fun i => B (x i)) := by
    unfold wOf zOf
    rw [e1, e1, Finset.mul_sum]
    apply Finset.sum_le_sum
    intro b _
    split
    · by_cases hb : ∃ i ∈ l, x i = b
      · obtain ⟨i, hi, rfl⟩ := hb
        have hA := wOf_pos hw (p := fun i' => decide (x i' = x i)) ⟨i, hi, by simp⟩
        have := hno i hi
        unfold binMean at this
        rw [lt_div_iff₀ hA] at this
        exact this.le
      · have hnil : (l.filter fun i => decide (x i = b)) = [] := by
          apply List.filter_eq_nil_iff.2
          intro i hi
          simp only [decide_eq_true_eq]
          exact fun h => hb ⟨i, hi, h⟩
        simp [hnil]
    · simp
  linarith

theorem exists_bin_ge (hw : ∀ i ∈ l, 0 < w i) {B : Nat → Bool} (h : ∃ i ∈ l, B (x i) = true) {m : ℝ}
    (hm : m < zOf w z l (fun i => B (x i)) / wOf w l (fun i => B (x i))) : ∃ i ∈ l, ¬ binMean w z x l (x i) ≤ m := by
  have e : ∀ p, zOf w (fun i => -z i) l p = - zOf w z l p := by
    intro p
    unfold zOf
    induction l.filter p with
    | nil => simp
    | cons i l ih => simp only [List.map_cons, List.sum_cons, ih]; ring
  obtain ⟨m', hm1, hm2⟩ := exists_between hm
  obtain ⟨i, hi, h2⟩ := exists_bin_le (z := fun i => -z i) hw h (m := -m') (by rw [e, neg_div]; linarith)
  refine ⟨i, hi, ?_⟩
  unfold binMean at h2 ⊢
  rw [e, neg_div] at h2
  linarith

/-- The main lemma. -/
theorem prefix_optimal (hw : ∀ i ∈ l, 0 < w i) {o : List Nat} (hmem : ∀ b, b ∈ o ↔ ∃ i ∈ l, x i = b)
    (hnd : o.Nodup) (hs : o.Pairwise fun a b => binMean w z x l a ≤ binMean w z x l b) (B : Nat → Bool)
    (hL : ∃ i ∈ l, B (x i) = true) (hR : ∃ i ∈ l, B (x i) = false) :
    ∃ S S', o = S ++ S' ∧ S ≠ [] ∧ S' ≠ [] ∧
      between w z l (fun i => B (x i)) ≤ between w z l fun i => decide (x i ∈ S) := by
  -- up to exchange of the sides the mean increases
  wlog huv : zOf w z l (fun i => B (x i)) / wOf w l (fun i => B (x i)) ≤
      zOf w z l (fun i => !B (x i)) / wOf w l (fun i => !B (x i)) with H
  · have := H hw hmem hnd hs (fun b => !B b) (by simpa using hR) (by simpa using hL)
      (by simp only [Bool.not_not]; exact (not_le.1 huv).le)
    rw [between_not (fun i => B (x i))] at this
    exact this
  have hA := wOf_pos hw (p := fun i => B (x i)) hL
  have hB := wOf_pos hw (p := fun i => !B (x i)) (by simpa using hR)
  rw [← lowerB_eq hA hB]
  generalize hu : zOf w z l (fun i => B (x i)) / wOf w l (fun i => B (x i)) = u at *
  generalize hv : zOf w z l (fun i => !B (x i)) / wOf w l (fun i => !B (x i)) = v at *
  -- any prefix with samples on both sides
  have hside : ∀ S S', o = S ++ S' → S ≠ [] → S' ≠ [] →
      0 < wOf w l (fun i => decide (x i ∈ S)) ∧ 0 < wOf w l fun i => !decide (x i ∈ S) := by
    intro S S' ho h1 h2
    constructor
    · obtain ⟨b, S1, rfl⟩ := List.exists_cons_of_ne_nil h1
      obtain ⟨i, hi, hb⟩ := (hmem b).1 (by rw [ho]; simp)
      exact wOf_pos hw ⟨i, hi, by simp [hb]⟩
    · obtain ⟨b, S1, rfl⟩ := List.exists_cons_of_ne_nil h2
      obtain ⟨i, hi, hb⟩ := (hmem b).1 (by rw [ho]; simp)
      refine wOf_pos hw ⟨i, hi, ?_⟩
      rw [ho] at hnd
      have := (List.nodup_append.1 hnd).2.2
      simp only [hb, Bool.not_eq_true', decide_eq_false_iff_not]
      intro hbS
      exact this b hbS b (by simp) rfl
  rcases eq_or_lt_of_le huv with heq | hlt
  · -- equal means
    obtain ⟨i1, hi1, hb1⟩ := hL
    obtain ⟨i2, hi2, hb2⟩ := hR
    have hne : x i1 ≠ x i2 := by intro h; rw [h, hb2] at hb1; exact absurd hb1 (by simp)
    match ho : o with
    | [] => exact absurd ((hmem (x i1)).2 ⟨i1, hi1, rfl⟩) (by simp)
    | [a] =>
      have h1 := (hmem (x i1)).2 ⟨i1, hi1, rfl⟩
      have h2 := (hmem (x i2)).2 ⟨i2, hi2, rfl⟩
      simp at h1 h2
      exact absurd (h1.trans h2.symm) hne
    | a :: b :: o' =>
      refine ⟨[a], b :: o', rfl, by simp, by simp, ?_⟩
      obtain ⟨hA', hB'⟩ := hside [a] (b :: o') rfl (by simp) (by simp)
      refine le_trans (le_of_eq ?_) (lowerB_le u v hA' hB')
      subst heq
      have e : ∀ p, lowerB w z l u u p = 2 * u * (l.map fun i => w i * z i).sum - u ^ 2 * (l.map w).sum := by
        intro p
        rw [← zOf_total p, ← wOf_total (w := w) p]
        unfold lowerB; ring
      rw [e, e]
  · obtain ⟨i1, hi1, hb1⟩ := exists_bin_le hw hL (m := (u + v) / 2) (by rw [hu]; linarith)
    obtain ⟨i2, hi2, hb2⟩ := exists_bin_ge (B := fun b => !B b) hw (by simpa using hR) (m := (u + v) / 2) (by rw [hv]; linarith)
    have hmw : ∀ i ∈ l, (x i ∈ o.takeWhile fun b => decide (binMean w z x l b ≤ (u + v) / 2)) ↔
        binMean w z x l (x i) ≤ (u + v) / 2 := fun i hi => takeWhile_mem hs ((hmem _).2 ⟨i, hi, rfl⟩)
    have hsplit : o = o.takeWhile (fun b => decide (binMean w z x l b ≤ (u + v) / 2)) ++
        o.dropWhile (fun b => decide (binMean w z x l b ≤ (u + v) / 2)) := List.takeWhile_append_dropWhile.symm
    have hS1 : o.takeWhile (fun b => decide (binMean w z x l b ≤ (u + v) / 2)) ≠ [] := by
      intro h0
      have := (hmw i1 hi1).2 hb1
      rw [h0] at this; simp at this
    have hS2 : o.dropWhile (fun b => decide (binMean w z x l b ≤ (u + v) / 2)) ≠ [] := by
      intro h0
      rw [h0, List.append_nil] at hsplit
      have hx2 := (hmem (x i2)).2 ⟨i2, hi2, rfl⟩
      rw [hsplit] at hx2
      exact hb2 ((hmw i2 hi2).1 hx2)
    refine ⟨_, _, hsplit, hS1, hS2, ?_⟩
    obtain ⟨hA', hB'⟩ := hside _ _ hsplit hS1 hS2
    refine le_trans ?_ (lowerB_le u v hA' hB')
    refine le_trans (lowerB_threshold (x := x) hw huv B) (le_of_eq ?_)
    exact lowerB_congr fun i hi => by rw [decide_eq_decide]; exact (hmw i hi).symm

end Verif
