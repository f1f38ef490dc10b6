import Verif.Proofs.RealPred
import Verif.Spec.Repeat

set_option linter.unusedSectionVars false

/-! Integer weights against repeated rows. -/
namespace Verif

open Spec

variable {Y P G : Type} {D D' : Data ℝ} {m src : Nat → Nat} {l l' : List Nat}

theorem _root_.Verif.Spec.Repeated.sum (h : Repeated D D' m src l l') (f : Nat → ℝ) (f' : Nat → ℝ) (hf : ∀ i' ∈ l', f' i' = f (src i')) :
    (l'.map f').sum = (l.map fun i => (m i : ℝ) * f i).sum := by
  have e : l'.map f' = (l'.map src).map f := by
    rw [List.map_map]
    exact List.map_congr_left fun i' hi' => by rw [hf i' hi']; rfl
  rw [e, (h.perm.map f).sum_eq]
  have : ∀ l : List Nat, ((l.flatMap fun i => List.replicate (m i) i).map f).sum = (l.map fun i => (m i : ℝ) * f i).sum := by
    intro l
    induction l with
    | nil => simp
    | cons i l ih => simp [List.flatMap_cons, List.sum_append, ih, List.map_replicate, List.sum_replicate]
  exact this l

theorem _root_.Verif.Spec.Repeated.sumW (h : Repeated D D' m src l l') (f : Nat → ℝ) (f' : Nat → ℝ) (hf : ∀ i' ∈ l', f' i' = f (src i')) :
    (l'.map fun i => D'.w i * f' i).sum = (l.map fun i => D.w i * f i).sum := by
  have e1 : (l'.map fun i => D'.w i * f' i) = l'.map f' :=
    List.map_congr_left fun i' hi' => by rw [h.unit i' hi', one_mul]
  have e2 : (l.map fun i => D.w i * f i) = l.map fun i => (m i : ℝ) * f i :=
    List.map_congr_left fun i hi => by rw [h.weight i hi]
  rw [e1, e2, h.sum f f' hf]

theorem _root_.Verif.Spec.Repeated.filter (h : Repeated D D' m src l l') (p p' : Nat → Bool) (hp : ∀ i' ∈ l', p' i' = p (src i')) :
    Repeated D D' m src (l.filter p) (l'.filter p') := by
  refine ⟨?_, fun i hi => h.weight i (List.mem_filter.1 hi).1, fun i hi => h.unit i (List.mem_filter.1 hi).1,
    fun i hi => h.label i (List.mem_filter.1 hi).1, fun i hi => h.bins i (List.mem_filter.1 hi).1⟩
  have e1 : (l'.filter p').map src = (l'.map src).filter p := by
    rw [List.filter_map]
    exact congrArg _ (List.filter_congr fun i hi => hp i hi)
  have e2 : (l.filter p).flatMap (fun i => List.replicate (m i) i) = (l.flatMap fun i => List.replicate (m i) i).filter p := by
    clear e1 hp h
    induction l with
    | nil => simp
    | cons i l ih =>
      rw [List.flatMap_cons, List.filter_append, ← ih]
      by_cases hi : p i = true
      · rw [List.filter_cons_of_pos hi, List.flatMap_cons]
        congr 1
        symm
        rw [List.filter_eq_self]
        intro a ha
        rw [(List.mem_replicate.1 ha).2]; exact hi
      · rw [List.filter_cons_of_neg hi]
        have : (List.replicate (m i) i).filter p = [] := by
          rw [List.filter_eq_nil_iff]
          intro a ha
          rw [(List.mem_replicate.1 ha).2]; exact hi
        rw [this, List.nil_append]
  rw [e1, e2]
  exact h.perm.filter p

theorem _root_.Verif.Spec.Repeated.totalW (h : Repeated D D' m src l l') : totalW D' l' = totalW D l := by
  have := h.sumW (fun _ => 1) (fun _ => 1) (fun _ _ => rfl)
  simpa [Spec.totalW] using this

theorem _root_.Verif.Spec.Repeated.classW (h : Repeated D D' m src l l') (k : Nat) : classW D' l' k = classW D l k :=
  (h.filter (fun i => decide (⌊D.y i⌋₊ = k)) (fun i => decide (⌊D'.y i⌋₊ = k))
    (fun i hi => by simp only [h.label i hi])).totalW

theorem _root_.Verif.Spec.Repeated.labels (h : Repeated D D' m src l l') {lab : ℝ → Prop} (hl : ∀ i ∈ l, lab (D.y i)) :
    ∀ i' ∈ l', lab (D'.y i') := by
  intro i' hi'
  have : src i' ∈ l.flatMap fun i => List.replicate (m i) i := h.perm.mem_iff.1 (List.mem_map_of_mem hi')
  obtain ⟨i, hi, e⟩ := List.mem_flatMap.1 this
  rw [h.label i' hi', (List.mem_replicate.1 e).2]
  exact hl i hi

theorem _root_.Verif.Spec.Repeated.mean (h : Repeated D D' m src l l') : mean D' l' = mean D l := by
  unfold Spec.mean
  rw [h.totalW, h.sumW D.y D'.y h.label]

theorem _root_.Verif.Spec.Repeated.variance (h : Repeated D D' m src l l') : variance D' l' = variance D l := by
  unfold Spec.variance
  rw [h.totalW, h.mean, h.sumW (fun i => (D.y i - Spec.mean D l) ^ 2) _ (fun i hi => by rw [h.label i hi])]

theorem _root_.Verif.Spec.Repeated.impurity {T : Task ℝ Y P G} {lab : ℝ → Prop} {I : Data ℝ → List Nat → ℝ} {Ks : List (List Key)}
    (hT : RealTask T lab I Ks) (h : Repeated D D' m src l l') : I D' l' = I D l := by
  cases hT with
  | classifier R n d cr ha hs => cases cr <;> simp only [classImpurity, h.classW, h.totalW]
  | regressor ha => exact h.variance

theorem _root_.Verif.Spec.Repeated.infoGain {T : Task ℝ Y P G} {lab : ℝ → Prop} {I : Data ℝ → List Nat → ℝ} {Ks : List (List Key)}
    (hT : RealTask T lab I Ks) (h : Repeated D D' m src l l') (goes : Nat → Bool) :
    infoGain I D' l' (fun i' => goes (src i')) = infoGain I D l goes := by
  have h1 := h.filter goes (fun i' => goes (src i')) (fun _ _ => rfl)
  have h2 := h.filter (fun i => !goes i) (fun i' => !goes (src i')) (fun _ _ => rfl)
  simp only [Spec.infoGain, h.impurity hT, h1.impurity hT, h2.impurity hT, h.totalW, h1.totalW, h2.totalW]

/-- Label statistics, prediction and loss. -/
theorem _root_.Verif.Spec.Repeated.stats {T : Task ℝ Y P G} {lab : ℝ → Prop} {I : Data ℝ → List Nat → ℝ} {Ks : List (List Key)}
    (hT : RealTask T lab I Ks) (h : Repeated D D' m src l l') (hl : ∀ i ∈ l, lab (D.y i)) :
    sumY T D' l' = sumY T D l ∧ nodePred T D' l' = nodePred T D l := by
  cases hT with
  | classifier R n d cr ha hs =>
    rw [sumY_class R hl, sumY_class R (h.labels hl), nodePred_class R hl, nodePred_class R (h.labels hl)]
    simp only [classPred, h.totalW]
    refine ⟨congrArg _ (List.map_congr_left fun k _ => h.classW k),
      congrArg _ (List.map_congr_left fun k _ => by rw [h.classW k])⟩
  | regressor ha =>
    rw [sumY_reg, sumY_reg, nodePred_reg, nodePred_reg, h.mean, h.sumW D.y D'.y h.label]
    refine ⟨?_, rfl⟩
    have := h.sumW (fun i => D.y i * D.y i) (fun i => D'.y i * D'.y i) (fun i hi => by simp only [h.label i hi])
    simp only [← mul_assoc] at this
    rw [this]

theorem _root_.Verif.Spec.Repeated.loss {T : Task ℝ Y P G} {lab : ℝ → Prop} {I : Data ℝ → List Nat → ℝ} {Ks : List (List Key)}
    (hT : RealTask T lab I Ks) (h : Repeated D D' m src l l') (hl : ∀ i ∈ l, lab (D.y i)) {D₀ : Data ℝ} {l₀ : List Nat}
    (hl₀ : ∀ i ∈ l₀, lab (D₀.y i)) {p : P} (hp : nodePred T D₀ l₀ = .ok p) :
    nodeLoss T D' p l' = nodeLoss T D p l := by
  cases hT with
  | classifier R n d cr ha hs =>
    have hlen : p.length = n := by
      rw [nodePred_class R hl₀] at hp
      injection hp with hp
      rw [← hp, classPred_length]
    rw [nodeLoss_class R hl hlen, nodeLoss_class R (h.labels hl) hlen]
    have := h.sumW (fun i => -Real.log (p.getD ⌊D.y i⌋₊ 0)) (fun i => -Real.log (p.getD ⌊D'.y i⌋₊ 0))
      (fun i hi => by simp only [h.label i hi])
    simp only [mul_neg] at this
    rw [this]
  | regressor ha =>
    rw [nodeLoss_reg, nodeLoss_reg, h.sumW (fun i => (D.y i - p) ^ 2) _ (fun i hi => by rw [h.label i hi])]

end Verif
