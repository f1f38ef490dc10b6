import Verif.Proofs.RealTree

set_option linter.unusedSectionVars false

/-! Node statistics in closed form, over the real numbers. -/
namespace Verif

open Spec

variable {G : Type} {D : Data ℝ}

theorem sumY_class (R : Rng G) {argsort : List ℝ → List Nat} {n : Nat} {d : ℝ} {cr : Criterion} {s : CatStrategy}
    {l : List Nat} (hl : ∀ i ∈ l, ClassLabel n (D.y i)) :
    sumY (classifierTask R argsort n d cr s) D l = .ok ((List.range n).map (classW D l)) := by
  have h := foldlM_inv (l := l) (f := fun y i => (classifierTask R argsort n d cr s).addY y (D.w i) (D.y i))
    (s := (classifierTask R argsort n d cr s).zeroY) (fun pre y => y = (List.range n).map (classW D pre))
    (by
      apply List.ext_getElem
      · simp [classifierTask]
      · intro k h1 h2
        simp [classifierTask, classW]; rfl)
    (by
      intro pre i post y hs hI
      have hi : ⌊D.y i⌋₊ < n := hl i (by rw [hs]; simp)
      have hlt : ⌊D.y i⌋₊ < y.length := by rw [hI]; simpa using hi
      refine ⟨_, by simp only [classifierTask, addClass]; rw [show Num.toNat (D.y i) = ⌊D.y i⌋₊ from rfl, rd_of_lt hlt, bind_ok, wr_of_lt _ hlt], ?_⟩
      apply List.ext_getElem
      · simp [hI]
      · intro k h1 h2
        rw [List.getElem_set]
        simp only [List.getElem_map, List.getElem_range, hI, classW, List.filter_append, List.map_append, List.sum_append]
        by_cases hk : ⌊D.y i⌋₊ = k
        · subst hk
          simp [Num.add]
        · simp [hk])
  obtain ⟨y, h1, h2⟩ := h
  unfold sumY
  rw [h1, h2]

theorem finishClassPred_real {n : Nat} (d w : ℝ) {p : List ℝ} (hp : p.length = n) :
    finishClassPred n d p w = .ok (p.map fun v => (v + d) / (w + n * d)) := by
  have h := foldlM_inv (l := List.range n)
    (f := fun (p : List ℝ) k => do
      let v ← rd p k
      wr p k (Num.div (Num.add v d) (Num.add w (Num.mul (Num.ofNat n) d))))
    (s := p) (fun pre q => q = (p.take pre.length).map (fun v => (v + d) / (w + n * d)) ++ p.drop pre.length)
    (by simp)
    (by
      intro pre k post q hs hI
      have hk : k = pre.length := by
        have : (List.range n)[pre.length]? = some k := by rw [hs]; simp
        rw [List.getElem?_range (by
          have := congrArg List.length hs; simp at this; omega)] at this
        injection this with this; exact this.symm
      have hkn : k < n := List.mem_range.1 (by rw [hs]; simp)
      have hkp : k < p.length := by omega
      have hlen : q.length = p.length := by rw [hI, ← hk]; simp; omega
      have hkq : k < q.length := by omega
      have hval : q[k] = p[k] := by
        have : q[k]? = p[k]? := by
          rw [hI, ← hk, List.getElem?_append_right (by simp)]
          simp [Nat.min_eq_left hkp.le]
        rw [List.getElem?_eq_getElem hkq, List.getElem?_eq_getElem hkp] at this
        injection this
      refine ⟨_, by rw [rd_of_lt hkq, bind_ok, wr_of_lt _ hkq], ?_⟩
      rw [hval, hI, ← hk, List.length_append, List.length_singleton, ← hk, List.take_add_one, List.getElem?_eq_getElem hkp,
        List.map_append, List.drop_eq_getElem_cons hkp]
      rw [List.set_append_right _ _ (by simp)]
      have hset : ∀ a : ℝ, (p.drop k).set 0 a = a :: p.drop (k + 1) := by
        intro a
        rw [List.drop_eq_getElem_cons hkp]; rfl
      simp [Nat.min_eq_left hkp.le, Num.div, Num.add, Num.mul, Num.ofNat, hset])
  obtain ⟨q, h1, h2⟩ := h
  unfold finishClassPred
  rw [h1, h2]
  simp [← hp]

/-- Prediction of a node of a classification tree. -/
noncomputable def classPred (n : Nat) (d : ℝ) (D : Data ℝ) (l : List Nat) : List ℝ :=
  (List.range n).map fun k => (classW D l k + d) / (totalW D l + n * d)

theorem nodePred_class (R : Rng G) {argsort : List ℝ → List Nat} {n : Nat} {d : ℝ} {cr : Criterion} {s : CatStrategy}
    {l : List Nat} (hl : ∀ i ∈ l, ClassLabel n (D.y i)) :
    nodePred (classifierTask R argsort n d cr s) D l = .ok (classPred n d D l) := by
  have h := sumY_class R (argsort := argsort) (d := d) (cr := cr) (s := s) hl
  unfold nodePred
  unfold sumY at h
  change (l.foldlM (fun y i => (classifierTask R argsort n d cr s).addY y (D.w i) (D.y i))
    (classifierTask R argsort n d cr s).zeroY >>= _) = _
  rw [h, bind_ok]
  change finishClassPred n d _ _ = _
  rw [finishClassPred_real _ _ (by simp), sumW_real, List.map_map]
  rfl

theorem nodeLoss_class (R : Rng G) {argsort : List ℝ → List Nat} {n : Nat} {d : ℝ} {cr : Criterion} {s : CatStrategy}
    {l : List Nat} (hl : ∀ i ∈ l, ClassLabel n (D.y i)) {p : List ℝ} (hp : p.length = n) :
    nodeLoss (classifierTask R argsort n d cr s) D p l =
      .ok (l.map fun i => -(D.w i * Real.log (p.getD ⌊D.y i⌋₊ 0))).sum := by
  have h := foldlM_inv (l := l) (f := fun loss i => (classifierTask R argsort n d cr s).addLoss p loss (D.w i) (D.y i))
    (s := (Num.zero : ℝ)) (fun pre x => x = (pre.map fun i => -(D.w i * Real.log (p.getD ⌊D.y i⌋₊ 0))).sum)
    (by simp; rfl)
    (by
      intro pre i post x hs hI
      have hlt : ⌊D.y i⌋₊ < p.length := by rw [hp]; exact hl i (by rw [hs]; simp)
      refine ⟨_, by simp only [classifierTask, addClassLoss]; rw [show Num.toNat (D.y i) = ⌊D.y i⌋₊ from rfl, rd_of_lt hlt, bind_ok]; rfl, ?_⟩
      rw [hI]
      simp only [List.map_append, List.sum_append, List.map_cons, List.map_nil, List.sum_cons, List.sum_nil, add_zero,
        List.getD_eq_getElem?_getD, List.getElem?_eq_getElem hlt, Option.getD_some]
      simp only [Num.sub, Num.mul, Num.log]
      ring)
  obtain ⟨x, h1, h2⟩ := h
  unfold nodeLoss
  rw [h1, h2]

theorem sumY_reg {argsort : List ℝ → List Nat} (l : List Nat) :
    sumY (regressorTask argsort : Task ℝ (ℝ × ℝ) ℝ G) D l =
      .ok ((l.map fun i => D.w i * D.y i).sum, (l.map fun i => D.w i * D.y i * D.y i).sum) := by
  have h := foldlM_inv (l := l) (f := fun y i => (regressorTask argsort : Task ℝ (ℝ × ℝ) ℝ G).addY y (D.w i) (D.y i))
    (s := (regressorTask argsort : Task ℝ (ℝ × ℝ) ℝ G).zeroY)
    (fun pre y => y = ((pre.map fun i => D.w i * D.y i).sum, (pre.map fun i => D.w i * D.y i * D.y i).sum))
    (by simp [regressorTask]; rfl)
    (by
      intro pre i post y hs hI
      refine ⟨_, rfl, ?_⟩
      rw [hI]
      simp [Num.add, Num.mul])
  obtain ⟨y, h1, h2⟩ := h
  unfold sumY
  rw [h1, h2]

theorem nodePred_reg {argsort : List ℝ → List Nat} (l : List Nat) :
    nodePred (regressorTask argsort : Task ℝ (ℝ × ℝ) ℝ G) D l = .ok (mean D l) := by
  have h := foldlM_inv (l := l) (f := fun p i => (regressorTask argsort : Task ℝ (ℝ × ℝ) ℝ G).addP p (D.w i) (D.y i))
    (s := (regressorTask argsort : Task ℝ (ℝ × ℝ) ℝ G).zeroP)
    (fun pre p => p = (pre.map fun i => D.w i * D.y i).sum)
    (by simp [regressorTask]; rfl)
    (by
      intro pre i post y hs hI
      refine ⟨_, rfl, ?_⟩
      rw [hI]
      simp [Num.add, Num.mul])
  obtain ⟨y, h1, h2⟩ := h
  unfold nodePred
  rw [h1, bind_ok, h2, sumW_real]
  rfl

theorem nodeLoss_reg {argsort : List ℝ → List Nat} (p : ℝ) (l : List Nat) :
    nodeLoss (regressorTask argsort : Task ℝ (ℝ × ℝ) ℝ G) D p l = .ok (l.map fun i => D.w i * (D.y i - p) ^ 2).sum := by
  have h := foldlM_inv (l := l) (f := fun x i => (regressorTask argsort : Task ℝ (ℝ × ℝ) ℝ G).addLoss p x (D.w i) (D.y i))
    (s := (Num.zero : ℝ)) (fun pre x => x = (pre.map fun i => D.w i * (D.y i - p) ^ 2).sum)
    (by simp; rfl)
    (by
      intro pre i post y hs hI
      refine ⟨_, rfl, ?_⟩
      rw [hI]
      simp [Num.add, Num.mul, Num.sub]; ring)
  obtain ⟨y, h1, h2⟩ := h
  unfold nodeLoss
  rw [h1, h2]

section
variable {n : Nat} {d : ℝ} {l : List Nat}

theorem classPred_length : (classPred n d D l).length = n := by simp [classPred]

theorem sum_map_range (f : Nat → ℝ) (n : Nat) : ((List.range n).map f).sum = ∑ k ∈ Finset.range n, f k := by
  induction n with
  | zero => simp
  | succ n ih => rw [List.range_succ, Finset.sum_range_succ]; simp [ih]

theorem classPred_sum (hl : ∀ i ∈ l, ClassLabel n (D.y i)) (hpos : 0 < totalW D l + n * d) : (classPred n d D l).sum = 1 := by
  have h := sum_classW hl
  have e : (classPred n d D l).sum = ∑ k ∈ Finset.range n, (classW D l k + d) / (totalW D l + n * d) := by
    unfold classPred
    exact sum_map_range _ n
  rw [e, ← Finset.sum_div, Finset.sum_add_distrib, h]
  simp
  exact hpos.ne'

theorem classPred_nonneg (hw : ∀ i ∈ l, 0 ≤ D.w i) (hd : 0 ≤ d) : ∀ x ∈ classPred n d D l, 0 ≤ x := by
  intro x hx
  obtain ⟨k, hk, rfl⟩ := List.mem_map.1 hx
  have := totalW_nonneg hw
  have := classW_nonneg hw k
  positivity

theorem le_one_of_sum {p : List ℝ} (h0 : ∀ x ∈ p, 0 ≤ x) (hs : p.sum = 1) : ∀ x ∈ p, x ≤ 1 := by
  intro x hx
  rw [← hs]
  exact List.single_le_sum h0 x hx

theorem classPred_pos (hw : ∀ i ∈ l, 0 ≤ D.w i) (hd : 0 < d) : ∀ x ∈ classPred n d D l, 0 < x := by
  intro x hx
  obtain ⟨k, hk, rfl⟩ := List.mem_map.1 hx
  have := totalW_nonneg hw
  have := classW_nonneg hw k
  have hn : 0 < (n : ℝ) := by exact_mod_cast Nat.pos_of_ne_zero (by rintro rfl; simp at hk)
  positivity

end

end Verif
