import Verif.Proofs.ExactForest
import Verif.Proofs.Float32Int

/-! Trees of a regressor in float32 arithmetic, with integer labels and weights. -/
set_option linter.unusedSectionVars false
namespace Verif

open Spec

theorem f32_gainLaws : GainLaws F32 := by
  refine ⟨fun a b c h1 h2 => ?_, fun _ _ _ => rfl⟩
  simp only [Num.lt, decide_eq_true_eq] at *
  linarith

theorem f32_irrefl : LtIrrefl F32 := by
  intro a
  simp [Num.lt]

theorem F32.add_int {x y : F32} {u v : ℤ} (hx : x.1 = u) (hy : y.1 = v) (h : |u + v| ≤ 2 ^ 24) : (Num.add x y).1 = ((u + v : ℤ) : ℚ) := by
  change (F32.of (x.1 + y.1)).1 = _
  rw [hx, hy, ← Int.cast_add, F32.of_int h]

theorem F32.sub_int {x y : F32} {u v : ℤ} (hx : x.1 = u) (hy : y.1 = v) (h : |u - v| ≤ 2 ^ 24) : (Num.sub x y).1 = ((u - v : ℤ) : ℚ) := by
  change (F32.of (x.1 - y.1)).1 = _
  rw [hx, hy, ← Int.cast_sub, F32.of_int h]

theorem F32.mul_int {x y : F32} {u v : ℤ} (hx : x.1 = u) (hy : y.1 = v) (h : |u * v| ≤ 2 ^ 24) : (Num.mul x y).1 = ((u * v : ℤ) : ℚ) := by
  change (F32.of (x.1 * y.1)).1 = _
  rw [hx, hy, ← Int.cast_mul, F32.of_int h]

theorem F32.zero_int : (Num.zero : F32).1 = ((0 : ℤ) : ℚ) := by
  change (F32.of 0).1 = _
  rw [F32.zero_val, Int.cast_zero]

/-! ## Bounds of sums -/

theorem sum_sublist_le {k : Nat → ℤ} {l l' : List Nat} (h : l.Sublist l') (hk : ∀ i ∈ l', 0 ≤ k i) : 0 ≤ (l.map k).sum ∧ (l.map k).sum ≤ (l'.map k).sum := by
  constructor
  · exact List.sum_nonneg fun x hx => by
      obtain ⟨i, hi, rfl⟩ := List.mem_map.1 hx
      exact hk i (h.subset hi)
  · induction h with
    | slnil => simp
    | cons a h ih =>
      have := ih fun i hi => hk i (by simp [hi])
      have := hk a (by simp)
      simp only [List.map_cons, List.sum_cons]; omega
    | cons_cons a h ih =>
      have := ih fun i hi => hk i (by simp [hi])
      simp only [List.map_cons, List.sum_cons]; omega

theorem sum_weighted_abs {k g : Nat → ℤ} {C : ℤ} : ∀ {l : List Nat}, (∀ i ∈ l, 0 ≤ k i ∧ |g i| ≤ C) → |(l.map fun i => k i * g i).sum| ≤ C * (l.map k).sum := by
  intro l
  induction l with
  | nil => intro _; simp
  | cons a l ih =>
    intro h
    have h1 := ih fun i hi => h i (by simp [hi])
    obtain ⟨h2, h3⟩ := h a (by simp)
    simp only [List.map_cons, List.sum_cons]
    refine (abs_add_le _ _).trans ?_
    rw [abs_mul, abs_of_nonneg h2]
    nlinarith

section
variable {G : Type} {argsort : List F32 → List Nat} {c : Ctx F32} {D : Data F32} {train valid : List Nat} {k m : Nat → ℤ} {B : ℤ}

/-- Integer weights and labels of the training rows, with a small sum of squares. -/
structure SmallInts (D : Data F32) (train : List Nat) (k m : Nat → ℤ) (B : ℤ) : Prop where
  weight : ∀ i ∈ train, (D.w i).1 = k i ∧ 1 ≤ k i
  label : ∀ i ∈ train, (D.y i).1 = m i ∧ |m i| ≤ B
  one : 1 ≤ B
  total : (train.map k).sum * (B * B) ≤ 2 ^ 20

theorem SmallInts.bounds (H : SmallInts D train k m B) {l : List Nat} (hl : l.Sublist train) :
    0 ≤ (l.map k).sum ∧ (l.map k).sum ≤ 2 ^ 20 ∧ |(l.map fun i => k i * m i).sum| ≤ 2 ^ 20 ∧ |(l.map fun i => k i * m i * m i).sum| ≤ 2 ^ 20 ∧
    (l.map fun i => k i * m i * m i).sum ≤ (l.map k).sum * (B * B) ∧ (l.map k).sum * (B * B) ≤ 2 ^ 20 := by
  obtain ⟨h1, h2⟩ := sum_sublist_le (k := k) hl fun i hi => by have := (H.weight i hi).2; omega
  have hB := H.one
  have ht := H.total
  have hBB : 1 ≤ B * B := by nlinarith
  have hlt : (l.map k).sum * (B * B) ≤ 2 ^ 20 := le_trans (mul_le_mul_of_nonneg_right h2 (by omega)) ht
  have hm : |(l.map fun i => k i * m i).sum| ≤ B * (l.map k).sum := sum_weighted_abs fun i hi => by
    have := (H.weight i (hl.subset hi)).2
    exact ⟨by omega, (H.label i (hl.subset hi)).2⟩
  have hmm : |(l.map fun i => k i * (m i * m i)).sum| ≤ (B * B) * (l.map k).sum := sum_weighted_abs fun i hi => by
    have := (H.weight i (hl.subset hi)).2
    have h3 := (H.label i (hl.subset hi)).2
    refine ⟨by omega, ?_⟩
    rw [abs_mul]
    exact mul_le_mul h3 h3 (abs_nonneg _) (by omega)
  have he : (l.map fun i => k i * m i * m i) = l.map fun i => k i * (m i * m i) := List.map_congr_left fun i _ => by ring
  rw [he]
  have h5 := le_abs_self (l.map fun i => k i * (m i * m i)).sum
  have h6 : (l.map k).sum ≤ (l.map k).sum * (B * B) := by nlinarith
  have h7 : B * (l.map k).sum ≤ (l.map k).sum * (B * B) := by nlinarith
  have h8 : B * B * (l.map k).sum = (l.map k).sum * (B * B) := by ring
  refine ⟨h1, by omega, by omega, by omega, by omega, hlt⟩

theorem SmallInts.row (H : SmallInts D train k m B) {i : Nat} (hi : i ∈ train) :
    k i ≤ 2 ^ 20 ∧ |k i * m i| ≤ 2 ^ 20 ∧ |k i * m i * m i| ≤ 2 ^ 20 := by
  have := H.bounds (List.singleton_sublist.2 hi)
  simp only [List.map_cons, List.map_nil, List.sum_cons, List.sum_nil, add_zero] at this
  exact ⟨this.2.1, this.2.2.1, this.2.2.2.1⟩

/-- The sums of a regressor are exact. -/
theorem SmallInts.exact (H : SmallInts D train k m B) :
    ExactSums (regressorTask argsort : Task F32 (F32 × F32) F32 G) D train (fun x u => x.1 = (u : ℚ)) (fun u => |u| ≤ 2 ^ 24) k
      (fun y v => y.1.1 = (v.1 : ℚ) ∧ y.2.1 = (v.2 : ℚ)) (fun v : ℤ × ℤ => |v.1| ≤ 2 ^ 24 ∧ |v.2| ≤ 2 ^ 24) (fun i => (k i * m i, k i * m i * m i)) where
  zeroW := F32.zero_int
  rowW := fun i hi => (H.weight i hi).1
  addW := fun h1 h2 h3 => F32.add_int h1 h2 h3
  subW := fun h1 h2 h3 => F32.sub_int h1 h2 h3
  zeroY := ⟨F32.zero_int, F32.zero_int⟩
  rowY := fun i hi {y y' v} h1 h2 h3 => by
    obtain rfl := Except.ok.inj h3
    obtain ⟨b1, b2, b3⟩ := H.row hi
    have p1 : (Num.mul (D.w i) (D.y i)).1 = ((k i * m i : ℤ) : ℚ) := F32.mul_int (H.weight i hi).1 (H.label i hi).1 (b2.trans (by norm_num))
    have p2 := F32.mul_int p1 (H.label i hi).1 (b3.trans (by norm_num))
    exact ⟨F32.add_int h1.1 p1 h2.1, F32.add_int h1.2 p2 h2.2⟩
  plusY := fun h1 h2 h3 => ⟨F32.add_int h1.1 h2.1 h3.1, F32.add_int h1.2 h2.2 h3.2⟩
  minusY := fun h1 h2 h3 => ⟨F32.sub_int h1.1 h2.1 h3.1, F32.sub_int h1.2 h2.2 h3.2⟩
  smallW := fun l hl => by
    obtain ⟨h1, h2, -⟩ := H.bounds hl
    rw [abs_of_nonneg h1]
    exact h2.trans (by norm_num)
  smallY := fun l hl => by
    obtain ⟨-, -, h3, h4, -⟩ := H.bounds hl
    have e1 : ((l.map fun i => (k i * m i, k i * m i * m i)).sum).1 = (l.map fun i => k i * m i).sum := by
      have := List.sum_hom (l.map fun i => (k i * m i, k i * m i * m i)) (AddMonoidHom.fst ℤ ℤ)
      simpa [List.map_map, Function.comp_def] using this.symm
    have e2 : ((l.map fun i => (k i * m i, k i * m i * m i)).sum).2 = (l.map fun i => k i * m i * m i).sum := by
      have := List.sum_hom (l.map fun i => (k i * m i, k i * m i * m i)) (AddMonoidHom.snd ℤ ℤ)
      simpa [List.map_map, Function.comp_def] using this.symm
    rw [e1, e2]
    exact ⟨h3.trans (by norm_num), h4.trans (by norm_num)⟩

/-- The sum of the labels of a regressor's node is exact. -/
theorem SmallInts.foldP (H : SmallInts D train k m B) : ∀ {l : List Nat}, l.Sublist train → ∀ {p : F32},
    l.foldlM (fun p i => (regressorTask argsort : Task F32 (F32 × F32) F32 G).addP p (D.w i) (D.y i)) Num.zero = .ok p →
    p.1 = ((l.map fun i => k i * m i).sum : ℤ) := by
  intro l
  induction l using List.reverseRecOn with
  | nil =>
    intro _ p hp
    obtain rfl := Except.ok.inj hp
    exact F32.zero_int
  | append_singleton l i ih =>
    intro hl p hp
    rw [List.foldlM_append, bind_eq_ok] at hp
    obtain ⟨p0, e1, e2⟩ := hp
    rw [List.foldlM_cons, bind_eq_ok] at e2
    obtain ⟨p1, e2, e3⟩ := e2
    obtain rfl := Except.ok.inj e3
    obtain rfl := Except.ok.inj e2
    have hi : i ∈ train := hl.subset (by simp)
    have h1 := ih ((List.sublist_append_left l [i]).trans hl) e1
    obtain ⟨b1, b2, b3⟩ := H.row hi
    have p1 : (Num.mul (D.w i) (D.y i)).1 = ((k i * m i : ℤ) : ℚ) := F32.mul_int (H.weight i hi).1 (H.label i hi).1 (b2.trans (by norm_num))
    obtain ⟨-, -, h3, -⟩ := H.bounds hl
    have e : ((l ++ [i]).map fun i => k i * m i).sum = (l.map fun i => k i * m i).sum + k i * m i := by simp
    rw [e] at h3 ⊢
    exact F32.add_int h1 p1 (h3.trans (by norm_num))

theorem SmallInts.pred (H : SmallInts D train k m B) {l : List Nat} (hl : l.Sublist train) {i : Nat} (hi : i ∈ l) (hm : ∀ r ∈ l, m r = m i) {p : F32}
    (hp : nodePred (regressorTask argsort : Task F32 (F32 × F32) F32 G) D l = .ok p) : p = D.y i := by
  unfold nodePred at hp
  rw [bind_eq_ok] at hp
  obtain ⟨q, e1, e2⟩ := hp
  obtain rfl := Except.ok.inj e2
  have h1 := H.foldP hl e1
  have h2 := (H.exact (argsort := argsort) (G := G)).sumW hl
  have hW : 1 ≤ (l.map k).sum := by
    have := (sum_sublist_le (k := k) (List.singleton_sublist.2 hi) fun r hr => by have := (H.weight r (hl.subset hr)).2; omega).2
    have := (H.weight i (hl.subset hi)).2
    simp at *
    omega
  have e : (l.map fun i => k i * m i).sum = (l.map k).sum * m i := by
    rw [← List.sum_map_mul_right]
    exact congrArg List.sum (List.map_congr_left fun r hr => by rw [hm r hr])
  apply Subtype.ext
  change (F32.of (q.1 / (sumW D l).1)).1 = _
  rw [h1, h2, e, (H.label i (hl.subset hi)).1, Int.cast_mul, mul_div_cancel_left₀ _ (by exact_mod_cast (by omega : (l.map k).sum ≠ 0))]
  refine F32.of_int ?_
  obtain ⟨b1, b2, b3⟩ := H.row (hl.subset hi)
  have := (H.weight i (hl.subset hi)).2
  rw [abs_mul, abs_of_nonneg (by omega)] at b2
  have := abs_nonneg (m i)
  nlinarith

/-- A node with different labels has a positive impurity. -/
theorem SmallInts.pure (H : SmallInts D train k m B) {l : List Nat} (hl : l.Sublist train) {w s q : F32} (hw : w.1 = ((l.map k).sum : ℤ))
    (hs : s.1 = ((l.map fun i => (k i * m i, k i * m i * m i)).sum.1 : ℤ)) (hq : q.1 = ((l.map fun i => (k i * m i, k i * m i * m i)).sum.2 : ℤ))
    (h0 : Num.le (mseNode w s q) Num.zero = true) : ∀ i ∈ l, ∀ r ∈ l, m r = m i := by
  intro i hi r hr
  by_contra hne
  obtain ⟨h2, h3⟩ := spread (k := k) (m := m) (fun i hi => (H.weight i (hl.subset hi)).2) ⟨i, hi, r, hr, hne⟩
  have e1 : ((l.map fun i => (k i * m i, k i * m i * m i)).sum).1 = (l.map fun i => k i * m i).sum := by
    have := List.sum_hom (l.map fun i => (k i * m i, k i * m i * m i)) (AddMonoidHom.fst ℤ ℤ)
    simpa [List.map_map, Function.comp_def] using this.symm
  have e2 : ((l.map fun i => (k i * m i, k i * m i * m i)).sum).2 = (l.map fun i => k i * m i * m i).sum := by
    have := List.sum_hom (l.map fun i => (k i * m i, k i * m i * m i)) (AddMonoidHom.snd ℤ ℤ)
    simpa [List.map_map, Function.comp_def] using this.symm
  rw [e1] at hs
  rw [e2] at hq
  obtain ⟨-, -, -, -, h5, h6⟩ := H.bounds hl
  have := mse_pos hw hs hq H.one h2 h3 h5 h6
  change decide ((mseNode w s q).1 ≤ (Num.zero : F32).1) = true at h0
  rw [F32.zero_int] at h0
  simp only [Int.cast_zero, decide_eq_true_eq] at h0
  linarith

end

section
variable {L V K G W N : Type} [LinearOrder L] [DecidableEq V] [DecidableEq N] [LinearOrder K] [Field K] [IsStrictOrderedRing K] [FloorSemiring K]

/-- The weights of the rows of a tree are small integers. -/
theorem weight_ints {lib : Lib V K F32 G W} {Y P : Type} {T : Task F32 Y P G} {a : FitArgs N V} {train : FBA} {y w : List F32} {seed : Nat} {draws : List Nat} {c : Ctx F32} {lab : F32 → Prop}
    {ob : TreeObj F32 P G} {wmax C : Nat} (hT : FreeTree lib a T lab train y w seed draws c ob)
    (hlen : w.length = a.nRows) (hw : ∀ v ∈ w, ∃ z : Nat, v.1 = z ∧ 1 ≤ z ∧ z ≤ wmax) (hC : a.nRows * wmax ≤ C) (hC' : C ≤ 2 ^ 20) :
    ∃ k : Nat → ℤ, (∀ i ∈ drawnRows a.nRows draws, ((bootData (encData train y w) ⟨drawnRows a.nRows draws, leftOutRows a.nRows draws,
        (drawnRows a.nRows draws).map draws.count⟩).w i).1 = k i ∧ 1 ≤ k i) ∧ ((drawnRows a.nRows draws).map k).sum ≤ C := by
  have hv : ∀ i, i < a.nRows → ∃ z : Nat, ((encData train y w).w i).1 = z ∧ 1 ≤ z ∧ z ≤ wmax := fun i hi => by
    have hi' : i < w.length := by omega
    have : (encData train y w).w i = w[i] := by simp [encData, hi']
    rw [this]
    exact hw _ (List.getElem_mem hi')
  choose! z hz1 hz2 hz3 using hv
  have hle : ∀ i ∈ drawnRows a.nRows draws, z i * draws.count i ≤ wmax * draws.count i := fun i hi =>
    Nat.mul_le_mul_right _ (hz3 i (mem_drawnRows.1 hi).1)
  have hsum : ((drawnRows a.nRows draws).map fun i => wmax * draws.count i).sum = wmax * a.nRows := by
    rw [List.sum_map_mul_left, hT.counts]
  have hsum' : ((drawnRows a.nRows draws).map fun i => z i * draws.count i).sum ≤ C := by
    refine le_trans (List.sum_le_sum hle) ?_
    rw [hsum, Nat.mul_comm]; exact hC
  refine ⟨fun i => ((z i * draws.count i : Nat) : ℤ), fun i hi => ?_, ?_⟩
  · have hcp : 1 ≤ draws.count i := List.count_pos_iff.2 (mem_drawnRows.1 hi).2
    have hzi := hz2 i (mem_drawnRows.1 hi).1
    have hb : z i * draws.count i ≤ C := le_trans (List.single_le_sum (fun _ _ => Nat.zero_le _) _ (List.mem_map.2 ⟨i, hi, rfl⟩)) hsum'
    have hcn : draws.count i ≤ z i * draws.count i := Nat.le_mul_of_pos_left _ hzi
    have hpos : (1 : ℤ) ≤ ((z i * draws.count i : Nat) : ℤ) := Int.ofNat_le.2 (Nat.mul_pos hzi hcp)
    refine ⟨?_, hpos⟩
    rw [bootData_weight _ hi]
    have h1 : (Num.ofNat (draws.count i) : F32).1 = ((draws.count i : ℤ) : ℚ) := by
      change (F32.of (draws.count i : ℚ)).1 = _
      rw [← Int.cast_natCast (R := ℚ) (draws.count i)]
      refine F32.of_int ?_
      rw [abs_of_nonneg (by positivity)]
      exact_mod_cast le_trans (le_trans hcn (le_trans hb hC')) (by norm_num)
    rw [F32.mul_int (u := z i) (by rw [hz1 i (mem_drawnRows.1 hi).1]; simp) h1 (by
      rw [abs_of_nonneg (by positivity)]
      exact_mod_cast le_trans (le_trans hb hC') (by norm_num))]
    push_cast; ring
  · have : ((drawnRows a.nRows draws).map fun i => ((z i * draws.count i : Nat) : ℤ)).sum =
        (((drawnRows a.nRows draws).map fun i => z i * draws.count i).sum : Nat) := by
      rw [Nat.cast_list_sum, List.map_map]; rfl
    rw [this]
    exact_mod_cast hsum'

theorem reg_orders {F : Type} [Num F] {argsort : List F → List Nat} {bins : List Nat} {ySum : List (F × F)} {g g' : G} {os : List (List Nat)}
    (h : (regressorTask argsort : Task F (F × F) F G).orders bins ySum g = .ok (os, g')) : os ≠ [] := by
  simp only [regressorTask] at h
  rw [bind_eq_ok] at h
  obtain ⟨o, -, h⟩ := h
  obtain ⟨rfl, -⟩ := Prod.mk.inj (Except.ok.inj h)
  simp

/-- Every tree of a regressor without limits gives a drawn row with a consistent label its own label, in float32 arithmetic. -/
theorem FreeTree.reg_values {lib : Lib V K F32 G W} {a : FitArgs N V} {train : FBA} {y w : List F32} {seed : Nat} {draws : List Nat} {c : Ctx F32}
    {ob : TreeObj F32 F32 G} {wmax B : Nat} (hT : FreeTree lib a (regressorTask lib.argsort) (fun _ => True) train y w seed draws c ob)
    (hlib : LibOK lib a.nRows) (hrows : train.nSamples = a.nRows) (hcols : train.nFeatures = nCols a.X) (hx : RowsOK train (nCols a.X))
    (hlen : w.length = a.nRows) (hylen : y.length = a.nRows) (hy : ∀ v ∈ y, ∃ z : ℤ, v.1 = z ∧ |z| ≤ B)
    (hw : ∀ v ∈ w, ∃ z : Nat, v.1 = z ∧ 1 ≤ z ∧ z ≤ wmax) (hB : 1 ≤ B) (hb : a.nRows * wmax * (B * B) ≤ 2 ^ 20) :
    ∃ v : Nat → F32, ob.predict mixF train = .ok ((List.range a.nRows).map v) ∧
      ∀ i < a.nRows, i ∈ draws → Consistent (nCols a.X) (binsOf train) (fun i => y[i]?) draws i → some (v i) = y[i]? := by
  have hBB : 1 ≤ B * B := Nat.mul_pos hB hB
  have hc1 : a.nRows * wmax ≤ a.nRows * wmax * (B * B) := Nat.le_mul_of_pos_right _ hBB
  obtain ⟨k, hk1, hk2⟩ := weight_ints hT hlen hw le_rfl (hc1.trans hb)
  have hlab : ∀ i, i < a.nRows → ∃ z : ℤ, (y.getD i Num.zero).1 = z ∧ |z| ≤ B := fun i hi => by
    have hi' : i < y.length := by omega
    rw [List.getD_eq_getElem?_getD, List.getElem?_eq_getElem hi']
    exact hy _ (List.getElem_mem hi')
  choose! m hm1 hm2 using hlab
  obtain ⟨D, hD⟩ : ∃ D, D = bootData (encData train y w) ⟨drawnRows a.nRows draws, leftOutRows a.nRows draws, (drawnRows a.nRows draws).map draws.count⟩ :=
    ⟨_, rfl⟩
  have H : SmallInts D (drawnRows a.nRows draws) k m B := by
    refine ⟨fun i hi => by rw [hD]; exact hk1 i hi, fun i hi => ?_, by exact_mod_cast hB, ?_⟩
    · rw [hD]
      exact ⟨hm1 i (mem_drawnRows.1 hi).1, hm2 i (mem_drawnRows.1 hi).1⟩
    · have h1 : ((drawnRows a.nRows draws).map k).sum * ((B : ℤ) * B) ≤ ((a.nRows * wmax : Nat) : ℤ) * ((B : ℤ) * B) :=
        mul_le_mul_of_nonneg_right hk2 (by positivity)
      refine h1.trans ?_
      exact_mod_cast hb
  have hin := hT.input
  rw [← hD] at hin
  obtain ⟨gb, hfit⟩ := hT.fit
  have hDd : D.d = nCols a.X := by rw [hD]; exact hcols
  have hDX : D.X = binsOf train := by rw [hD]; rfl
  have hDy : ∀ i, D.y i = y.getD i Num.zero := fun i => by rw [hD]; rfl
  obtain ⟨v, hv1, hv2⟩ := pure_leaf (cls := m) (Q := fun u v x => ∃ w s q : F32, x = mseNode w s q ∧ w.1 = (u : ℚ) ∧ s.1 = (v.1 : ℚ) ∧ q.1 = (v.2 : ℚ))
    (ValidTask.regressor hlib.argsort) (fun _ _ _ _ _ h => reg_orders h) f32_gainLaws f32_irrefl (fun _ => rfl) hin hfit (drawnRows_length _ _) hT.limit hT.agg.1
    hT.minSplit hT.minLeaf (by rw [hDd]; exact hT.features) H.exact
    (fun h h1 h2 h3 h4 => by
      obtain ⟨rfl, rfl⟩ := Prod.mk.inj (Except.ok.inj h)
      exact ⟨⟨_, _, _, rfl, h1, h3.1, h3.2⟩, ⟨_, _, _, rfl, h2, h4.1, h4.2⟩⟩)
    (fun l x hl hq h0 => by
      obtain ⟨w, s, q, rfl, q1, q2, q3⟩ := hq
      exact H.pure hl q1 q2 q3 h0)
  refine ⟨v, ?_, fun i hi hid hcons => ?_⟩
  · unfold TreeObj.predict treePredict
    rw [hT.agg.2, hrows]
    refine mapM_range_eq fun i hi => hv1 _ _ _ _ fun j hj => ?_
    rw [hDd] at hj
    obtain ⟨z, hz⟩ := hx i (by rw [hrows]; exact hi) j hj
    rw [hDX, hz]
    simp [binsOf, hz]
  · have hmem := mem_drawnRows.2 ⟨hi, hid⟩
    obtain ⟨l, l1, l2, l3, l4⟩ := hv2 i hmem (by
      intro r hr hb
      rw [hDd, hDX] at hb
      have := hcons r (mem_drawnRows.1 hr).2 hb
      have e : (m r : ℚ) = m i := by
        rw [← hm1 r (mem_drawnRows.1 hr).1, ← hm1 i hi, List.getD_eq_getElem?_getD, List.getD_eq_getElem?_getD]
        rw [show y[r]? = y[i]? from this]
      exact_mod_cast e)
    rw [H.pred l1 l2 l3 l4, hDy]
    have hi' : i < y.length := by omega
    simp [hi']

end

end Verif
