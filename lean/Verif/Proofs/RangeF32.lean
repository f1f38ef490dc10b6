import Verif.Proofs.Float32Tree

/-! Predictions of regressors in float32 arithmetic lie between coarse bounds of the labels. -/
set_option linter.unusedSectionVars false
namespace Verif

open Spec

/-- Multiples of a power of two with a small factor are float32 numbers. -/
theorem round32_grid {z e : ℤ} (hz : |z| ≤ 2 ^ 24) (he : -149 ≤ e) : round32 ((z : ℚ) * 2 ^ e) = z * 2 ^ e := by
  rcases le_total 0 z with h | h
  · obtain ⟨n, rfl⟩ := Int.eq_ofNat_of_zero_le h
    rw [abs_of_nonneg h] at hz
    rw [Int.cast_natCast]
    exact round32_exact (by exact_mod_cast hz) he
  · obtain ⟨n, hn⟩ := Int.eq_ofNat_of_zero_le (a := -z) (by omega)
    obtain rfl : z = -(n : ℤ) := by omega
    rw [abs_neg, abs_of_nonneg (by positivity)] at hz
    rw [Int.cast_neg, Int.cast_natCast, neg_mul, round32_neg, round32_exact (by exact_mod_cast hz) he]

section
variable {G : Type} {argsort : List F32 → List Nat} {c : Ctx F32} {D : Data F32} {train valid : List Nat} {k : Nat → ℤ} {C x y e : ℤ}

/-- Integer weights with sum at most `C`, and labels between `x * 2 ^ e` and `y * 2 ^ e`. -/
structure Coarse (D : Data F32) (train : List Nat) (k : Nat → ℤ) (C x y e : ℤ) : Prop where
  weight : ∀ i ∈ train, (D.w i).1 = k i ∧ 1 ≤ k i
  label : ∀ i ∈ train, (x : ℚ) * 2 ^ e ≤ (D.y i).1 ∧ (D.y i).1 ≤ y * 2 ^ e
  total : (train.map k).sum ≤ C
  lower : C * |x| ≤ 2 ^ 24
  upper : C * |y| ≤ 2 ^ 24
  small : C ≤ 2 ^ 24
  exp : -149 ≤ e

theorem Coarse.bounds (H : Coarse D train k C x y e) {l : List Nat} (hl : l.Sublist train) : 0 ≤ (l.map k).sum ∧ (l.map k).sum ≤ C := by
  obtain ⟨h1, h2⟩ := sum_sublist_le (k := k) hl fun i hi => by have := (H.weight i hi).2; omega
  exact ⟨h1, h2.trans H.total⟩

theorem Coarse.grid (H : Coarse D train k C x y e) {n z : ℤ} (hn : 0 ≤ n) (hC : n ≤ C) (hz : z = x ∨ z = y) :
    round32 ((n : ℚ) * (z * 2 ^ e)) = n * (z * 2 ^ e) := by
  have h : |n * z| ≤ 2 ^ 24 := by
    rw [abs_mul, abs_of_nonneg hn]
    refine le_trans (mul_le_mul_of_nonneg_right hC (abs_nonneg z)) ?_
    rcases hz with rfl | rfl
    · exact H.lower
    · exact H.upper
  have := round32_grid h H.exp
  push_cast at this
  rw [← mul_assoc]
  exact this

/-- The sum of the weights is exact. -/
theorem Coarse.sumW (H : Coarse D train k C x y e) : ∀ {l : List Nat}, l.Sublist train → (Spec.sumW D l).1 = ((l.map k).sum : ℤ) := by
  intro l
  induction l using List.reverseRecOn with
  | nil => intro _; exact F32.zero_int
  | append_singleton l i ih =>
    intro hl
    have h1 := ih ((List.sublist_append_left l [i]).trans hl)
    have hs : Spec.sumW D (l ++ [i]) = Num.add (Spec.sumW D l) (D.w i) := by simp [Spec.sumW]
    obtain ⟨b1, b2⟩ := H.bounds hl
    have hs2 : ((l ++ [i]).map k).sum = (l.map k).sum + k i := by simp
    rw [hs2] at b1 b2 ⊢
    rw [hs]
    exact F32.add_int h1 (H.weight i (hl.subset (by simp))).1 (by rw [abs_of_nonneg b1]; exact b2.trans H.small)

/-- The rounded sum of the labels is between the bounds times the sum of the weights. -/
theorem Coarse.foldP (H : Coarse D train k C x y e) : ∀ {l : List Nat}, l.Sublist train → ∀ {p : F32},
    l.foldlM (fun p i => (regressorTask argsort : Task F32 (F32 × F32) F32 G).addP p (D.w i) (D.y i)) Num.zero = .ok p →
    ((l.map k).sum : ℤ) * ((x : ℚ) * 2 ^ e) ≤ p.1 ∧ p.1 ≤ ((l.map k).sum : ℤ) * ((y : ℚ) * 2 ^ e) := by
  intro l
  induction l using List.reverseRecOn with
  | nil =>
    intro _ p hp
    obtain rfl := Except.ok.inj hp
    rw [show (Num.zero : F32).1 = ((0 : ℤ) : ℚ) from F32.zero_int]
    simp
  | append_singleton l i ih =>
    intro hl p hp
    rw [List.foldlM_append, bind_eq_ok] at hp
    obtain ⟨p0, e1, e2⟩ := hp
    rw [List.foldlM_cons, bind_eq_ok] at e2
    obtain ⟨p1, e2, e3⟩ := e2
    obtain rfl := Except.ok.inj e3
    obtain rfl := Except.ok.inj e2
    have hi : i ∈ train := hl.subset (by simp)
    have hsub := (List.sublist_append_left l [i]).trans hl
    obtain ⟨h1, h2⟩ := ih hsub e1
    obtain ⟨b1, b2⟩ := H.bounds hl
    obtain ⟨a1, a2⟩ := H.bounds hsub
    have hs2 : ((l ++ [i]).map k).sum = (l.map k).sum + k i := by simp
    rw [hs2] at b1 b2 ⊢
    obtain ⟨w1, w2⟩ := H.weight i hi
    obtain ⟨y1, y2⟩ := H.label i hi
    have hk : (0 : ℚ) ≤ k i := by exact_mod_cast (by omega : (0 : ℤ) ≤ k i)
    have hki : k i ≤ C := by omega
    have m1 : (k i : ℚ) * (x * 2 ^ e) ≤ round32 ((D.w i).1 * (D.y i).1) := by
      rw [← H.grid (by omega) hki (Or.inl rfl), w1]
      exact round32_mono (mul_le_mul_of_nonneg_left y1 hk)
    have m2 : round32 ((D.w i).1 * (D.y i).1) ≤ (k i : ℚ) * (y * 2 ^ e) := by
      rw [← H.grid (by omega) hki (Or.inr rfl), w1]
      exact round32_mono (mul_le_mul_of_nonneg_left y2 hk)
    change _ ≤ round32 (p0.1 + round32 ((D.w i).1 * (D.y i).1)) ∧ round32 (p0.1 + round32 ((D.w i).1 * (D.y i).1)) ≤ _
    constructor
    · rw [← H.grid b1 b2 (Or.inl rfl)]
      refine round32_mono ?_
      rw [Int.cast_add, add_mul]
      linarith
    · rw [← H.grid b1 b2 (Or.inr rfl)]
      refine round32_mono ?_
      rw [Int.cast_add, add_mul]
      linarith

/-- The prediction of a node is between the bounds. -/
theorem Coarse.pred (H : Coarse D train k C x y e) {l : List Nat} (hl : l.Sublist train) (hne : l ≠ []) {p : F32}
    (hp : nodePred (regressorTask argsort : Task F32 (F32 × F32) F32 G) D l = .ok p) : (x : ℚ) * 2 ^ e ≤ p.1 ∧ p.1 ≤ y * 2 ^ e := by
  unfold nodePred at hp
  rw [bind_eq_ok] at hp
  obtain ⟨q, e1, e2⟩ := hp
  obtain rfl := Except.ok.inj e2
  obtain ⟨h1, h2⟩ := H.foldP hl e1
  have h3 := H.sumW hl
  obtain ⟨i, hi⟩ := List.exists_mem_of_ne_nil _ hne
  have hW : 1 ≤ (l.map k).sum := by
    have := (sum_sublist_le (k := k) (List.singleton_sublist.2 hi) fun r hr => by have := (H.weight r (hl.subset hr)).2; omega).2
    have := (H.weight i (hl.subset hi)).2
    simp at *
    omega
  have hC : 1 ≤ C := hW.trans (H.bounds hl).2
  have hWq : (0 : ℚ) < ((l.map k).sum : ℤ) := by exact_mod_cast hW
  have g : ∀ z, z = x ∨ z = y → round32 ((z : ℚ) * 2 ^ e) = z * 2 ^ e := fun z hz => by
    have := H.grid (n := 1) (by norm_num) hC hz
    simpa using this
  change _ ≤ round32 (q.1 / (Spec.sumW D l).1) ∧ round32 (q.1 / (Spec.sumW D l).1) ≤ _
  rw [h3]
  constructor
  · rw [← g x (Or.inl rfl)]
    refine round32_mono ?_
    rw [le_div_iff₀ hWq]
    linarith
  · rw [← g y (Or.inr rfl)]
    refine round32_mono ?_
    rw [div_le_iff₀ hWq]
    linarith

/-- From the predictions of the trees to those of the forest. -/
theorem coarse_of_rows {trees : List (TreeObj F32 F32 G)} {fba : FBA} (ht : trees ≠ []) (he : -149 ≤ e) (hx : trees.length * |x| ≤ 2 ^ 24)
    (hy : trees.length * |y| ≤ 2 ^ 24) (hn : trees.length ≤ 2 ^ 24)
    (h : ∀ o ∈ trees, ∃ p, o.predict mixF fba = .ok p ∧ p.length = fba.nSamples ∧ ∀ v ∈ p, (x : ℚ) * 2 ^ e ≤ v.1 ∧ v.1 ≤ y * 2 ^ e) :
    ∃ out, forestPredict trees fba = .ok out ∧ out.length = fba.nSamples ∧ ∀ v ∈ out, (x : ℚ) * 2 ^ e ≤ v.1 ∧ v.1 ≤ y * 2 ^ e := by
  have g : ∀ (n : Nat) z, n ≤ trees.length → z = x ∨ z = y → round32 ((n : ℚ) * (z * 2 ^ e)) = n * (z * 2 ^ e) := fun n z hn hz => by
    have h : |(n : ℤ) * z| ≤ 2 ^ 24 := by
      rw [abs_mul, abs_of_nonneg (by positivity)]
      refine le_trans (mul_le_mul_of_nonneg_right (Int.ofNat_le.2 hn) (abs_nonneg z)) ?_
      rcases hz with rfl | rfl <;> assumption
    have := round32_grid h he
    push_cast at this
    rw [← mul_assoc]
    exact this
  obtain ⟨out, e1, e2, e3⟩ := fold_add (add := (Num.add : F32 → F32 → F32)) (step := addRows Num.add) (pr := fun o => TreeObj.predict mixF o fba)
    (N := fba.nSamples) (Q := fun v => (x : ℚ) * 2 ^ e ≤ v.1 ∧ v.1 ≤ y * 2 ^ e)
    (K := fun k v => k ≤ trees.length → (k : ℚ) * (x * 2 ^ e) ≤ v.1 ∧ v.1 ≤ k * (y * 2 ^ e))
    (fun k v q h1 h2 hk => by
      obtain ⟨u1, u2⟩ := h1 (by omega)
      change _ ≤ round32 (v.1 + q.1) ∧ round32 (v.1 + q.1) ≤ _
      rw [← g _ _ hk (Or.inl rfl), ← g _ _ hk (Or.inr rfl)]
      push_cast
      constructor <;> refine round32_mono ?_ <;> rw [add_mul] <;> linarith [h2.1, h2.2])
    (fun k out p h1 h2 _ _ => addRows_eq _ (h1.trans h2.symm))
    trees h
    0 (List.replicate fba.nSamples Num.zero) (by simp) (fun v hv _ => by
      rw [List.eq_of_mem_replicate hv, show (Num.zero : F32).1 = ((0 : ℤ) : ℚ) from F32.zero_int]; simp)
  have hpos := List.length_pos_iff.2 ht
  have hn' : (0 : ℚ) < trees.length := by exact_mod_cast hpos
  unfold forestPredict
  rw [e1]
  refine ⟨_, rfl, by simp [e2], fun v hv => ?_⟩
  obtain ⟨u, hu, rfl⟩ := List.mem_map.1 hv
  have := e3 u hu
  rw [Nat.zero_add] at this
  obtain ⟨k1, k2⟩ := this le_rfl
  have hden : (Num.ofNat trees.length : F32).1 = trees.length := F32.of_nat hn
  change _ ≤ round32 (u.1 / (Num.ofNat trees.length : F32).1) ∧ round32 (u.1 / (Num.ofNat trees.length : F32).1) ≤ _
  rw [hden]
  have g1 := fun z hz => g 1 z hpos hz
  simp only [Nat.cast_one, one_mul] at g1
  rw [← g1 x (Or.inl rfl), ← g1 y (Or.inr rfl)]
  constructor <;> refine round32_mono ?_
  · rw [le_div_iff₀ hn']; linarith
  · rw [div_le_iff₀ hn']; linarith

end

section
variable {L V K G W N : Type} [LinearOrder L] [DecidableEq V] [DecidableEq N] [LinearOrder K] [Field K] [IsStrictOrderedRing K] [FloorSemiring K]

/-- Integer weights stay integers in a bootstrap. -/
theorem boot_ints {n C wmax : Nat} {D : Data F32} {draws : List Nat} (hcount : ((drawnRows n draws).map draws.count).sum = n)
    (hw : ∀ i, i < n → ∃ z : Nat, (D.w i).1 = z ∧ 1 ≤ z ∧ z ≤ wmax) (hC : n * wmax ≤ C) (hC' : C ≤ 2 ^ 24) :
    ∃ k : Nat → ℤ, (∀ i ∈ drawnRows n draws, ((bootData D ⟨drawnRows n draws, leftOutRows n draws, (drawnRows n draws).map draws.count⟩).w i).1 = k i ∧ 1 ≤ k i) ∧
      ((drawnRows n draws).map k).sum ≤ C := by
  choose! z hz1 hz2 hz3 using hw
  have hle : ∀ i ∈ drawnRows n draws, z i * draws.count i ≤ wmax * draws.count i := fun i hi => Nat.mul_le_mul_right _ (hz3 i (mem_drawnRows.1 hi).1)
  have hsum' : ((drawnRows n draws).map fun i => z i * draws.count i).sum ≤ C := by
    refine le_trans (List.sum_le_sum hle) ?_
    rw [List.sum_map_mul_left, hcount, Nat.mul_comm]; exact hC
  refine ⟨fun i => ((z i * draws.count i : Nat) : ℤ), fun i hi => ?_, ?_⟩
  · have hcp : 1 ≤ draws.count i := List.count_pos_iff.2 (mem_drawnRows.1 hi).2
    have hzi := hz2 i (mem_drawnRows.1 hi).1
    have hb : z i * draws.count i ≤ C := le_trans (List.single_le_sum (fun _ _ => Nat.zero_le _) _ (List.mem_map.2 ⟨i, hi, rfl⟩)) hsum'
    have hcn : draws.count i ≤ z i * draws.count i := Nat.le_mul_of_pos_left _ hzi
    refine ⟨?_, Int.ofNat_le.2 (Nat.mul_pos hzi hcp)⟩
    rw [bootData_weight _ hi]
    have h1 : (Num.ofNat (draws.count i) : F32).1 = ((draws.count i : ℤ) : ℚ) := by
      change (F32.of (draws.count i : ℚ)).1 = _
      rw [← Int.cast_natCast (R := ℚ) (draws.count i)]
      refine F32.of_int ?_
      rw [abs_of_nonneg (by positivity)]
      exact_mod_cast le_trans hcn (le_trans hb hC')
    rw [F32.mul_int (u := z i) (by rw [hz1 i (mem_drawnRows.1 hi).1]; simp) h1 (by
      rw [abs_of_nonneg (by positivity)]
      exact_mod_cast le_trans hb hC')]
    push_cast; ring
  · have : ((drawnRows n draws).map fun i => ((z i * draws.count i : Nat) : ℤ)).sum = (((drawnRows n draws).map fun i => z i * draws.count i).sum : Nat) := by
      rw [Nat.cast_list_sum, List.map_map]; rfl
    rw [this]
    exact_mod_cast hsum'

/-- Every tree of a regressor fitted without aggregation predicts numbers between the bounds. -/
theorem FitFacts.coarse {lib : Lib V K F32 G W} {a : FitArgs N V} {y sw : List F32} {e0 e' : Est L V K F32 F32 G} {lo hi e : ℤ} {C wmax : Nat} (hlib : LibOK lib a.nRows)
    {okW : List F32 → Prop} (h : FitFacts lib a ⟨fun _ => regressorTask lib.argsort, false, [y], [sw]⟩ (fun _ => True) okW e0 e') (hagg : e0.aggregation = false)
    (hw : ∀ v ∈ sw, ∃ z : Nat, v.1 = z ∧ 1 ≤ z ∧ z ≤ wmax) (hy : ∀ v ∈ y, (lo : ℚ) * 2 ^ e ≤ v.1 ∧ v.1 ≤ hi * 2 ^ e)
    (hC : a.nRows * wmax ≤ C) (hlo : C * |lo| ≤ 2 ^ 24) (hhi : C * |hi| ≤ 2 ^ 24) (hC' : C ≤ 2 ^ 24) (he : -149 ≤ e) {fba : FBA} (hx : RowsOK fba (nCols a.X)) :
    ∀ o ∈ e'.trees, ∃ p, o.predict mixF fba = .ok p ∧ p.length = fba.nSamples ∧ ∀ v ∈ p, (lo : ℚ) * 2 ^ e ≤ v.1 ∧ v.1 ≤ hi * 2 ^ e := by
  intro o ho
  obtain ⟨train, htr, hn, hdd, hall⟩ := h.indexed
  obtain ⟨i, hi', rfl⟩ := List.getElem_of_mem ho
  obtain ⟨c, gb, seed, yy, ww, -, hyy, hww, hyl, hwl, hcw, hca, -, hin, hbt⟩ := hall i _ (List.getElem?_eq_getElem hi')
  obtain rfl := List.mem_singleton.1 (List.mem_of_getElem? hyy)
  obtain rfl := List.mem_singleton.1 (List.mem_of_getElem? hww)
  have hD : (encData train yy ww).n = a.nRows := hn
  obtain ⟨b, w', hgen, hB⟩ := buildTree_boot (D := encData train yy ww) (by rw [hD]; exact hlib.boot) hin (by rw [hcw, hwl]; exact hn.symm) hbt
  rw [hD] at hgen
  obtain ⟨draws, -, hdr⟩ := genTV_explicit hgen
  have hdr' : b = ⟨drawnRows a.nRows draws, leftOutRows a.nRows draws, (drawnRows a.nRows draws).map draws.count⟩ := hdr
  subst hdr'
  have hpart := hB.part
  rw [hD] at hpart
  obtain ⟨k, hk1, hk2⟩ := boot_ints (D := encData train yy ww) (wmax := wmax) hpart.2.2.2.2.2 (fun i hi => by
    have hi2 : i < ww.length := by omega
    have : (encData train yy ww).w i = ww[i] := by simp [encData, hi2]
    rw [this]; exact hw _ (List.getElem_mem hi2)) hC hC'
  have H : Coarse (bootData (encData train yy ww) ⟨drawnRows a.nRows draws, leftOutRows a.nRows draws, (drawnRows a.nRows draws).map draws.count⟩)
      (drawnRows a.nRows draws) k C lo hi e := by
    refine ⟨hk1, fun i hi => ?_, by exact_mod_cast hk2, hlo, hhi, by exact_mod_cast hC', he⟩
    have hi2 : i < yy.length := by have := (mem_drawnRows.1 hi).1; omega
    have : (encData train yy ww).y i = yy[i] := by simp [encData, hi2]
    change (lo : ℚ) * 2 ^ e ≤ ((encData train yy ww).y i).1 ∧ ((encData train yy ww).y i).1 ≤ _
    rw [this]; exact hy _ (List.getElem_mem hi2)
  obtain ⟨t, hFi⟩ := fitted_of (regressor_safe hlib.argsort) hB.input hB.fit
  refine mapM_range fun i hi => ?_
  rw [hB.agg, hB.step, hca.trans hagg]
  have hx := hx i hi
  choose! x hx using hx
  refine ⟨_, predictRow_leaf hFi.facts (by rw [show (bootData (encData train yy ww) _).d = nCols a.X from hdd]; exact hx) mixF c.step, ?_⟩
  obtain ⟨_, _, hu'⟩ := hFi.facts.below (leafNode_sub x t 0)
  obtain ⟨_, _, hok, _⟩ := hu'.ok.facts.stats
  have hsub := hFi.facts.train_sublist (leafNode_sub x t 0)
  exact H.pred hsub hu'.ok.facts.nonempty hok.yPred

end

end Verif
