import Verif.Proofs.Float32Tree

/-! Trees of a gini classifier in float32 arithmetic, with integer weights. -/
set_option linter.unusedSectionVars false
namespace Verif

open Spec

/-- The final division of the probabilities, in any arithmetic. -/
theorem finishClassPred_eq {F : Type} [Num F] {n : Nat} (d w : F) {p : List F} (hp : p.length = n) :
    finishClassPred n d p w = .ok (p.map fun v => Num.div (Num.add v d) (Num.add w (Num.mul (Num.ofNat n) d))) := by
  have h := foldlM_inv (l := List.range n)
    (f := fun (p : List F) k => do
      let v ← rd p k
      wr p k (Num.div (Num.add v d) (Num.add w (Num.mul (Num.ofNat n) d))))
    (s := p) (fun pre q => q = (p.take pre.length).map (fun v => Num.div (Num.add v d) (Num.add w (Num.mul (Num.ofNat n) d))) ++ p.drop pre.length)
    (by simp)
    (by
      intro pre k post q hs hI
      have hk : k = pre.length := by
        have : (List.range n)[pre.length]? = some k := by rw [hs]; simp
        rw [List.getElem?_range (by
          have := congrArg List.length hs; simp at this; omega)] at this
        injection this with this; exact this.symm
      have hkn : k < n := List.mem_range.1 (by rw [hs]; simp)
      have hkp : k < p.length := by omega
      have hlen : q.length = p.length := by rw [hI, ← hk]; simp; omega
      have hkq : k < q.length := by omega
      have hval : q[k] = p[k] := by
        have : q[k]? = p[k]? := by
          rw [hI, ← hk, List.getElem?_append_right (by simp)]
          simp [Nat.min_eq_left hkp.le]
        rw [List.getElem?_eq_getElem hkq, List.getElem?_eq_getElem hkp] at this
        injection this
      refine ⟨_, by rw [rd_of_lt hkq, bind_ok, wr_of_lt _ hkq], ?_⟩
      rw [hval, hI, ← hk, List.length_append, List.length_singleton, ← hk, List.take_add_one, List.getElem?_eq_getElem hkp,
        List.map_append, List.drop_eq_getElem_cons hkp]
      rw [List.set_append_right _ _ (by simp)]
      have hset : ∀ a : F, (p.drop k).set 0 a = a :: p.drop (k + 1) := by
        intro a
        rw [List.drop_eq_getElem_cons hkp]; rfl
      simp [Nat.min_eq_left hkp.le, hset])
  obtain ⟨q, h1, h2⟩ := h
  unfold finishClassPred
  rw [h1, h2]
  simp [← hp]

/-- The value of a list of floats at each of the `n` classes. -/
def ClassVals (n : Nat) (y : List F32) (v : Nat → ℤ) : Prop := y.length = n ∧ ∀ j x, y[j]? = some x → x.1 = (v j : ℚ)

/-- The weight of a class. -/
def classSum (k : Nat → ℤ) (cls : Nat → Nat) (l : List Nat) (j : Nat) : ℤ := (l.map fun i => if cls i = j then k i else 0).sum

theorem classSum_nonneg {k : Nat → ℤ} {cls : Nat → Nat} {l : List Nat} (hk : ∀ i ∈ l, 0 ≤ k i) (j : Nat) : 0 ≤ classSum k cls l j :=
  List.sum_nonneg fun x hx => by
    obtain ⟨i, hi, rfl⟩ := List.mem_map.1 hx
    split
    · exact hk i hi
    · exact le_rfl

theorem classSum_total {k : Nat → ℤ} {cls : Nat → Nat} {n : Nat} : ∀ {l : List Nat}, (∀ i ∈ l, cls i < n) →
    ∑ j ∈ Finset.range n, classSum k cls l j = (l.map k).sum := by
  intro l
  induction l with
  | nil => intro _; simp [classSum]
  | cons a l ih =>
    intro h
    have h1 := ih fun i hi => h i (by simp [hi])
    unfold classSum at h1 ⊢
    simp only [List.map_cons, List.sum_cons, Finset.sum_add_distrib, h1]
    rw [Finset.sum_ite_eq, if_pos (Finset.mem_range.2 (h a (by simp)))]

theorem classSum_le {k : Nat → ℤ} {cls : Nat → Nat} {l : List Nat} (hk : ∀ i ∈ l, 0 ≤ k i) (j : Nat) : classSum k cls l j ≤ (l.map k).sum := by
  unfold classSum
  exact List.sum_le_sum fun i hi => by
    split
    · exact le_rfl
    · exact hk i hi

theorem classSum_ge {k : Nat → ℤ} {cls : Nat → Nat} {l : List Nat} (hk : ∀ i ∈ l, 0 ≤ k i) {i : Nat} (hi : i ∈ l) : k i ≤ classSum k cls l (cls i) := by
  unfold classSum
  refine List.single_le_sum (fun x hx => ?_) _ (List.mem_map.2 ⟨i, hi, by simp⟩)
  obtain ⟨r, hr, rfl⟩ := List.mem_map.1 hx
  split
  · exact hk r hr
  · exact le_rfl

theorem classSum_pure {k : Nat → ℤ} {cls : Nat → Nat} {l : List Nat} {c : Nat} (h : ∀ r ∈ l, cls r = c) (j : Nat) :
    classSum k cls l j = if c = j then (l.map k).sum else 0 := by
  unfold classSum
  split
  · rename_i hj
    exact congrArg List.sum (List.map_congr_left fun r hr => by rw [h r hr, if_pos hj])
  · rename_i hj
    rw [show (l.map fun i => if cls i = j then k i else 0) = l.map fun _ => 0 from List.map_congr_left fun r hr => by rw [h r hr, if_neg hj]]
    simp

section
variable {G : Type} {R : Rng G} {argsort : List F32 → List Nat} {n : Nat} {d : F32} {st : CatStrategy} {c : Ctx F32} {D : Data F32} {train : List Nat} {k : Nat → ℤ}
  {cls : Nat → Nat}

/-- Integer weights and valid classes of the training rows, with a small total weight. -/
structure SmallCounts (D : Data F32) (train : List Nat) (n : Nat) (k : Nat → ℤ) (cls : Nat → Nat) : Prop where
  weight : ∀ i ∈ train, (D.w i).1 = k i ∧ 1 ≤ k i
  label : ∀ i ∈ train, Num.toNat (D.y i) = cls i ∧ cls i < n
  total : (train.map k).sum ≤ 4096

theorem SmallCounts.bounds (H : SmallCounts D train n k cls) {l : List Nat} (hl : l.Sublist train) :
    (∀ i ∈ l, 0 ≤ k i) ∧ 0 ≤ (l.map k).sum ∧ (l.map k).sum ≤ 4096 := by
  obtain ⟨h1, h2⟩ := sum_sublist_le (k := k) hl fun i hi => by have := (H.weight i hi).2; omega
  exact ⟨fun i hi => by have := (H.weight i (hl.subset hi)).2; omega, h1, h2.trans H.total⟩

theorem sum_apply (k : Nat → ℤ) (cls : Nat → Nat) (l : List Nat) (j : Nat) :
    ((l.map fun i => fun j => if cls i = j then k i else 0).sum : Nat → ℤ) j = classSum k cls l j := by
  unfold classSum
  induction l with
  | nil => rfl
  | cons a l ih => simp only [List.map_cons, List.sum_cons, Pi.add_apply, ih]

/-- The sums of a classifier are exact. -/
theorem SmallCounts.exact (H : SmallCounts D train n k cls) :
    ExactSums (classifierTask R argsort n d .gini st : Task F32 (List F32) (List F32) G) D train (fun x u => x.1 = (u : ℚ)) (fun u => |u| ≤ 2 ^ 24) k
      (ClassVals n) (fun v => ∀ j, |v j| ≤ 2 ^ 24) (fun i => fun j => if cls i = j then k i else 0) where
  zeroW := F32.zero_int
  rowW := fun i hi => (H.weight i hi).1
  addW := fun h1 h2 h3 => F32.add_int h1 h2 h3
  subW := fun h1 h2 h3 => F32.sub_int h1 h2 h3
  zeroY := ⟨by simp [classifierTask], fun j x hx => by
    obtain rfl := List.eq_of_mem_replicate (List.mem_of_getElem? hx)
    exact F32.zero_int⟩
  rowY := fun i hi {y y' v} h1 h2 h3 => by
    obtain ⟨e1, e2⟩ := H.label i hi
    have hlt : cls i < y.length := by rw [h1.1]; exact e2
    change addClass y (D.w i) (D.y i) = .ok y' at h3
    simp only [addClass, e1, rd_of_lt hlt, bind_ok, wr_of_lt _ hlt] at h3
    obtain rfl := Except.ok.inj h3
    refine ⟨by simp [h1.1], fun j x hx => ?_⟩
    rw [List.getElem?_set] at hx
    have h2j := h2 j
    simp only [Pi.add_apply] at h2j ⊢
    by_cases hj : cls i = j
    · subst hj
      rw [if_pos rfl, if_pos hlt] at hx
      obtain rfl := Option.some.inj hx
      rw [if_pos rfl] at h2j ⊢
      exact F32.add_int (h1.2 _ _ (List.getElem?_eq_getElem hlt)) (H.weight i hi).1 h2j
    · rw [if_neg hj] at hx ⊢
      rw [add_zero]
      exact h1.2 _ _ hx
  plusY := fun {x y u v} h1 h2 h3 => by
    refine ⟨by simp [classifierTask, h1.1, h2.1], fun j z hz => ?_⟩
    change (List.zipWith Num.add x y)[j]? = some z at hz
    obtain ⟨p, q, e1, e2, rfl⟩ := List.getElem?_zipWith_eq_some.1 hz
    exact F32.add_int (h1.2 _ _ e1) (h2.2 _ _ e2) (h3 j)
  minusY := fun {x y u v} h1 h2 h3 => by
    refine ⟨by simp [classifierTask, h1.1, h2.1], fun j z hz => ?_⟩
    change (List.zipWith Num.sub x y)[j]? = some z at hz
    obtain ⟨p, q, e1, e2, rfl⟩ := List.getElem?_zipWith_eq_some.1 hz
    exact F32.sub_int (h1.2 _ _ e1) (h2.2 _ _ e2) (h3 j)
  smallW := fun l hl => by
    obtain ⟨-, h1, h2⟩ := H.bounds hl
    rw [abs_of_nonneg h1]
    exact h2.trans (by norm_num)
  smallY := fun l hl j => by
    obtain ⟨h0, h1, h2⟩ := H.bounds hl
    rw [sum_apply, abs_of_nonneg (classSum_nonneg h0 j)]
    exact ((classSum_le h0 j).trans h2).trans (by norm_num)

/-- The sum of the squares of the class weights is exact. -/
theorem sumSq_exact {y : List F32} {v : Nat → ℤ} {s : F32} (hy : ClassVals n y v) (h0 : ∀ j, 0 ≤ v j) (hb : ∑ j ∈ Finset.range n, v j ≤ 4096)
    (hs : sumSq n y = .ok s) : s.1 = ((∑ j ∈ Finset.range n, v j * v j : ℤ) : ℚ) := by
  have key : ∀ m ≤ n, ∀ s : F32, (List.range m).foldlM (fun (s : F32) k => do let v ← rd y k; return Num.add s (Num.mul v v)) Num.zero = .ok s →
      s.1 = ((∑ j ∈ Finset.range m, v j * v j : ℤ) : ℚ) := by
    intro m
    induction m with
    | zero =>
      intro _ s hs
      obtain rfl := Except.ok.inj hs
      simpa using F32.zero_int
    | succ m ih =>
      intro hm s hs
      rw [List.range_succ, List.foldlM_append, bind_eq_ok] at hs
      obtain ⟨s0, e1, e2⟩ := hs
      rw [List.foldlM_cons, bind_eq_ok] at e2
      obtain ⟨s1, e2, e3⟩ := e2
      obtain rfl := Except.ok.inj e3
      have hlt : m < y.length := by rw [hy.1]; omega
      rw [rd_of_lt hlt, bind_ok] at e2
      obtain rfl := Except.ok.inj e2
      have hv := hy.2 m _ (List.getElem?_eq_getElem hlt)
      have hsub : ∑ j ∈ Finset.range (m + 1), v j ≤ 4096 :=
        le_trans (Finset.sum_le_sum_of_subset_of_nonneg (Finset.range_subset_range.2 hm) fun j _ _ => h0 j) hb
      have hnn : 0 ≤ ∑ j ∈ Finset.range (m + 1), v j := Finset.sum_nonneg fun j _ => h0 j
      have hsq : ∑ j ∈ Finset.range (m + 1), v j * v j ≤ (∑ j ∈ Finset.range (m + 1), v j) * ∑ j ∈ Finset.range (m + 1), v j := by
        rw [Finset.sum_mul]
        exact Finset.sum_le_sum fun j hj => mul_le_mul_of_nonneg_left (Finset.single_le_sum (fun i _ => h0 i) hj) (h0 j)
      have hle : ∑ j ∈ Finset.range (m + 1), v j * v j ≤ 2 ^ 24 := hsq.trans (by nlinarith)
      rw [Finset.sum_range_succ] at hle ⊢
      have h1 : 0 ≤ ∑ j ∈ Finset.range m, v j * v j := Finset.sum_nonneg fun j _ => mul_self_nonneg _
      have h2 := mul_self_nonneg (v m)
      refine F32.add_int (ih (by omega) _ e1) (F32.mul_int hv hv ?_) ?_
      · rw [abs_of_nonneg h2]; omega
      · rw [abs_of_nonneg (by omega)]; exact hle
  exact key n le_rfl s hs

/-- A node with different classes has a positive gini impurity. -/
theorem SmallCounts.pure (H : SmallCounts D train n k cls) {l : List Nat} (hl : l.Sublist train) {w s : F32} {y : List F32} (hw : w.1 = ((l.map k).sum : ℤ))
    (hy : ClassVals n y (l.map fun i => fun j => if cls i = j then k i else 0).sum) (hs : sumSq n y = .ok s)
    (hle : Num.le (Num.sub Num.one (Num.div s (Num.mul w w))) Num.zero = true) : ∀ i ∈ l, ∀ r ∈ l, cls r = cls i := by
  intro i hi r hr
  by_contra hne
  obtain ⟨h0, h1, h2⟩ := H.bounds hl
  have hv : ∀ j, (l.map fun i => fun j => if cls i = j then k i else 0).sum j = classSum k cls l j := sum_apply k cls l
  have ht : ∑ j ∈ Finset.range n, classSum k cls l j = (l.map k).sum := classSum_total fun i hi => (H.label i (hl.subset hi)).2
  have hs' := sumSq_exact hy (fun j => by rw [hv]; exact classSum_nonneg h0 j) (by simp only [hv, ht]; exact h2) hs
  simp only [hv] at hs'
  obtain ⟨W, hW⟩ : ∃ W, W = (l.map k).sum := ⟨_, rfl⟩
  obtain ⟨S, hS⟩ : ∃ S, S = ∑ j ∈ Finset.range n, classSum k cls l j * classSum k cls l j := ⟨_, rfl⟩
  rw [← hW] at h1 h2 hw ht
  rw [← hS] at hs'
  -- the two classes
  have hci : 1 ≤ classSum k cls l (cls i) := le_trans (H.weight i (hl.subset hi)).2 (classSum_ge h0 hi)
  have hcr : 1 ≤ classSum k cls l (cls r) := le_trans (H.weight r (hl.subset hr)).2 (classSum_ge h0 hr)
  have hin := Finset.mem_range.2 (H.label i (hl.subset hi)).2
  have hrn := Finset.mem_range.2 (H.label r (hl.subset hr)).2
  have hge : classSum k cls l (cls i) + 1 ≤ W := by
    rw [← ht, ← Finset.add_sum_erase _ _ hin]
    have := Finset.single_le_sum (f := classSum k cls l) (fun j _ => classSum_nonneg h0 j) (Finset.mem_erase.2 ⟨hne, hrn⟩)
    omega
  have hdiff : W - 1 ≤ W * W - S := by
    have e : W * W - S = ∑ j ∈ Finset.range n, classSum k cls l j * (W - classSum k cls l j) := by
      rw [hS]
      simp only [mul_sub, Finset.sum_sub_distrib]
      rw [← Finset.sum_mul, ht]
    rw [e]
    refine le_trans ?_ (Finset.single_le_sum (f := fun j => classSum k cls l j * (W - classSum k cls l j)) (fun j hj => ?_) hin)
    · nlinarith
    · have : classSum k cls l j ≤ W := by rw [hW]; exact classSum_le h0 j
      exact mul_nonneg (classSum_nonneg h0 j) (by omega)
  have hW2 : 2 ≤ W := by omega
  have hww : (Num.mul w w).1 = ((W * W : ℤ) : ℚ) := F32.mul_int hw hw (by rw [abs_of_nonneg (mul_self_nonneg _)]; nlinarith)
  have hpos : 0 < (Num.sub Num.one (Num.div s (Num.mul w w)) : F32).1 := by
    change 0 < (F32.of ((F32.of 1).1 - (F32.of (s.1 / (Num.mul w w : F32).1)).1)).1
    refine F32.sub_pos ?_
    rw [F32.one_val, hs', hww]
    have hb : (S : ℚ) / ((W * W : ℤ) : ℚ) ≤ 8191 / 8192 := by
      rw [div_le_div_iff₀ (by exact_mod_cast (by positivity : 0 < W * W)) (by norm_num)]
      have : S * 8192 ≤ 8191 * (W * W) := by nlinarith
      exact_mod_cast this
    have hr : (F32.of ((S : ℚ) / ((W * W : ℤ) : ℚ))).1 ≤ (F32.of (8191 / 8192)).1 := F32.of_mono hb
    refine lt_of_le_of_lt hr ?_
    rw [show (F32.of (8191 / 8192)).1 = 8191 / 8192 by decide +kernel]
    norm_num
  change decide ((Num.sub Num.one (Num.div s (Num.mul w w)) : F32).1 ≤ (Num.zero : F32).1) = true at hle
  rw [F32.zero_int] at hle
  simp only [Int.cast_zero, decide_eq_true_eq] at hle
  linarith

/-- The smoothed share of a class that has all the weight is larger than that of a class without weight. -/
theorem share_lt {d w x z : F32} {W : ℤ} (hw : w.1 = W) (hx : x.1 = W) (hz : z.1 = ((0 : ℤ) : ℚ)) (h1 : 1 ≤ W) (h2 : W ≤ 4096) (hn : n ≤ 4096)
    (hd0 : 0 ≤ d.1) (hd1 : d.1 ≤ 1) : (Num.div (Num.add z d) (Num.add w (Num.mul (Num.ofNat n) d)) : F32).1 <
      (Num.div (Num.add x d) (Num.add w (Num.mul (Num.ofNat n) d)) : F32).1 := by
  obtain ⟨t, ht⟩ : ∃ t : F32, t = Num.add w (Num.mul (Num.ofNat n) d) := ⟨_, rfl⟩
  rw [← ht]
  change (F32.of ((F32.of (z.1 + d.1)).1 / t.1)).1 < (F32.of ((F32.of (x.1 + d.1)).1 / t.1)).1
  have hq1 : (1 : ℚ) ≤ W := by exact_mod_cast h1
  have hq2 : (W : ℚ) ≤ 4096 := by exact_mod_cast h2
  have hnd : (Num.mul (Num.ofNat n) d : F32).1 ≤ 4096 ∧ 0 ≤ (Num.mul (Num.ofNat n) d : F32).1 := by
    change (F32.of ((F32.of (n : ℚ)).1 * d.1)).1 ≤ _ ∧ 0 ≤ (F32.of ((F32.of (n : ℚ)).1 * d.1)).1
    rw [F32.of_nat (by omega)]
    have hn' : (n : ℚ) ≤ 4096 := by exact_mod_cast hn
    have h0 : (0 : ℚ) ≤ n * d.1 := by positivity
    constructor
    · have : (F32.of (n * d.1)).1 ≤ (F32.of 4096).1 := F32.of_mono (by nlinarith)
      rwa [show (F32.of 4096).1 = 4096 by decide +kernel] at this
    · have : (F32.of 0).1 ≤ (F32.of (n * d.1)).1 := F32.of_mono h0
      rwa [F32.zero_val] at this
  have ht1 : 1 ≤ t.1 := by
    rw [ht]
    change 1 ≤ (F32.of (w.1 + _)).1
    have : (F32.of 1).1 ≤ (F32.of (w.1 + (Num.mul (Num.ofNat n) d : F32).1)).1 := F32.of_mono (by rw [hw]; linarith [hnd.2])
    rwa [F32.one_val] at this
  have ht2 : t.1 ≤ 8192 := by
    rw [ht]
    change (F32.of (w.1 + _)).1 ≤ 8192
    have : (F32.of (w.1 + (Num.mul (Num.ofNat n) d : F32).1)).1 ≤ (F32.of 8192).1 := F32.of_mono (by rw [hw]; linarith [hnd.1])
    rwa [show (F32.of 8192).1 = 8192 by decide +kernel] at this
  have hz' : (F32.of (z.1 + d.1)).1 = d.1 := by rw [hz, Int.cast_zero, zero_add, F32.of_val]
  rw [hz', hx]
  obtain ⟨u, hu⟩ : ∃ u, u = (F32.of ((W : ℚ) + d.1)).1 := ⟨_, rfl⟩
  rw [← hu]
  have hu1 : 1 ≤ u := by
    have : (F32.of 1).1 ≤ (F32.of ((W : ℚ) + d.1)).1 := F32.of_mono (by linarith)
    rwa [F32.one_val, ← hu] at this
  have hu2 : d.1 * (2 - 1 / 1000) ≤ u := by
    have h3 : d.1 + d.1 ≤ (W : ℚ) + d.1 := by linarith
    have h4 := round32_error (x := (W : ℚ) + d.1) (by norm_num; linarith)
    have h5 := (abs_le.1 h4).1
    have h6 : u = round32 ((W : ℚ) + d.1) := hu
    rw [← h6] at h5
    linarith
  have hlow : (1 / 8192 : ℚ) ≤ (F32.of (u / t.1)).1 := by
    have : (F32.of (1 / 8192)).1 ≤ (F32.of (u / t.1)).1 := F32.of_mono (by
      rw [div_le_div_iff₀ (by norm_num) (by linarith)]; linarith)
    rwa [show (F32.of (1 / 8192)).1 = 1 / 8192 by decide +kernel] at this
  by_cases hs : d.1 / t.1 ≤ 1 / 16384
  · have : (F32.of (d.1 / t.1)).1 ≤ (F32.of (1 / 16384)).1 := F32.of_mono hs
    rw [show (F32.of (1 / 16384)).1 = 1 / 16384 by decide +kernel] at this
    linarith
  · push Not at hs
    have hA : (2 : ℚ) ^ (-126 : ℤ) ≤ d.1 / t.1 := by
      refine le_trans ?_ hs.le
      norm_num
    have hr : d.1 / t.1 * (2 - 1 / 1000) ≤ u / t.1 := by
      rw [div_mul_eq_mul_div]
      exact div_le_div_of_nonneg_right hu2 (by linarith)
    have e1 := (abs_le.1 (round32_error hA)).2
    have e2 := (abs_le.1 (round32_error (hA.trans (by nlinarith : d.1 / t.1 ≤ u / t.1)))).1
    change round32 (d.1 / t.1) < round32 (u / t.1)
    nlinarith

/-- The prediction of a leaf with one class. -/
theorem SmallCounts.pred (H : SmallCounts D train n k cls) {l : List Nat} (hl : l.Sublist train) {i : Nat} (hi : i ∈ l) (hm : ∀ r ∈ l, cls r = cls i)
    (hn : n ≤ 4096) (hd0 : 0 ≤ d.1) (hd1 : d.1 ≤ 1) {p : List F32}
    (hp : nodePred (classifierTask R argsort n d .gini st : Task F32 (List F32) (List F32) G) D l = .ok p) :
    p.length = n ∧ ∃ q, p[cls i]? = some q ∧ ∀ j x, j ≠ cls i → p[j]? = some x → x.1 < q.1 := by
  unfold nodePred at hp
  rw [bind_eq_ok] at hp
  obtain ⟨y, e1, e2⟩ := hp
  have hy := (H.exact (R := R) (argsort := argsort) (d := d) (st := st)).sumY hl (y := y) e1
  have hw := (H.exact (R := R) (argsort := argsort) (d := d) (st := st)).sumW hl
  obtain ⟨h0, h1, h2⟩ := H.bounds hl
  change finishClassPred n d y _ = .ok p at e2
  rw [finishClassPred_eq _ _ hy.1] at e2
  obtain rfl := Except.ok.inj e2
  have hlt : cls i < y.length := by rw [hy.1]; exact (H.label i (hl.subset hi)).2
  refine ⟨by simp [hy.1], _, by rw [List.getElem?_map, List.getElem?_eq_getElem hlt]; rfl, fun j x hj hx => ?_⟩
  rw [List.getElem?_map] at hx
  obtain ⟨z, hz, rfl⟩ := Option.map_eq_some_iff.1 hx
  have hW : 1 ≤ (l.map k).sum := by
    have := (H.weight i (hl.subset hi)).2
    have := classSum_ge (cls := cls) h0 hi
    have := classSum_le (cls := cls) h0 (cls i)
    omega
  have v1 := hy.2 _ _ (List.getElem?_eq_getElem hlt)
  have v2 := hy.2 _ _ hz
  rw [sum_apply, classSum_pure hm, if_pos rfl] at v1
  rw [sum_apply, classSum_pure hm, if_neg (Ne.symm hj)] at v2
  exact share_lt hw v1 v2 hW h2 hn hd0 hd1

end

section
variable {L V K G W N : Type} [LinearOrder L] [DecidableEq V] [DecidableEq N] [LinearOrder K] [Field K] [IsStrictOrderedRing K] [FloorSemiring K]

theorem class_orders {F : Type} [Num F] {R : Rng G} {argsort : List F → List Nat} {n : Nat} {d : F} {cr : Criterion} {st : CatStrategy} (hn : 0 < n) {bins : List Nat}
    {ySum : List (List F)} {g g' : G} {os : List (List Nat)} (h : (classifierTask R argsort n d cr st).orders bins ySum g = .ok (os, g')) : os ≠ [] := by
  change classOrders R argsort n st bins ySum g = .ok (os, g') at h
  unfold classOrders at h
  cases st with
  | all =>
    simp only at h
    rw [bind_eq_ok] at h
    obtain ⟨o, h1, h⟩ := h
    obtain ⟨rfl, -⟩ := Prod.mk.inj (Except.ok.inj h)
    have := (mapM_eq_ok.1 h1).length_eq
    intro h0
    rw [h0] at this
    simp at this
    omega
  | binary =>
    simp only at h
    rw [bind_eq_ok] at h
    obtain ⟨o, -, h⟩ := h
    obtain ⟨rfl, -⟩ := Prod.mk.inj (Except.ok.inj h)
    simp
  | random =>
    simp only at h
    rw [bind_eq_ok] at h
    obtain ⟨⟨m, g1⟩, -, h⟩ := h
    rw [bind_eq_ok] at h
    obtain ⟨o, -, h⟩ := h
    obtain ⟨rfl, -⟩ := Prod.mk.inj (Except.ok.inj h)
    simp

/-- Every tree of a gini classifier without limits gives a drawn row with a consistent class the largest probability for its own class, in float32 arithmetic. -/
theorem FreeTree.class_values {lib : Lib V K F32 G W} {a : FitArgs N V} {train : FBA} {y w : List F32} {seed : Nat} {draws : List Nat} {c : Ctx F32} {n : Nat} {d : F32}
    {st : CatStrategy} {ob : TreeObj F32 (List F32) G} {wmax : Nat} {cls : Nat → Nat}
    (hT : FreeTree lib a (classifierTask lib.rng lib.argsort n d .gini st) (ClassLabel n) train y w seed draws c ob)
    (hlib : LibOK lib a.nRows) (hst : StrategyOK n st) (hrows : train.nSamples = a.nRows) (hcols : train.nFeatures = nCols a.X) (hx : RowsOK train (nCols a.X))
    (hlen : w.length = a.nRows) (hy : ∀ i < a.nRows, Num.toNat (y.getD i Num.zero) = cls i ∧ cls i < n)
    (hw : ∀ v ∈ w, ∃ z : Nat, v.1 = z ∧ 1 ≤ z ∧ z ≤ wmax) (hn : 0 < n ∧ n ≤ 4096) (hd0 : 0 ≤ d.1) (hd1 : d.1 ≤ 1) (hb : a.nRows * wmax ≤ 4096) :
    ∃ v : Nat → List F32, ob.predict mixV train = .ok ((List.range a.nRows).map v) ∧
      ∀ i < a.nRows, i ∈ draws → Consistent (nCols a.X) (binsOf train) cls draws i →
        (v i).length = n ∧ ∃ q, (v i)[cls i]? = some q ∧ ∀ j x, j ≠ cls i → (v i)[j]? = some x → x.1 < q.1 := by
  obtain ⟨k, hk1, hk2⟩ := weight_ints hT hlen hw hb (by norm_num)
  obtain ⟨D, hD⟩ : ∃ D, D = bootData (encData train y w) ⟨drawnRows a.nRows draws, leftOutRows a.nRows draws, (drawnRows a.nRows draws).map draws.count⟩ :=
    ⟨_, rfl⟩
  have H : SmallCounts D (drawnRows a.nRows draws) n k cls := by
    refine ⟨fun i hi => by rw [hD]; exact hk1 i hi, fun i hi => ?_, by exact_mod_cast hk2⟩
    rw [hD]
    exact hy i (mem_drawnRows.1 hi).1
  have hin := hT.input
  rw [← hD] at hin
  obtain ⟨gb, hfit⟩ := hT.fit
  have hDd : D.d = nCols a.X := by rw [hD]; exact hcols
  have hDX : D.X = binsOf train := by rw [hD]; rfl
  obtain ⟨v, hv1, hv2⟩ := pure_leaf (cls := cls)
    (Q := fun u v x => ∃ (w s : F32) (y : List F32), x = Num.sub Num.one (Num.div s (Num.mul w w)) ∧ w.1 = (u : ℚ) ∧ ClassVals n y v ∧ sumSq n y = .ok s)
    (ValidTask.classifier _ _ _ _ hlib.argsort hst) (fun _ _ _ _ _ h => class_orders hn.1 h) f32_gainLaws f32_irrefl (fun _ => rfl) hin hfit (drawnRows_length _ _) hT.limit hT.agg.1
    hT.minSplit hT.minLeaf (by rw [hDd]; exact hT.features) H.exact
    (fun {wL wR a b x y u u' v v'} h h1 h2 h3 h4 => by
      change giniChilds n wL wR a b = .ok (x, y) at h
      unfold giniChilds at h
      rw [bind_eq_ok] at h
      obtain ⟨sL, e1, h⟩ := h
      rw [bind_eq_ok] at h
      obtain ⟨sR, e2, h⟩ := h
      obtain ⟨rfl, rfl⟩ := Prod.mk.inj (Except.ok.inj h)
      exact ⟨⟨_, _, _, rfl, h1, h3, e1⟩, ⟨_, _, _, rfl, h2, h4, e2⟩⟩)
    (fun l x hl hq h0 => by
      obtain ⟨w, s, y, rfl, q1, q2, q3⟩ := hq
      exact H.pure hl q1 q2 q3 h0)
  refine ⟨v, ?_, fun i hi hid hcons => ?_⟩
  · unfold TreeObj.predict treePredict
    rw [hT.agg.2, hrows]
    refine mapM_range_eq fun i hi => hv1 _ _ _ _ fun j hj => ?_
    rw [hDd] at hj
    obtain ⟨z, hz⟩ := hx i (by rw [hrows]; exact hi) j hj
    rw [hDX, hz]
    simp [binsOf, hz]
  · have hmem := mem_drawnRows.2 ⟨hi, hid⟩
    obtain ⟨l, l1, l2, l3, l4⟩ := hv2 i hmem (by
      intro r hr hb
      rw [hDd, hDX] at hb
      exact hcons r (mem_drawnRows.1 hr).2 hb)
    exact H.pred l1 l2 l3 hn.2 hd0 hd1 l4

/-- The labels of the trees of a classifier, in any arithmetic. -/
theorem prepared_label {F : Type} [Num F] {lib : Lib V K F G W} {e : Est L V K F (List F) G} {y : List L} {sw : List F} {k i : Nat} {yy : List F}
    (h : (preparedOf lib e y sw).ys[k]? = some yy) (hi : i < y.length) :
    yy.getD i Num.zero = Num.ofNat (treeLabel (staysOvr e y) (classOf (sortedUnique y) y) k i) := by
  simp only [preparedOf] at h
  rw [List.getElem?_map] at h
  obtain ⟨codes, hcodes, rfl⟩ := Option.map_eq_some_iff.1 h
  obtain ⟨hclen, hcl⟩ := codesOf_getElem? hcodes
  have hi' : i < codes.length := by omega
  simp only [List.getD_eq_getElem?_getD, List.getElem?_map, hcl i hi', Option.map_some, Option.getD_some]

/-- The weights of the trees of a classifier without class weights. -/
theorem prepared_weight {F : Type} [Num F] {lib : Lib V K F G W} {e : Est L V K F (List F) G} {y : List L} {sw w : List F} {k : Nat}
    (hbal : e.balanced = false) (h : (preparedOf lib e y sw).ws[k]? = some w) : w = sw := by
  simp only [preparedOf] at h
  unfold classWeights at h
  rw [hbal, if_neg (by simp), List.getElem?_map] at h
  obtain ⟨_, -, h⟩ := Option.map_eq_some_iff.1 h
  exact h.symm

end

end Verif
