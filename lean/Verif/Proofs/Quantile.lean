import Verif.Proofs.Binning
import Verif.Proofs.Encoder
import Verif.Spec.Quantile
import Mathlib.Tactic.Linarith

/-! Counting the rows of the bins of a continuous column. -/
namespace Verif
open Spec

section
variable {α : Type}

theorem countP_diff (A B : α → Bool) (l : List α) (h : ∀ x ∈ l, A x = true → B x = true) :
    l.countP (fun x => B x && !A x) + l.countP A = l.countP B := by
  induction l with
  | nil => rfl
  | cons x l ih =>
    have := ih fun y hy => h y (List.mem_cons_of_mem _ hy)
    have hx := h x List.mem_cons_self
    simp only [List.countP_cons]
    cases hA : A x <;> cases hB : B x <;> simp_all <;> omega

theorem countP_some (p : Option α → Bool) (hp : p none = false) (l : List (Option α)) :
    l.countP p = (l.filterMap id).countP fun x => p (some x) := by
  induction l with
  | nil => rfl
  | cons x l ih =>
    cases x with
    | none => simp [hp, ih]
    | some x => simp [List.countP_cons, ih]

theorem cellsIn_map (col : List α) (g : α → Nat) (b : Nat) : cellsIn col (col.map g) b = col.filter fun c => g c = b := by
  unfold cellsIn
  induction col with
  | nil => rfl
  | cons c col ih =>
    simp only [List.map_cons, List.zip_cons_cons, List.filter_cons]
    by_cases h : g c = b
    · simp [h, ← ih]
    · simp [h, ih]

end

section
variable {K : Type} [LinearOrder K] [Field K] [IsStrictOrderedRing K]

theorem count_le_ge {s : List K} (hs : s.Pairwise (· ≤ ·)) {i : Nat} (hi : i < s.length) {t : K} (ht : s[i] ≤ t) :
    i + 1 ≤ s.countP fun x => decide (x ≤ t) := by
  have h1 : (s.take (i + 1)).countP (fun x => decide (x ≤ t)) = (s.take (i + 1)).length := by
    rw [List.countP_eq_length]
    intro x hx
    obtain ⟨j, hj, rfl⟩ := List.mem_iff_getElem.1 hx
    rw [List.getElem_take]
    have hj' : j < i + 1 := by rw [List.length_take] at hj; omega
    simp only [decide_eq_true_eq]
    exact (getElem_mono hs (by omega) hi (by omega)).trans ht
  have h2 := (List.take_sublist (i + 1) s).countP_le (p := fun x => decide (x ≤ t))
  rw [h1, List.length_take] at h2
  omega

theorem count_lt_le {s : List K} (hs : s.Pairwise (· ≤ ·)) {i : Nat} (hi : i < s.length) {t : K} (ht : t ≤ s[i]) :
    (s.countP fun x => decide (x < t)) ≤ i := by
  conv_lhs => rw [← List.take_append_drop i s]
  rw [List.countP_append]
  have h1 : (s.drop i).countP (fun x => decide (x < t)) = 0 := by
    rw [List.countP_eq_zero]
    intro x hx
    obtain ⟨j, hj, rfl⟩ := List.mem_iff_getElem.1 hx
    rw [List.length_drop] at hj
    rw [List.getElem_drop]
    simp only [decide_eq_true_eq, not_lt]
    exact ht.trans (getElem_mono hs hi (by omega) (by omega))
  rw [h1, add_zero]
  exact List.countP_le_length.trans (by simp)

theorem count_le_le {s : List K} (hs : s.Pairwise (· ≤ ·)) {i : Nat} {t : K} (ht : ∀ h : i < s.length, t < s[i]) :
    (s.countP fun x => decide (x ≤ t)) ≤ i := by
  conv_lhs => rw [← List.take_append_drop i s]
  rw [List.countP_append]
  have h1 : (s.drop i).countP (fun x => decide (x ≤ t)) = 0 := by
    rw [List.countP_eq_zero]
    intro x hx
    obtain ⟨j, hj, rfl⟩ := List.mem_iff_getElem.1 hx
    rw [List.length_drop] at hj
    rw [List.getElem_drop]
    simp only [decide_eq_true_eq, not_le]
    exact (ht (by omega)).trans_le (getElem_mono hs (by omega) (by omega) (by omega))
  rw [h1, add_zero]
  exact List.countP_le_length.trans (by simp)

theorem perc_hi (n m k : Nat) (hm : 0 < m) : ((n - 1) * k + m - 1) / m = (n - 1) * k / m ∨
    (((n - 1) * k + m - 1) / m = (n - 1) * k / m + 1 ∧ ¬ m ∣ (n - 1) * k) := by
  have h0 := Nat.div_add_mod ((n - 1) * k) m
  have h1 := Nat.mod_lt ((n - 1) * k) hm
  set q := (n - 1) * k / m
  set r := (n - 1) * k % m
  by_cases hr : r = 0
  · left
    rw [← h0, hr, add_zero, Nat.add_sub_assoc (by omega), Nat.mul_add_div hm, Nat.div_eq_of_lt (by omega), add_zero]
  · right
    refine ⟨?_, fun h => hr (Nat.mod_eq_zero_of_dvd h)⟩
    rw [← h0, show m * q + r + m - 1 = m * (q + 1) + (r - 1) by rw [Nat.mul_add]; omega, Nat.mul_add_div hm, Nat.div_eq_of_lt (by omega), add_zero]

/-- Where the percentile lies between the order statistics. -/
theorem percVal_between {s : List K} (hs : s.Pairwise (· ≤ ·)) (m k : Nat) (hp : 0 < s.length) (hm : 0 < m) (hk : k ≤ m) :
    s[(s.length - 1) * k / m]'((perc_idx s.length m k hp hm hk).1) ≤ percVal s m k hp hm hk ∧
    percVal s m k hp hm hk ≤ s[((s.length - 1) * k + m - 1) / m]'((perc_idx s.length m k hp hm hk).2) := by
  have h : s[(s.length - 1) * k / m]'((perc_idx s.length m k hp hm hk).1) ≤ s[((s.length - 1) * k + m - 1) / m]'((perc_idx s.length m k hp hm hk).2) :=
    getElem_mono hs _ _ (Nat.div_le_div_right (by omega))
  unfold percVal
  exact ⟨by linarith, by linarith⟩

theorem count_percVal {s : List K} (hs : s.Pairwise (· ≤ ·)) (m k : Nat) (hp : 0 < s.length) (hm : 0 < m) (hk : k ≤ m) :
    (s.length - 1) * k / m + 1 ≤ s.countP (fun x => decide (x ≤ percVal s m k hp hm hk)) ∧
    s.countP (fun x => decide (x < percVal s m k hp hm hk)) ≤ ((s.length - 1) * k + m - 1) / m ∧
    (s.Nodup → s.countP (fun x => decide (x ≤ percVal s m k hp hm hk)) = (s.length - 1) * k / m + 1) := by
  obtain ⟨h1, h2⟩ := percVal_between hs m k hp hm hk
  have hge := count_le_ge hs _ h1
  refine ⟨hge, count_lt_le hs _ h2, fun hn => le_antisymm ?_ hge⟩
  refine count_le_le hs fun hlt => ?_
  have hst : s.Pairwise (· < ·) := (hs.and hn).imp fun ⟨a, b⟩ => lt_of_le_of_ne a b
  rcases perc_hi s.length m k hm with h | ⟨h, -⟩
  · refine lt_of_le_of_lt h2 ?_
    simp only [h]
    exact List.pairwise_iff_getElem.1 hst _ _ _ hlt (by omega)
  · unfold percVal
    simp only [h]
    exact add_div_two_lt_right.2 (List.pairwise_iff_getElem.1 hst _ _ _ hlt (by omega))

/-- The thresholds when there are more distinct values than bins. -/
theorem thresholds_get {cap : K} {col : List (Option K)} {m : Nat} {thr : List K} (hm : 0 < m) (hp : 0 < (sortAsc (col.filterMap id)).length)
    (hcap : ∀ y, some y ∈ col → y ≤ cap) (hd : m < nDistinct col) (h : findBinningThresholds cap col m = .ok thr) :
    thr.length = m - 1 ∧ ∀ i (hi : i + 1 < m), thr[i]? = some (percVal (sortAsc (col.filterMap id)) m (i + 1) hp hm (by omega)) := by
  have hnd : nDistinct col = (npUnique (col.filterMap id)).length := by
    rw [npUnique_length]; rfl
  unfold findBinningThresholds at h
  simp only at h
  rw [if_neg (by omega)] at h
  obtain ⟨mids, h1, h2⟩ := bind_eq_ok.1 h
  have h3 := Except.ok.inj h2
  have h4 := mapM_eq_ok.1 h1
  have hlen := h4.length_eq
  rw [List.length_map, List.length_range] at hlen
  refine ⟨by rw [← h3, List.length_map, hlen], fun i hi => ?_⟩
  have hi' : i < mids.length := by omega
  have h5 := h4.get (i := i) (by simp; omega) hi'
  simp only [List.get_eq_getElem, List.getElem_map, List.getElem_range] at h5
  rw [percentileMidpoint_eq _ _ _ hp hm (by omega)] at h5
  rw [← h3, List.getElem?_map, List.getElem?_eq_getElem hi', ← Except.ok.inj h5]
  simp only [Option.map_some, Option.some.injEq, min_eq_left_iff]
  refine (percVal_between (sortAsc_sorted _) m (i + 1) hp hm (by omega)).2.trans ?_
  refine hcap _ ?_
  have : ∀ y ∈ sortAsc (col.filterMap id), some y ∈ col := fun y hy => by
    have := (sortAsc_perm (col.filterMap id)).mem_iff.1 hy
    simpa using this
  exact this _ (List.getElem_mem _)

/-- `k` thresholds in order are above the value: there are some, and the last of them is, or they are all there are. -/
def belowB (s : List K) (m : Nat) (hp : 0 < s.length) (hm : 0 < m) (k : Nat) (x : K) : Bool :=
  decide (0 < k) && (if hk : k ≤ m then decide (x ≤ percVal s m k hp hm hk) else true)

theorem belowB_last {s : List K} (hs : s.Pairwise (· ≤ ·)) {m : Nat} (hp : 0 < s.length) (hm : 0 < m) {x : K} (hx : x ∈ s) : belowB s m hp hm m x = true := by
  unfold belowB
  rw [dif_pos le_rfl]
  simp only [hm, decide_true, Bool.true_and, decide_eq_true_eq]
  refine le_trans ?_ (percVal_between hs m m hp hm le_rfl).1
  obtain ⟨j, hj, rfl⟩ := List.mem_iff_getElem.1 hx
  simp only [Nat.mul_div_cancel _ hm]
  exact getElem_mono hs hj _ (by omega)

/-- The bin in terms of the percentiles. -/
theorem isBin_below {cap : K} {col : List (Option K)} {m : Nat} {thr : List K} (hm : 0 < m) (hp : 0 < (sortAsc (col.filterMap id)).length)
    (hcap : ∀ y, some y ∈ col → y ≤ cap) (hd : m < nDistinct col) (h : findBinningThresholds cap col m = .ok thr) {x : K} (hx : x ∈ col.filterMap id)
    {b : Nat} (hb : b < m) :
    IsBin thr x b ↔ (belowB (sortAsc (col.filterMap id)) m hp hm (b + 1) x && !belowB (sortAsc (col.filterMap id)) m hp hm b x) = true := by
  obtain ⟨hlen, hget⟩ := thresholds_get hm hp hcap hd h
  have hlast := belowB_last (sortAsc_sorted _) hp hm ((sortAsc_perm _).mem_iff.2 hx)
  rw [Bool.and_eq_true, Bool.not_eq_true']
  have e1 : (∀ t, thr[b]? = some t → x ≤ t) ↔ belowB (sortAsc (col.filterMap id)) m hp hm (b + 1) x = true := by
    by_cases hbm : b + 1 < m
    · rw [hget b hbm]
      unfold belowB
      rw [dif_pos (by omega)]
      simp
    · have : b + 1 = m := by omega
      rw [this]
      simp only [hlast, iff_true]
      intro t ht
      rw [List.getElem?_eq_none (by omega)] at ht
      cases ht
  have e2 : (∀ j t, j + 1 = b → thr[j]? = some t → t < x) ↔ belowB (sortAsc (col.filterMap id)) m hp hm b x = false := by
    cases b with
    | zero => simp [belowB]
    | succ j =>
      unfold belowB
      rw [dif_pos (by omega)]
      simp only [Nat.succ_pos, decide_true, Bool.true_and, decide_eq_false_iff_not, not_le]
      constructor
      · intro h
        exact h j _ rfl (hget j (by omega))
      · intro h j' t hj ht
        obtain rfl : j' = j := by omega
        rw [hget j' (by omega)] at ht
        injection ht with ht
        rw [← ht]
        exact h
  unfold IsBin
  rw [e1, e2]
  constructor
  · rintro ⟨-, h1, h2⟩
    exact ⟨h1, h2⟩
  · rintro ⟨h1, h2⟩
    exact ⟨by omega, h1, h2⟩

theorem belowB_mono {s : List K} (hs : s.Pairwise (· ≤ ·)) {m : Nat} (hp : 0 < s.length) (hm : 0 < m) {b : Nat} (hb : b < m) {x : K}
    (h : belowB s m hp hm b x = true) : belowB s m hp hm (b + 1) x = true := by
  unfold belowB at h ⊢
  rw [dif_pos (by omega)] at h ⊢
  simp only [Bool.and_eq_true, decide_eq_true_eq] at h ⊢
  exact ⟨by omega, h.2.trans (percVal_mono s hs _ _ _ _ _ _ _ (by omega))⟩

/-- The number of values in a bin. -/
theorem count_bin {s : List K} (hs : s.Pairwise (· ≤ ·)) {m : Nat} (hp : 0 < s.length) (hm : 0 < m) {b : Nat} (hb : b < m) :
    (∃ v, s.countP (fun x => (belowB s m hp hm (b + 1) x && !belowB s m hp hm b x) && decide (x ≠ v)) ≤ (s.length - 1) / m + 1) ∧
    (s.Nodup → (s.length - 1) / m ≤ s.countP (fun x => belowB s m hp hm (b + 1) x && !belowB s m hp hm b x) ∧
      s.countP (fun x => belowB s m hp hm (b + 1) x && !belowB s m hp hm b x) ≤ (s.length - 1) / m + 1) := by
  have hsum := countP_diff (belowB s m hp hm b) (belowB s m hp hm (b + 1)) s fun x _ => belowB_mono hs hp hm hb
  have hnext : belowB s m hp hm (b + 1) = fun x => decide (x ≤ percVal s m (b + 1) hp hm hb) := by
    funext x
    unfold belowB
    rw [dif_pos (show b + 1 ≤ m from hb)]
    simp
  obtain ⟨hC1, hC2, hC3⟩ := count_percVal hs m (b + 1) hp hm hb
  have harith : (s.length - 1) * (b + 1) / m ≤ (s.length - 1) * b / m + (s.length - 1) / m + 1 ∧
      (s.length - 1) * b / m + (s.length - 1) / m ≤ (s.length - 1) * (b + 1) / m ∧
      ((s.length - 1) * (b + 1) + m - 1) / m ≤ (s.length - 1) * b / m + (s.length - 1) / m + 2 := by
    have a1 := Nat.div_add_mod ((s.length - 1) * b) m
    have a2 := Nat.mod_lt ((s.length - 1) * b) hm
    have a3 := Nat.div_add_mod (s.length - 1) m
    have a4 := Nat.mod_lt (s.length - 1) hm
    rw [Nat.mul_add, Nat.mul_one]
    set p := (s.length - 1) * b
    set l := s.length - 1
    refine ⟨?_, ?_, ?_⟩
    · refine Nat.lt_succ_iff.1 ((Nat.div_lt_iff_lt_mul hm).2 ?_)
      have : (p / m + l / m + 1 + 1) * m = m * (p / m) + m * (l / m) + 2 * m := by ring
      rw [Nat.succ_eq_add_one]
      omega
    · rw [Nat.le_div_iff_mul_le hm]
      have : (p / m + l / m) * m = m * (p / m) + m * (l / m) := by ring
      omega
    · refine Nat.lt_succ_iff.1 ((Nat.div_lt_iff_lt_mul hm).2 ?_)
      have : (p / m + l / m + 2 + 1) * m = m * (p / m) + m * (l / m) + 3 * m := by ring
      rw [Nat.succ_eq_add_one]
      omega
  cases b with
  | zero =>
    have h0 : belowB s m hp hm 0 = fun _ => false := by funext x; simp [belowB]
    rw [hnext, h0]
    simp only [Bool.not_false, Bool.and_true, zero_add, Nat.mul_one] at hC1 hC2 hC3 harith ⊢
    refine ⟨⟨percVal s m 1 hp hm hb, ?_⟩, fun hn => ?_⟩
    · refine le_trans (le_of_eq (List.countP_congr fun x _ => ?_)) (hC2.trans ?_)
      · simp only [Bool.and_eq_true, decide_eq_true_eq]
        exact (lt_iff_le_and_ne (a := x)).symm
      · rcases perc_hi s.length m 1 hm with h | ⟨h, -⟩
        · rw [Nat.mul_one] at h; omega
        · rw [Nat.mul_one] at h; omega
    · rw [hC3 hn]; omega
  | succ b =>
    have hprev : belowB s m hp hm (b + 1) = fun x => decide (x ≤ percVal s m (b + 1) hp hm (by omega)) := by
      funext x
      unfold belowB
      rw [dif_pos (show b + 1 ≤ m by omega)]
      simp
    obtain ⟨hD1, -, hD3⟩ := count_percVal hs m (b + 1) hp hm (by omega)
    rw [← hprev] at hD1 hD3
    rw [← hnext] at hC1 hC3
    refine ⟨⟨percVal s m (b + 1 + 1) hp hm hb, ?_⟩, fun hn => ?_⟩
    · have hlt := countP_diff (fun x => belowB s m hp hm (b + 1) x && decide (x < percVal s m (b + 1 + 1) hp hm hb))
        (fun x => decide (x < percVal s m (b + 1 + 1) hp hm hb)) s fun x _ h => (Bool.and_eq_true _ _ ▸ h).2
      by_cases heq : percVal s m (b + 1) hp hm (by omega) = percVal s m (b + 1 + 1) hp hm hb
      · have : s.countP (fun x => (belowB s m hp hm (b + 1 + 1) x && !belowB s m hp hm (b + 1) x) && decide (x ≠ percVal s m (b + 1 + 1) hp hm hb)) = 0 := by
          rw [List.countP_eq_zero]
          intro x _
          rw [hprev, hnext, heq]
          simp
        rw [this]
        exact Nat.zero_le _
      · have hltv : percVal s m (b + 1) hp hm (by omega) < percVal s m (b + 1 + 1) hp hm hb :=
          lt_of_le_of_ne (percVal_mono s hs _ _ _ _ _ _ _ (by omega)) heq
        have e1 : s.countP (fun x => belowB s m hp hm (b + 1) x && decide (x < percVal s m (b + 1 + 1) hp hm hb)) = s.countP (belowB s m hp hm (b + 1)) := by
          refine List.countP_congr fun x _ => ?_
          rw [hprev]
          simp only [Bool.and_eq_true, decide_eq_true_eq]
          exact ⟨And.left, fun h => ⟨h, h.trans_lt hltv⟩⟩
        have e2 : s.countP (fun x => (belowB s m hp hm (b + 1 + 1) x && !belowB s m hp hm (b + 1) x) && decide (x ≠ percVal s m (b + 1 + 1) hp hm hb)) =
            s.countP (fun x => decide (x < percVal s m (b + 1 + 1) hp hm hb) &&
              !(belowB s m hp hm (b + 1) x && decide (x < percVal s m (b + 1 + 1) hp hm hb))) := by
          refine List.countP_congr fun x _ => ?_
          rw [hnext]
          simp only [Bool.and_eq_true, Bool.not_eq_true', decide_eq_true_eq, Bool.and_eq_false_iff]
          constructor
          · rintro ⟨⟨h1, h2⟩, h3⟩
            exact ⟨lt_of_le_of_ne h1 h3, .inl h2⟩
          · rintro ⟨h1, h2⟩
            exact ⟨⟨h1.le, h2.resolve_right (by simp [h1])⟩, h1.ne⟩
        rw [e2]
        omega
    · have c3 := hC3 hn
      have d3 := hD3 hn
      omega

omit [Field K] [IsStrictOrderedRing K] in
theorem vals_pos {col : List (Option K)} {m : Nat} (hd : m < nDistinct col) : 0 < (sortAsc (col.filterMap id)).length := by
  rw [(sortAsc_perm _).length_eq]
  have : nDistinct col ≤ (col.filterMap id).length := by
    unfold nDistinct
    rw [List.card_toFinset]
    exact (List.dedup_sublist _).length_le
  omega

theorem thresholds_length {cap : K} {col : List (Option K)} {m : Nat} {thr : List K} (hm : 1 ≤ m) (hcap : ∀ y, some y ∈ col → y ≤ cap)
    (hd : m < nDistinct col) (h : findBinningThresholds cap col m = .ok thr) : thr.length + 1 = m := by
  have := (thresholds_get hm (vals_pos hd) hcap hd h).1
  omega

/-- Any function that gives the right bin of every value distributes the column evenly. -/
theorem balanced_countP {cap : K} {col : List (Option K)} {m : Nat} (hm : 1 ≤ m) (hd : m < nDistinct col) (hcap : ∀ y, some y ∈ col → y ≤ cap)
    {thr : List K} (h : findBinningThresholds cap col m = .ok thr) {g : Option K → Nat} (hmiss : m ≤ g none)
    (hg : ∀ x, some x ∈ col → IsBin thr x (g (some x))) {b : Nat} (hb : b < m) :
    (∃ v, col.countP (fun c => decide (g c = b) && decide (c ≠ some v)) ≤ ((col.filterMap id).length - 1) / m + 1) ∧
    ((col.filterMap id).Nodup → ((col.filterMap id).length - 1) / m ≤ col.countP (fun c => decide (g c = b)) ∧
      col.countP (fun c => decide (g c = b)) ≤ ((col.filterMap id).length - 1) / m + 1) := by
  obtain ⟨thr', h', hs, -⟩ := findBinningThresholds_spec cap col m hm
  rw [h] at h'
  cases h'
  have hp := vals_pos hd
  have hnone : g none ≠ b := by omega
  have hiff : ∀ x ∈ col.filterMap id, (g (some x) = b ↔ (belowB (sortAsc (col.filterMap id)) m hp hm (b + 1) x && !belowB (sortAsc (col.filterMap id)) m hp hm b x) = true) := by
    intro x hx
    rw [← isBin_below hm hp hcap hd h hx hb]
    have hx' : some x ∈ col := by simpa using hx
    exact ⟨fun e => e ▸ hg x hx', fun e => isBin_unique thr hs x (hg x hx') e⟩
  have hperm := (sortAsc_perm (col.filterMap id))
  obtain ⟨⟨v, h1⟩, h2⟩ := count_bin (sortAsc_sorted (col.filterMap id)) hp hm hb
  rw [hperm.length_eq] at h1 h2
  refine ⟨⟨v, ?_⟩, fun hn => ?_⟩
  · rw [countP_some _ (by simp [hnone])]
    refine le_trans (le_of_eq ?_) h1
    rw [hperm.countP_eq]
    refine List.countP_congr fun x hx => ?_
    have := hiff x hx
    simp only [Bool.and_eq_true, decide_eq_true_eq] at this ⊢
    rw [this]
    simp
  · have h3 := h2 (hperm.nodup_iff.2 hn)
    rw [countP_some _ (by simp [hnone])]
    have e : (col.filterMap id).countP (fun x => decide (g (some x) = b)) =
      (sortAsc (col.filterMap id)).countP (fun x => belowB (sortAsc (col.filterMap id)) m hp hm (b + 1) x && !belowB (sortAsc (col.filterMap id)) m hp hm b x) := by
      rw [hperm.countP_eq]
      refine List.countP_congr fun x hx => ?_
      rw [decide_eq_true_eq]
      exact hiff x hx
    rw [e]
    exact h3

omit [IsStrictOrderedRing K] in
theorem toFloats_eq {V : Type} [DecidableEq V] {f : V → Option K} {e : Err} {cells : List (Option V)} {xs : List (Option K)}
    (h : toFloats f e cells = .ok xs) : xs = cells.map (·.bind f) := by
  have := toFloats_ok h
  clear h
  induction this with
  | nil => rfl
  | cons hc _ ih =>
    rw [List.map_cons, ← ih]
    congr 1
    rcases hc with ⟨rfl, rfl⟩ | ⟨v, y, rfl, rfl, hf⟩
    · rfl
    · exact hf.symm

omit [LinearOrder K] [Field K] [IsStrictOrderedRing K] in
theorem numbersOf_cells {V N : Type} {num : V → Option K} {D : Dataset N V} {n j : Nat} {cells : List (Option V)} (hl : cells.length = n)
    (hc : ∀ i, cell D i j = cells[i]?) : numbersOf num D n j = cells.map (·.bind num) ∧ ∀ i < n, ∃ c, cell D i j = some c := by
  refine ⟨?_, fun i hi => ⟨cells[i]'(by omega), by rw [hc, List.getElem?_eq_getElem]⟩⟩
  apply List.ext_getElem
  · simp [numbersOf, hl]
  · intro i h1 h2
    simp [numbersOf, hc, List.getElem?_eq_getElem (show i < cells.length by simpa using h2)]

/-- The thresholds of a column are those of its numbers when all rows are used. -/
theorem numbersOf_fit {V N : Type} [DecidableEq V] {cv : Conv V K} {cfg : EncCfg K} {enc : List (FitCol V K)} {n : Nat} {D : Dataset N V} (hD : GoodInput n D)
    (hfit : encoderFit cv cfg none D = .ok enc) {j : Nat} {thr : List K} (hj : enc[j]? = some (.num thr)) :
    findBinningThresholds cfg.cap (numbersOf cv.toFloat D n j) cfg.maxBins = .ok thr ∧ ∀ i < n, ∃ c, cell D i j = some c := by
  obtain ⟨hj', he⟩ := List.getElem?_eq_some_iff.1 hj
  cases D with
  | frame X =>
    have h' : ((List.range (X.map Prod.snd).length).zip (X.map Prod.snd)).mapM
        (fun p => fitSeries cv cfg none p.1 p.2) = .ok enc := by
      simp only [encoderFit, fitDataFrame] at hfit
      split at hfit
      · split at hfit
        · cases hfit
        · exact hfit
      · exact hfit
    obtain ⟨hl, hf⟩ := fit_mapM h'
    have hjX : j < X.length := by rw [hl] at hj'; simpa using hj'
    have hF := hf j (by simpa using hjX)
    rw [he, List.getElem_map] at hF
    obtain ⟨e1, e2⟩ := numbersOf_cells (num := cv.toFloat) (D := .frame X) (j := j) (hD.2 _ (List.getElem_mem hjX)).1
      (fun i => by simp [cell, List.getElem?_eq_getElem hjX])
    refine ⟨?_, e2⟩
    rw [e1]
    unfold fitSeries at hF
    rw [bind_eq_ok] at hF
    obtain ⟨d, -, hF⟩ := hF
    rw [bind_eq_ok] at hF
    obtain ⟨t, -, hF⟩ := hF
    cases t with
    | isCategory => simp at hF
    | toCategory => simp at hF
    | numerical =>
      simp only [takeSubset, bind_ok] at hF
      rw [bind_eq_ok] at hF
      obtain ⟨xs, hxs, hF⟩ := hF
      rw [bind_eq_ok] at hF
      obtain ⟨thr', ht, hF⟩ := hF
      simp at hF
      rw [← toFloats_eq hxs, ht, hF]
  | array kind X =>
    have h' : ((List.range X.length).zip X).mapM
        (fun p => fitArrayCol cv cfg none kind p.1 p.2) = .ok enc := by
      simp only [encoderFit, fitArray] at hfit
      split at hfit
      · split at hfit
        · cases hfit
        · exact hfit
      · exact hfit
    obtain ⟨hl, hf⟩ := fit_mapM h'
    have hjX : j < X.length := by rw [hl] at hj'; simpa using hj'
    have hF := hf j hjX
    rw [he] at hF
    obtain ⟨e1, e2⟩ := numbersOf_cells (num := cv.toFloat) (D := (.array kind X : Dataset N V)) (j := j) (hD.1 _ (List.getElem_mem hjX))
      (fun i => by simp [cell, List.getElem?_eq_getElem hjX])
    refine ⟨?_, e2⟩
    rw [e1]
    unfold fitArrayCol at hF
    rw [bind_eq_ok] at hF
    obtain ⟨d, -, hF⟩ := hF
    simp only at hF
    rw [bind_eq_ok] at hF
    obtain ⟨t, -, hF⟩ := hF
    cases t with
    | true => simp at hF
    | false =>
      simp only [Bool.false_eq_true, if_false, takeSubset, bind_ok] at hF
      rw [bind_eq_ok] at hF
      obtain ⟨xs, hxs, hF⟩ := hF
      rw [bind_eq_ok] at hF
      obtain ⟨thr', ht, hF⟩ := hF
      simp at hF
      rw [← toFloats_eq hxs, ht, hF]

end

end Verif
