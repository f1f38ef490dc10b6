import Verif.Model.Bitarray
import Verif.Proofs.Basic

/-! Lemmas about the packed dataset. -/
namespace Verif

/-! ## Layout -/

theorem clog_bound {m : Nat} (h : m < 2 ^ 63) : Nat.clog 2 (m + 1) ≤ 63 :=
  (Nat.clog_le_iff_le_pow (by norm_num)).2 h

theorem colLayout_spec {m : Nat} (h : m < 2 ^ 63) :
    0 < (colLayout m).1 ∧ (colLayout m).1 ≤ 63 ∧ 0 < (colLayout m).2.1 ∧
      (colLayout m).2.1 * (colLayout m).1 ≤ 64 ∧ m < 2 ^ (colLayout m).1 ∧
      ∀ t, (colLayout m).2.2.getLsbD t = decide (t < (colLayout m).1) := by
  unfold colLayout
  split
  · rename_i h1
    refine ⟨by norm_num, by norm_num, by norm_num, by norm_num, by simp; omega, ?_⟩
    intro t
    simp
  · rename_i h1
    have hpos : 0 < Nat.clog 2 (m + 1) := Nat.clog_pos (by norm_num) (by omega)
    have hle : Nat.clog 2 (m + 1) ≤ 63 := clog_bound h
    have hlt : m < 2 ^ Nat.clog 2 (m + 1) := by
      have := Nat.le_pow_clog (b := 2) (by norm_num) (m + 1)
      omega
    generalize Nat.clog 2 (m + 1) = nb at *
    refine ⟨hpos, hle, ?_, Nat.div_mul_le_self _ _, hlt, ?_⟩
    · exact Nat.div_pos (by omega) hpos
    · intro t
      have h2 : (2 : Nat) ^ nb < 2 ^ 64 := Nat.pow_lt_pow_right (by norm_num) (by omega)
      have h3 : 0 < (2 : Nat) ^ nb := by positivity
      have : ((1#64 <<< nb) - 1#64).toNat = 2 ^ nb - 1 := by
        rw [BitVec.toNat_sub, BitVec.toNat_shiftLeft]
        have e1 : (1 % 2 ^ 64 : Nat) = 1 := by norm_num
        simp only [BitVec.toNat_ofNat, Nat.shiftLeft_eq, e1, one_mul, Nat.mod_eq_of_lt h2]
        omega
      rw [← BitVec.testBit_toNat, this, Nat.testBit_two_pow_sub_one]

/-! ## One word -/

/-- The word obtained by shifting in the values of `l` one after the other. -/
def packW (nb : Nat) (l : List Nat) : Word :=
  l.foldl (fun w x => (w <<< nb) ||| BitVec.ofNat 64 x) 0#64

theorem packW_snoc (nb : Nat) (l : List Nat) (x : Nat) :
    packW nb (l ++ [x]) = (packW nb l <<< nb) ||| BitVec.ofNat 64 x := by
  simp [packW]

theorem packW_bit (nb : Nat) (l : List Nat) (hl : ∀ x ∈ l, x < 2 ^ nb) (hlen : l.length * nb ≤ 64)
    (p : Nat) (hp : p < l.length) (t : Nat) (ht : t < nb) :
    (packW nb l).getLsbD ((l.length - 1 - p) * nb + t) = l[p].testBit t := by
  induction l using List.reverseRecOn generalizing p with
  | nil => simp at hp
  | append_singleton l x ih =>
    have hx : x < 2 ^ nb := hl x (by simp)
    simp only [List.length_append, List.length_cons, List.length_nil, zero_add] at hlen hp ⊢
    rw [packW_snoc, BitVec.getLsbD_or, BitVec.getLsbD_shiftLeft, BitVec.getLsbD_ofNat]
    have hidx : (l.length + 1 - 1 - p) * nb + t < 64 := by
      have : (l.length + 1 - 1 - p + 1) * nb ≤ (l.length + 1) * nb :=
        Nat.mul_le_mul_right _ (by omega)
      rw [Nat.add_mul] at this
      omega
    by_cases hpl : p < l.length
    · have e1 : l.length + 1 - 1 - p = (l.length - 1 - p) + 1 := by omega
      rw [e1, Nat.add_mul, one_mul] at hidx ⊢
      have := ih (fun y hy => hl y (by simp [hy])) (by rw [Nat.add_mul] at hlen; omega) p hpl
      rw [List.getElem_append_left hpl, ← this]
      have h2 : x.testBit ((l.length - 1 - p) * nb + nb + t) = false := by
        apply Nat.testBit_lt_two_pow
        exact lt_of_lt_of_le hx (Nat.pow_le_pow_right (by norm_num) (by omega))
      rw [h2]
      have h3 : (l.length - 1 - p) * nb + nb + t - nb = (l.length - 1 - p) * nb + t := by omega
      rw [h3]
      have h4 : ¬ ((l.length - 1 - p) * nb + nb + t < nb) := by omega
      simp [hidx, h4]
    · have e1 : p = l.length := by omega
      subst e1
      simp at hidx ⊢
      simp [hidx, ht]

/-- Reading position `p` in a left-aligned word. -/
theorem read_word (nb nv : Nat) (mask : Word) (l : List Nat) (hl : ∀ x ∈ l, x < 2 ^ nb)
    (hnv : nv * nb ≤ 64) (hlen : l.length ≤ nv)
    (hmask : ∀ t, mask.getLsbD t = decide (t < nb)) (p : Nat) (hp : p < l.length) :
    (((packW nb l <<< ((nv - l.length) * nb)) &&& (mask <<< ((nv - p - 1) * nb))) >>>
      ((nv - p - 1) * nb)).toNat = l[p] := by
  apply Nat.eq_of_testBit_eq
  intro t
  rw [BitVec.testBit_toNat, BitVec.getLsbD_ushiftRight, BitVec.getLsbD_and, BitVec.getLsbD_shiftLeft,
    BitVec.getLsbD_shiftLeft, hmask]
  have hsum : (nv - p - 1) * nb = (l.length - 1 - p) * nb + (nv - l.length) * nb := by
    rw [← Nat.add_mul]; congr 1; omega
  by_cases ht : t < nb
  · have hidx : (nv - p - 1) * nb + t < 64 := by
      have : (nv - p - 1 + 1) * nb ≤ nv * nb := Nat.mul_le_mul_right _ (by omega)
      rw [Nat.add_mul] at this
      omega
    have := packW_bit nb l hl (le_trans (Nat.mul_le_mul_right _ hlen) hnv) p hp t ht
    rw [← this]
    have e : (nv - p - 1) * nb + t - (nv - l.length) * nb = (l.length - 1 - p) * nb + t := by omega
    have e2 : ¬ ((nv - p - 1) * nb + t < (nv - l.length) * nb) := by omega
    simp [hidx, e, ht, e2]
  · have : l[p].testBit t = false := by
      apply Nat.testBit_lt_two_pow
      exact lt_of_lt_of_le (hl _ (List.getElem_mem _)) (Nat.pow_le_pow_right (by norm_num) (by omega))
    rw [this]
    simp [ht]

/-! ## One column -/

theorem slice_snoc_lt {α : Type _} (l : List α) (x : α) (s e : Nat) (h : e ≤ l.length) :
    slice (l ++ [x]) s e = slice l s e := by
  apply List.ext_getElem?
  intro i
  rw [slice_getElem?, slice_getElem?]
  split
  · rw [List.getElem?_append_left (by omega)]
  · rfl

theorem slice_snoc_last {α : Type _} (l : List α) (x : α) (s e : Nat) (h1 : s ≤ l.length)
    (h2 : l.length < e) : slice (l ++ [x]) s e = slice l s e ++ [x] := by
  simp only [slice]
  rw [List.drop_append_of_le_length h1, List.take_of_length_le (by simp; omega),
    List.take_of_length_le (by simp; omega)]

/-- State of the fill loop after the values `pre`: every started word holds its values so far. -/
def FillInv (nb nv n : Nat) (pre : List Nat) (st : List Word × Option (Nat × Nat)) : Prop :=
  st.1.length = n ∧
  (∀ q, q * nv < pre.length → st.1[q]? = some (packW nb (slice pre (q * nv) ((q + 1) * nv)))) ∧
  st.2 = if pre = [] then none else some ((pre.length - 1) / nv, (pre.length - 1) % nv)

theorem ceilDiv_spec {n nv : Nat} (hnv : 0 < nv) (q : Nat) : q < ceilDiv n nv ↔ q * nv < n := by
  unfold ceilDiv
  rw [Nat.lt_iff_add_one_le, Nat.le_div_iff_mul_le hnv, Nat.add_mul]
  omega

theorem range_zip_split (col : List Nat) (pre post : List (Nat × Nat)) (ix : Nat × Nat)
    (h : (List.range col.length).zip col = pre ++ ix :: post) :
    ix.1 = pre.length ∧ (pre.map Prod.snd) ++ ix.2 :: post.map Prod.snd = col := by
  have h1 : ((List.range col.length).zip col).map Prod.snd = col := by
    rw [List.map_snd_zip]; simp
  have h2 : ((List.range col.length).zip col).map Prod.fst = List.range col.length := by
    rw [List.map_fst_zip]; simp
  rw [h] at h1 h2
  constructor
  · have := congrArg (fun l => l[pre.length]?) h2
    simp at this
    have hlen : pre.length < col.length := by
      rw [← h1]; simp
    simp [hlen] at this
    exact this
  · simpa using h1

theorem fillStep_inv (nb nv n : Nat) (hnv : 0 < nv) (pre : List Nat)
    (st : List Word × Option (Nat × Nat)) (x : Nat) (hroom : pre.length / nv < n)
    (hI : FillInv nb nv n pre st) :
    ∃ st', fillStep nb nv st (pre.length, x) = .ok st' ∧ FillInv nb nv n (pre ++ [x]) st' := by
  obtain ⟨hlen, hw, hlast⟩ := hI
  unfold fillStep
  have hdm := Nat.div_add_mod pre.length nv
  have hml := Nat.mod_lt pre.length hnv
  set q := pre.length / nv with hq
  have hqnv : q * nv + pre.length % nv = pre.length := by rw [mul_comm]; exact hdm
  -- words other than q are not affected
  have key : ∀ (a : List Word), a.length = n →
      a = st.1.set q (packW nb (slice (pre ++ [x]) (q * nv) ((q + 1) * nv))) →
      FillInv nb nv n (pre ++ [x]) (a, some (q, pre.length % nv)) := by
    intro a ha hset
    refine ⟨ha, ?_, by simp [hq]⟩
    intro q' hq'
    simp only [List.length_append, List.length_cons, List.length_nil, zero_add] at hq'
    have hq'le : q' ≤ q := by
      rw [hq, Nat.le_div_iff_mul_le hnv]; omega
    rw [hset, List.getElem?_set]
    by_cases hqq : q = q'
    · subst hqq; simp [hlen, hroom]
    · rw [if_neg hqq]
      have hlt : q' < q := by omega
      have hle : (q' + 1) * nv ≤ q * nv := Nat.mul_le_mul_right _ hlt
      rw [slice_snoc_lt _ _ _ _ (by omega)]
      apply hw
      rw [Nat.add_mul] at hle
      omega
  have hslice : slice (pre ++ [x]) (q * nv) ((q + 1) * nv) =
      slice pre (q * nv) ((q + 1) * nv) ++ [x] := by
    apply slice_snoc_last
    · omega
    · rw [Nat.add_mul]; omega
  by_cases hpos : pre.length % nv = 0
  · simp only [hpos, if_true]
    rw [wr_of_lt _ (by rw [hlen]; exact hroom)]
    refine ⟨_, rfl, ?_⟩
    rw [← hpos]
    apply key
    · simp [hlen]
    · rw [hslice]
      have : slice pre (q * nv) ((q + 1) * nv) = [] := by
        simp only [slice]
        rw [List.drop_eq_nil_of_le (by omega)]; simp
      rw [this]
      simp [packW]
  · simp only [hpos, if_false]
    have hqlt : q * nv < pre.length := by omega
    rw [rd_ok.2 (hw q hqlt)]
    simp only [bind_ok]
    rw [wr_of_lt _ (by rw [hlen]; exact hroom)]
    refine ⟨_, rfl, ?_⟩
    apply key
    · simp [hlen]
    · rw [hslice, packW_snoc]

/-- What the words of a column are after `fillColumnWords`. -/
theorem fillColumnWords_spec (nb nv : Nat) (hnv : 0 < nv) (col : List Nat) (hcol : col ≠ [])
    (words : List Word) (hlen : words.length = ceilDiv col.length nv) :
    ∃ words', fillColumnWords words nb nv col = .ok words' ∧ words'.length = words.length ∧
      ∀ q, q * nv < col.length → words'[q]? = some (
        let l := slice col (q * nv) ((q + 1) * nv)
        packW nb l <<< ((nv - l.length) * nb)) := by
  unfold fillColumnWords
  have hpos : 0 < col.length := List.length_pos_iff.2 hcol
  obtain ⟨st, hst, hI⟩ := foldlM_inv (f := fillStep nb nv)
    (l := (List.range col.length).zip col) (s := (words, none))
    (fun pre st => FillInv nb nv words.length (pre.map Prod.snd) st)
    (by refine ⟨rfl, ?_, by simp⟩; intro q hq; simp at hq)
    (by
      intro pre ix post st hsplit hI
      obtain ⟨h1, h2⟩ := range_zip_split col pre post ix hsplit
      have h3 : pre.length < col.length := by rw [← h2]; simp
      have := fillStep_inv nb nv words.length hnv (pre.map Prod.snd) st ix.2
        (by
          rw [hlen, ceilDiv_spec hnv, List.length_map]
          exact lt_of_le_of_lt (Nat.div_mul_le_self _ _) h3) hI
      simpa [← h1] using this)
  rw [List.map_snd_zip (by simp)] at hI
  rw [hst]
  obtain ⟨hl, hw, hlast⟩ := hI
  simp only [hcol, if_false] at hlast
  simp only [bind_ok, hlast]
  set q0 := (col.length - 1) / nv with hq0
  have hdm := Nat.div_add_mod (col.length - 1) nv
  have hml := Nat.mod_lt (col.length - 1) hnv
  rw [← hq0, mul_comm] at hdm
  have hq0lt : q0 * nv < col.length := by omega
  rw [rd_ok.2 (hw q0 hq0lt)]
  simp only [bind_ok]
  have hq0n : q0 < st.1.length := by rw [hl, hlen, ceilDiv_spec hnv]; exact hq0lt
  rw [wr_of_lt _ hq0n]
  refine ⟨_, rfl, by simp [hl], ?_⟩
  intro q hq
  rw [List.getElem?_set]
  have hlen1 : ∀ q, (slice col (q * nv) ((q + 1) * nv)).length = min nv (col.length - q * nv) := by
    intro q
    simp only [slice, List.length_take, List.length_drop, Nat.add_mul, one_mul]
    omega
  by_cases hqq : q0 = q
  · subst hqq
    simp only [if_true, hq0n]
    congr 3
    rw [hlen1]
    omega
  · rw [if_neg hqq, hw q hq]
    have hqle : q ≤ q0 := by rw [hq0, Nat.le_div_iff_mul_le hnv]; omega
    have hle : (q + 1) * nv ≤ q0 * nv := Nat.mul_le_mul_right _ (by omega)
    rw [Nat.add_mul] at hle
    have : nv - (slice col (q * nv) ((q + 1) * nv)).length = 0 := by
      rw [hlen1]; omega
    simp [this]

/-- Reading back a filled column. -/
theorem getValueFromColumn_of_filled (nb nv : Nat) (hnv : 0 < nv) (h64 : nv * nb ≤ 64) (mask : Word)
    (hmask : ∀ t, mask.getLsbD t = decide (t < nb)) (col : List Nat) (hval : ∀ x ∈ col, x < 2 ^ nb)
    (words : List Word)
    (hw : ∀ q, q * nv < col.length → words[q]? = some (
        let l := slice col (q * nv) ((q + 1) * nv)
        packW nb l <<< ((nv - l.length) * nb)))
    (i : Nat) (hi : i < col.length) :
    getValueFromColumn i words mask nv nb = .ok col[i] := by
  unfold getValueFromColumn
  dsimp only
  have hdm := Nat.div_add_mod i nv
  have hml := Nat.mod_lt i hnv
  rw [mul_comm] at hdm
  set q := i / nv with hq
  set p := i % nv with hp
  rw [rd_ok.2 (hw q (by omega))]
  simp only [bind_ok, pure_eq_ok]
  set l := slice col (q * nv) ((q + 1) * nv) with hl
  have hlen : l.length = min nv (col.length - q * nv) := by
    simp only [hl, slice, List.length_take, List.length_drop, Nat.add_mul, one_mul]
    omega
  have hpl : p < l.length := by rw [hlen]; omega
  have hget : l[p] = col[i] := by
    have h1 : l[p]? = col[i]? := by
      rw [hl, slice_getElem?, if_pos (by rw [Nat.add_mul]; omega), hdm]
    rw [List.getElem?_eq_getElem hpl, List.getElem?_eq_getElem hi] at h1
    exact Option.some.inj h1
  rw [read_word nb nv mask l ?_ h64 (by rw [hlen]; omega) hmask p hpl, hget]
  intro x hx
  apply hval
  exact List.mem_of_mem_drop (List.mem_of_mem_take hx)

/-! ## Whole buffer -/

/-- Number of words of a column with maximum `m`. -/
def nWords (n m : Nat) : Nat := ceilDiv n (colLayout m).2.1

/-- First word of column `j`. -/
def off (n : Nat) (ms : List Nat) (j : Nat) : Nat := ((ms.take j).map (nWords n)).sum

theorem mkOffsets_get (n : Nat) (ms : List Nat) (o j : Nat) (hj : j ≤ ms.length) :
    (mkOffsets n o ms)[j]? = some (o + off n ms j) := by
  induction ms generalizing o j with
  | nil => simp at hj; subst hj; simp [mkOffsets, off]
  | cons m ms ih =>
    cases j with
    | zero => simp [mkOffsets, off]
    | succ j =>
      simp only [mkOffsets, List.getElem?_cons_succ]
      rw [ih _ _ (by simpa using hj)]
      simp [off, nWords]; omega

theorem mkOffsets_getLastD (n : Nat) (ms : List Nat) (o : Nat) :
    (mkOffsets n o ms).getLastD 0 = o + off n ms ms.length := by
  have hne : mkOffsets n o ms ≠ [] := by cases ms <;> simp [mkOffsets]
  have hlen : ∀ o, (mkOffsets n o ms).length = ms.length + 1 := by
    induction ms with
    | nil => simp [mkOffsets]
    | cons m ms ih => intro o; simp [mkOffsets, ih (by cases ms <;> simp [mkOffsets])]
  have h := mkOffsets_get n ms o ms.length le_rfl
  rw [List.getLastD_eq_getLast?, List.getLast?_eq_getElem?, hlen, Nat.add_sub_cancel, h]
  rfl

theorem off_succ (n : Nat) (ms : List Nat) (j : Nat) (hj : j < ms.length) :
    off n ms (j + 1) = off n ms j + nWords n ms[j] := by
  unfold off
  rw [List.take_add_one, List.getElem?_eq_getElem hj]
  simp only [Option.toList_some, List.map_append, List.sum_append, List.map_cons, List.map_nil,
    List.sum_cons, List.sum_nil, Nat.add_zero]

theorem off_mono (n : Nat) (ms : List Nat) {j k : Nat} (h : j ≤ k) : off n ms j ≤ off n ms k := by
  obtain ⟨d, rfl⟩ := Nat.exists_eq_add_of_le h
  simp only [off, List.take_add, List.map_append, List.sum_append]
  omega

/-- The buffer `b` has the layout computed by the constructor for `n` rows and maxima `ms`. -/
structure Layout (n : Nat) (ms : List Nat) (b : FBA) : Prop where
  samples : b.nSamples = n
  maxv : b.maxValues = ms
  bits : b.nBits = ms.map fun m => (colLayout m).1
  offs : b.offsets = mkOffsets n 0 ms
  nvals : b.nValuesInWords = ms.map fun m => (colLayout m).2.1
  masks : b.bitmasks = ms.map fun m => (colLayout m).2.2
  size : b.bitarray.length = off n ms ms.length

theorem init_layout (g : Nat → Word) (n : Nat) (ms : List Nat) : Layout n ms (FBA.init g n ms) := by
  constructor <;> try rfl
  have h := mkOffsets_getLastD n ms 0
  simp only [Nat.zero_add] at h
  simp only [FBA.init, List.length_map, List.length_range, h]

theorem slice_splice_same {α : Type _} (a v : List α) (s e : Nat) (h1 : s ≤ e) (h2 : e ≤ a.length)
    (h3 : v.length = e - s) : slice (a.take s ++ v ++ a.drop e) s e = v := by
  have hs : (a.take s).length = s := by simp; omega
  unfold slice
  rw [List.append_assoc, List.drop_append_of_le_length (by omega), List.drop_eq_nil_of_le (by omega),
    List.nil_append, ← h3, List.take_left']
  rfl

theorem getElem?_splice {α : Type _} (a v : List α) (s e k : Nat) (h1 : s ≤ e) (h2 : e ≤ a.length)
    (h3 : v.length = e - s) :
    (a.take s ++ v ++ a.drop e)[k]? = if s ≤ k ∧ k < e then v[k - s]? else a[k]? := by
  have hs : (a.take s).length = s := by simp; omega
  by_cases hk : k < s
  · rw [List.append_assoc, List.getElem?_append_left (by omega), if_neg (by omega)]
    simp [hk]
  · by_cases hk2 : k < e
    · rw [List.append_assoc, List.getElem?_append_right (by omega), hs,
        List.getElem?_append_left (by omega), if_pos (by omega)]
    · rw [List.getElem?_append_right (by simp; omega), if_neg (by omega)]
      simp only [List.length_append, hs, h3, List.getElem?_drop]
      congr 1; omega

theorem slice_splice_other {α : Type _} (a v : List α) (s e s' e' : Nat) (h1 : s ≤ e)
    (h2 : e ≤ a.length) (h3 : v.length = e - s) (hd : e' ≤ s ∨ e ≤ s') :
    slice (a.take s ++ v ++ a.drop e) s' e' = slice a s' e' := by
  apply List.ext_getElem?
  intro k
  rw [slice_getElem?, slice_getElem?]
  split
  · rw [getElem?_splice a v s e _ h1 h2 h3, if_neg (by omega)]
  · rfl

theorem splice_length {α : Type _} (a v : List α) (s e : Nat) (h1 : s ≤ e) (h2 : e ≤ a.length)
    (h3 : v.length = e - s) : (a.take s ++ v ++ a.drop e).length = a.length := by
  simp; omega

theorem off_le_total {n : Nat} {ms : List Nat} {b : FBA} (hb : Layout n ms b) {j : Nat}
    (hj : j ≤ ms.length) : off n ms j ≤ b.bitarray.length := by
  rw [hb.size]; exact off_mono n ms hj

theorem getValue_eq {n : Nat} {ms : List Nat} {b : FBA} (hb : Layout n ms b) (i j : Nat)
    (hj : j < ms.length) :
    b.getValue i j = getValueFromColumn i (slice b.bitarray (off n ms j) (off n ms (j + 1)))
      (colLayout ms[j]).2.2 (colLayout ms[j]).2.1 (colLayout ms[j]).1 := by
  unfold FBA.getValue
  rw [hb.nvals, hb.offs, hb.bits, hb.masks, rd_ok.2 (mkOffsets_get n ms 0 j (by omega)),
    rd_ok.2 (mkOffsets_get n ms 0 (j + 1) (by omega))]
  have h1 : ∀ {β : Type} (f : Nat → β), rd (ms.map f) j = .ok (f ms[j]) := by
    intro β f; rw [rd_ok]; simp [hj]
  simp [h1]

theorem getValue_oob {n : Nat} {ms : List Nat} {b : FBA} (hb : Layout n ms b) (i j : Nat)
    (hj : ¬ j < ms.length) : b.getValue i j = .error .oob := by
  unfold FBA.getValue
  have : rd b.nValuesInWords j = .error .oob := by
    rw [hb.nvals]; unfold rd
    rw [List.getElem?_eq_none (by simp; omega)]
  rw [this]; rfl

/-- `fillColumn` in terms of the words of the column. -/
theorem fillColumn_eq {n : Nat} {ms : List Nat} {b : FBA} (hb : Layout n ms b) (j : Nat)
    (hj : j < ms.length) (col : List Nat) :
    b.fillColumn j col = (do
      let words ← fillColumnWords (slice b.bitarray (off n ms j) (off n ms (j + 1)))
        (colLayout ms[j]).1 (colLayout ms[j]).2.1 col
      let a ← wrSlice b.bitarray (off n ms j) (off n ms (j + 1)) words
      return { b with bitarray := a }) := by
  unfold FBA.fillColumn
  rw [hb.nvals, hb.offs, hb.bits, rd_ok.2 (mkOffsets_get n ms 0 j (by omega)),
    rd_ok.2 (mkOffsets_get n ms 0 (j + 1) (by omega))]
  have h1 : ∀ {β : Type} (f : Nat → β), rd (ms.map f) j = .ok (f ms[j]) := by
    intro β f; rw [rd_ok]; simp [hj]
  simp [h1]

/-- The words written for a column do not depend on what was there. -/
theorem fillColumnWords_indep (nb nv : Nat) (hnv : 0 < nv) (col : List Nat) (hcol : col ≠ [])
    (w1 w2 : List Word) (h1 : w1.length = ceilDiv col.length nv)
    (h2 : w2.length = ceilDiv col.length nv) :
    fillColumnWords w1 nb nv col = fillColumnWords w2 nb nv col := by
  obtain ⟨a, ha, hla, hwa⟩ := fillColumnWords_spec nb nv hnv col hcol w1 h1
  obtain ⟨b, hb, hlb, hwb⟩ := fillColumnWords_spec nb nv hnv col hcol w2 h2
  rw [ha, hb]
  congr 1
  apply List.ext_getElem?
  intro q
  by_cases hq : q * nv < col.length
  · rw [hwa q hq, hwb q hq]
  · have : ¬ q < ceilDiv col.length nv := by rw [ceilDiv_spec hnv]; exact hq
    rw [List.getElem?_eq_none (by omega), List.getElem?_eq_none (by omega)]

/-- The main lemma about writing a column. -/
theorem fillColumn_spec {n : Nat} {ms : List Nat} {b : FBA} (hb : Layout n ms b) (hn : 0 < n)
    (j : Nat) (hj : j < ms.length) (hm : ms[j] < 2 ^ 63) (col : List Nat) (hlen : col.length = n)
    (hval : ∀ x ∈ col, x ≤ ms[j]) :
    ∃ b', b.fillColumn j col = .ok b' ∧ Layout n ms b' ∧
      (∀ i (hi : i < n), b'.getValue i j = .ok (col[i]'(hlen ▸ hi))) ∧
      (∀ i j', j' ≠ j → b'.getValue i j' = b.getValue i j') ∧
      (∀ k, ¬ (off n ms j ≤ k ∧ k < off n ms (j + 1)) → b'.bitarray[k]? = b.bitarray[k]?) := by
  obtain ⟨hb0, hb63, hnv, h64, hmlt, hmask⟩ := colLayout_spec hm
  have hne : col ≠ [] := by intro h; subst h; simp at hlen; omega
  have hoff := off_succ n ms j hj
  have htot := off_le_total hb (j := j + 1) (by omega)
  have hsl : (slice b.bitarray (off n ms j) (off n ms (j + 1))).length =
      ceilDiv col.length (colLayout ms[j]).2.1 := by
    rw [slice_length htot, hoff, hlen]; simp [nWords]
  obtain ⟨words, hw, hwl, hwspec⟩ := fillColumnWords_spec (colLayout ms[j]).1 _ hnv col hne _ hsl
  have hle : off n ms j ≤ off n ms (j + 1) := off_mono n ms (by omega)
  have hwl' : words.length = off n ms (j + 1) - off n ms j := by
    rw [hwl, slice_length htot]
  rw [fillColumn_eq hb j hj, hw]
  simp only [bind_ok]
  rw [wrSlice_of hle htot hwl']
  have hlay : Layout n ms { b with
      bitarray := (b.bitarray.take (off n ms j) ++ words ++ b.bitarray.drop (off n ms (j + 1))) } := by
    constructor
    · exact hb.samples
    · exact hb.maxv
    · exact hb.bits
    · exact hb.offs
    · exact hb.nvals
    · exact hb.masks
    · rw [splice_length _ _ _ _ hle htot hwl']; exact hb.size
  refine ⟨_, rfl, hlay, ?_, ?_, ?_⟩
  · intro i hi
    rw [getValue_eq hlay i j hj]
    simp only
    rw [slice_splice_same _ _ _ _ hle htot hwl']
    exact getValueFromColumn_of_filled _ _ hnv h64 _ hmask col
      (fun x hx => lt_of_le_of_lt (hval x hx) hmlt) words hwspec i _
  · intro i j' hjj'
    by_cases hj' : j' < ms.length
    · rw [getValue_eq hlay i j' hj', getValue_eq hb i j' hj']
      simp only
      rw [slice_splice_other _ _ _ _ _ _ hle htot hwl']
      rcases Nat.lt_or_gt_of_ne hjj' with h | h
      · left; exact off_mono n ms (by omega)
      · right; exact off_mono n ms (by omega)
    · rw [getValue_oob hlay i j' hj', getValue_oob hb i j' hj']
  · intro k hk
    simp only
    rw [getElem?_splice _ _ _ _ _ hle htot hwl', if_neg hk]

theorem layout_ext {n : Nat} {ms : List Nat} {b c : FBA} (hb : Layout n ms b) (hc : Layout n ms c)
    (h : b.bitarray = c.bitarray) : b = c := by
  obtain ⟨b1, b2, b3, b4, b5, b6, b7⟩ := b
  obtain ⟨c1, c2, c3, c4, c5, c6, c7⟩ := c
  obtain ⟨h1, h2, h3, h4, h5, h6, _⟩ := hb
  obtain ⟨k1, k2, k3, k4, k5, k6, _⟩ := hc
  simp only at *
  subst_vars
  rfl

/-- The words of a packed column (a function of the column content only). -/
def packedWord (m : Nat) (col : List Nat) (q : Nat) : Option Word :=
  if q * (colLayout m).2.1 < col.length then
    let l := slice col (q * (colLayout m).2.1) ((q + 1) * (colLayout m).2.1)
    some (packW (colLayout m).1 l <<< (((colLayout m).2.1 - l.length) * (colLayout m).1))
  else none

/-- The words of the buffer after writing a column. -/
theorem fillColumn_bitarray {n : Nat} {ms : List Nat} {b : FBA} (hb : Layout n ms b) (hn : 0 < n)
    (j : Nat) (hj : j < ms.length) (hm : ms[j] < 2 ^ 63) (col : List Nat) (hlen : col.length = n) :
    ∃ b', b.fillColumn j col = .ok b' ∧ Layout n ms b' ∧ ∀ k, b'.bitarray[k]? =
      if off n ms j ≤ k ∧ k < off n ms (j + 1) then packedWord ms[j] col (k - off n ms j)
      else b.bitarray[k]? := by
  obtain ⟨_, _, hnv, h64, hmlt, hmask⟩ := colLayout_spec hm
  have hne : col ≠ [] := by intro h; subst h; simp at hlen; omega
  have hoff := off_succ n ms j hj
  have htot := off_le_total hb (j := j + 1) (by omega)
  have hsl : (slice b.bitarray (off n ms j) (off n ms (j + 1))).length =
      ceilDiv col.length (colLayout ms[j]).2.1 := by
    rw [slice_length htot, hoff, hlen]; simp [nWords]
  obtain ⟨words, hw, hwl, hwspec⟩ := fillColumnWords_spec (colLayout ms[j]).1 _ hnv col hne _ hsl
  have hle : off n ms j ≤ off n ms (j + 1) := off_mono n ms (by omega)
  have hwl' : words.length = off n ms (j + 1) - off n ms j := by
    rw [hwl, slice_length htot]
  rw [fillColumn_eq hb j hj, hw]
  simp only [bind_ok]
  rw [wrSlice_of hle htot hwl']
  refine ⟨_, rfl, ⟨hb.samples, hb.maxv, hb.bits, hb.offs, hb.nvals, hb.masks, ?_⟩, ?_⟩
  · rw [splice_length _ _ _ _ hle htot hwl']; exact hb.size
  · intro k
    simp only
    rw [getElem?_splice _ _ _ _ _ hle htot hwl']
    split
    · rename_i hk
      have hq : (k - off n ms j) * (colLayout ms[j]).2.1 < col.length := by
        rw [← ceilDiv_spec hnv, hlen]
        have : k - off n ms j < nWords n ms[j] := by omega
        exact this
      rw [hwspec _ hq, packedWord, if_pos hq]
    · rfl

theorem le_colMax (col : List Nat) (x : Nat) (hx : x ∈ col) : x ≤ colMax col := by
  unfold colMax
  have : ∀ (l : List Nat) (a : Nat), a ≤ l.foldl max a ∧ ∀ x ∈ l, x ≤ l.foldl max a := by
    intro l
    induction l with
    | nil => simp
    | cons y l ih =>
      intro a
      simp only [List.foldl_cons]
      obtain ⟨h1, h2⟩ := ih (max a y)
      refine ⟨by omega, ?_⟩
      intro x hx
      rcases List.mem_cons.1 hx with h | h
      · subst h; omega
      · exact h2 x h
  exact (this col 0).2 x hx

theorem colMax_lt {col : List Nat} {B : Nat} (hB : 0 < B) (h : ∀ x ∈ col, x < B) : colMax col < B := by
  unfold colMax
  have : ∀ (l : List Nat) (a : Nat), a < B → (∀ x ∈ l, x < B) → l.foldl max a < B := by
    intro l
    induction l with
    | nil => simp
    | cons y l ih =>
      intro a ha hl
      exact ih _ (by have := hl y (by simp); omega) (fun x hx => hl x (by simp [hx]))
  exact this col 0 hB h

theorem fillValues_spec {n : Nat} {ms : List Nat} {b : FBA} (hb : Layout n ms b) (hn : 0 < n)
    (cols : List (List Nat)) (hcl : cols.length = ms.length) (hm : ∀ m ∈ ms, m < 2 ^ 63)
    (hlen : ∀ c ∈ cols, c.length = n)
    (hval : ∀ j (hj : j < ms.length), ∀ x ∈ cols[j]'(hcl ▸ hj), x ≤ ms[j]) :
    ∃ b', b.fillValues cols = .ok b' ∧ Layout n ms b' ∧
      ∀ j (hj : j < cols.length) i (hi : i < (cols[j]).length),
        b'.getValue i j = .ok cols[j][i] := by
  unfold FBA.fillValues
  have hnf : b.nFeatures = ms.length := by unfold FBA.nFeatures; rw [hb.maxv]
  rw [hnf]
  obtain ⟨b', hb', hlay, hv⟩ := foldlM_inv
    (f := fun b j => do
      let col ← rd cols j
      FBA.fillColumn b j col)
    (l := List.range ms.length) (s := b)
    (fun pre b' => Layout n ms b' ∧ ∀ j ∈ pre, ∀ (hj : j < cols.length) i (hi : i < (cols[j]).length),
        b'.getValue i j = .ok cols[j][i])
    ⟨hb, by simp⟩
    (by
      intro pre j post b1 hl hI
      obtain ⟨hlay, hv⟩ := hI
      have hjm : j < ms.length := by
        have : j ∈ List.range ms.length := by rw [hl]; simp
        simpa using this
      have hjc : j < cols.length := by omega
      obtain ⟨b2, h1, h2, h3, h4, _⟩ := fillColumn_spec hlay hn j hjm (hm _ (List.getElem_mem _))
        cols[j] (hlen _ (List.getElem_mem _)) (hval j hjm)
      refine ⟨b2, by rw [rd_of_lt hjc]; exact h1, h2, ?_⟩
      intro j' hj' hj'c i hi
      by_cases hjj : j' = j
      · subst hjj
        exact h3 i (by rw [← hlen _ (List.getElem_mem hjc)]; exact hi)
      · rw [h4 i j' hjj]
        apply hv
        rcases List.mem_append.1 hj' with h | h
        · exact h
        · simp at h; exact absurd h hjj)
  refine ⟨b', hb', hlay, ?_⟩
  intro j hj i hi
  exact hv j (by simp; omega) hj i hi

end Verif
