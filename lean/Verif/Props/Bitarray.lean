import Verif.Proofs.Bitarray
import Verif.Spec.Bitarray

/-! # C01, C02: the bit-packed dataset -/
namespace Verif

open Spec

/-- A packed dataset with `n` rows and column maxima `ms` that the API can produce: the constructor
followed by any history of column writes. -/
def Packed (n : Nat) (ms : List Nat) (b : FBA) : Prop :=
  ∃ g ops, ValidWrites n ms ops ∧
    ops.foldlM (fun b op => b.fillColumn op.1 op.2) (FBA.init g n ms) = .ok b

theorem Packed.layout {n : Nat} {ms : List Nat} {b : FBA} (hb : Packed n ms b) (hn : 0 < n)
    (hms : ∀ m ∈ ms, m < 2 ^ 63) : Layout n ms b := by
  obtain ⟨g, ops, hv, h⟩ := hb
  refine foldlM_inv_of_ok (fun _ b => Layout n ms b) (init_layout g n ms) h ?_
  intro pre op post b1 b2 hl hb1 h2
  obtain ⟨hlen, m, hm, hx⟩ := hv op (by rw [hl]; simp)
  obtain ⟨hj, rfl⟩ := List.getElem?_eq_some_iff.1 hm
  obtain ⟨b3, e3, l3, _⟩ := fillColumn_spec hb1 hn op.1 hj (hms _ (List.getElem_mem hj)) op.2 hlen hx
  rw [e3] at h2
  cases h2
  exact l3

/-- C01. For every matrix (at least one row) of values below `2^63` and every content `g` of the
uninitialised word buffer, packing succeeds, every cell reads back as packed, and unpacking the whole
matrix returns it, with the smallest dtype width among 8, 16, 32, 64 that holds every value. -/
theorem C01_bitarray_roundtrip (g : Nat → Word) (n : Nat) (cols : List (List Nat)) (hn : 0 < n)
    (hm : IsMatrix n cols) (hv : ∀ c ∈ cols, ∀ x ∈ c, x < 2 ^ 63) :
    ∃ b, arrayToBitarray g n cols = .ok b ∧ b.nSamples = n ∧ b.nFeatures = cols.length ∧
      (∀ j (hj : j < cols.length) i (hi : i < (cols[j]).length), b.getValue i j = .ok cols[j][i]) ∧
      (cols ≠ [] → ∃ w, b.toArray = .ok (w, cols) ∧ (w = 8 ∨ w = 16 ∨ w = 32 ∨ w = 64) ∧
        (∀ c ∈ cols, ∀ x ∈ c, x < 2 ^ w) ∧
        (8 < w → ∃ c ∈ cols, ∃ x ∈ c, 2 ^ (w / 2) ≤ x)) := by
  have hms : ∀ m ∈ cols.map colMax, m < 2 ^ 63 := by
    intro m hm'
    obtain ⟨c, hc, rfl⟩ := List.mem_map.1 hm'
    exact colMax_lt (by norm_num) (hv c hc)
  obtain ⟨b, hb, hlay, hget⟩ := fillValues_spec (init_layout g n (cols.map colMax)) hn cols (by simp)
    hms hm (by intro j hj x hx; simp only [List.getElem_map]; exact le_colMax _ x hx)
  have hnf : b.nFeatures = cols.length := by unfold FBA.nFeatures; rw [hlay.maxv]; simp
  refine ⟨b, hb, hlay.samples, hnf, hget, ?_⟩
  intro hne
  have hmax := colMax_lt (col := cols.map colMax) (by norm_num) hms
  have hle : ∀ c ∈ cols, ∀ x ∈ c, x ≤ colMax (cols.map colMax) := by
    intro c hc x hx
    exact (le_colMax c x hx).trans (le_colMax _ _ (List.mem_map_of_mem hc))
  have hattain : ∀ B, 0 < B → B ≤ colMax (cols.map colMax) → ∃ c ∈ cols, ∃ x ∈ c, B ≤ x := by
    intro B hB h
    by_contra hcon
    push Not at hcon
    have : colMax (cols.map colMax) < B := by
      apply colMax_lt hB
      intro m hm'
      obtain ⟨c, hc, rfl⟩ := List.mem_map.1 hm'
      exact colMax_lt hB (hcon c hc)
    omega
  obtain ⟨w, hw, hw4, hwle, hwmin⟩ : ∃ w, emptyMatrixWidth (colMax (cols.map colMax)) = .ok w ∧
      (w = 8 ∨ w = 16 ∨ w = 32 ∨ w = 64) ∧ colMax (cols.map colMax) < 2 ^ w ∧
      (8 < w → 2 ^ (w / 2) ≤ colMax (cols.map colMax)) := by
    unfold emptyMatrixWidth
    split_ifs
    · exact ⟨8, rfl, by omega, by omega, by omega⟩
    · exact ⟨16, rfl, by omega, by omega, by norm_num; omega⟩
    · exact ⟨32, rfl, by omega, by omega, by norm_num; omega⟩
    · exact ⟨64, rfl, by omega, by omega, by norm_num; omega⟩
    · omega
  refine ⟨w, ?_, hw4, fun c hc x hx => lt_of_le_of_lt (hle c hc x hx) hwle,
    fun h => hattain _ (by positivity) (hwmin h)⟩
  unfold FBA.toArray
  rw [hlay.maxv, if_neg (by simpa using hne), hw, hnf, hlay.samples]
  simp only [bind_ok]
  have hcols : ((List.range cols.length).mapM fun j => (List.range n).mapM fun i => do
      let v ← b.getValue i j
      return v % 2 ^ w) = .ok ((List.range cols.length).map fun j => cols.getD j []) := by
    apply mapM_ok_of
    intro j hj
    have hj : j < cols.length := by simpa using hj
    have hlen := hm _ (List.getElem_mem hj)
    have e : cols.getD j [] = (List.range n).map fun i => (cols[j]).getD i 0 := by
      apply List.ext_getElem
      · simp [hj, hlen]
      · intro i h1 h2
        have : i < (cols[j]).length := by simpa [hlen] using h2
        simp [hj, this]
    rw [e]
    apply mapM_ok_of
    intro i hi
    have hi : i < (cols[j]).length := by rw [hlen]; simpa using hi
    rw [hget j hj i hi]
    have hlt : cols[j][i] < 2 ^ w :=
      lt_of_le_of_lt (hle _ (List.getElem_mem hj) _ (List.getElem_mem hi)) hwle
    simp [hi, Nat.mod_eq_of_lt hlt]
  rw [hcols]
  simp only [bind_ok, pure_eq_ok]
  congr 2
  apply List.ext_getElem
  · simp
  · intro j h1 h2
    simp [h2]

/-- A concrete case of C01: values that need 1, 9 and 3 bits. -/
example : (0 < 3) ∧ IsMatrix 3 [[0, 1, 0], [5, 300, 2], [7, 0, 3]] ∧
    ∀ c ∈ [[0, 1, 0], [5, 300, 2], [7, 0, 3]], ∀ x ∈ c, x < 2 ^ 63 := by
  simp [IsMatrix]

/-- C02, frame. Writing column `j` of any packed dataset changes no cell of any other column and no word
outside the word range of column `j`; the written column reads back. -/
theorem C02_column_write_frame {n : Nat} {ms : List Nat} {b : FBA} (hP : Packed n ms b) (hn : 0 < n)
    (hms : ∀ m ∈ ms, m < 2 ^ 63) (j : Nat) (hj : j < ms.length) (col : List Nat) (hlen : col.length = n)
    (hval : ∀ x ∈ col, x ≤ ms[j]) :
    ∃ b' s e, b.fillColumn j col = .ok b' ∧ b.offsets[j]? = some s ∧ b.offsets[j + 1]? = some e ∧
      b'.offsets = b.offsets ∧ b'.bitarray.length = b.bitarray.length ∧
      (∀ i (hi : i < col.length), b'.getValue i j = .ok col[i]) ∧
      (∀ i j', j' ≠ j → b'.getValue i j' = b.getValue i j') ∧
      (∀ k, ¬ (s ≤ k ∧ k < e) → b'.bitarray[k]? = b.bitarray[k]?) := by
  have hb := hP.layout hn hms
  obtain ⟨b', h1, h2, h3, h4, h5⟩ := fillColumn_spec hb hn j hj (hms _ (List.getElem_mem hj)) col hlen hval
  refine ⟨b', off n ms j, off n ms (j + 1), h1, ?_, ?_, ?_, ?_, ?_, h4, h5⟩
  · rw [hb.offs, mkOffsets_get n ms 0 j (by omega), Nat.zero_add]
  · rw [hb.offs, mkOffsets_get n ms 0 (j + 1) (by omega), Nat.zero_add]
  · rw [h2.offs, hb.offs]
  · rw [h2.size, hb.size]
  · intro i hi; exact h3 i (hlen ▸ hi)

/-- The hypotheses of C02 hold for the fresh dataset with two columns, writing column 1. -/
example : Packed 3 [5, 300] (FBA.init (fun _ => 0) 3 [5, 300]) ∧ (1 : Nat) < [5, 300].length ∧
    (∀ m ∈ [5, 300], m < 2 ^ 63) ∧ ∀ x ∈ [0, 300, 7], x ≤ [5, 300][1] :=
  ⟨⟨_, [], by simp [ValidWrites], rfl⟩, by decide, by simp, by decide⟩

/-- C02, histories. After any history of valid column writes on a fresh dataset, every cell of a column
that was written holds the value of the last write to that column. -/
theorem C02_write_history (g : Nat → Word) (n : Nat) (ms : List Nat) (hn : 0 < n)
    (hms : ∀ m ∈ ms, m < 2 ^ 63) (ops : List (Nat × List Nat)) (hops : ValidWrites n ms ops) :
    ∃ b, ops.foldlM (fun b op => b.fillColumn op.1 op.2) (FBA.init g n ms) = .ok b ∧
      ∀ j c, lastWrite ops j = some c → ∀ i (hi : i < c.length), b.getValue i j = .ok c[i] := by
  suffices H : ∀ (ops : List (Nat × List Nat)) (b : FBA), ValidWrites n ms ops → Layout n ms b →
      ∃ b', ops.foldlM (fun b op => b.fillColumn op.1 op.2) b = .ok b' ∧
        (∀ j, lastWrite ops j = none → ∀ i, b'.getValue i j = b.getValue i j) ∧
        ∀ j c, lastWrite ops j = some c → ∀ i (hi : i < c.length), b'.getValue i j = .ok c[i] by
    obtain ⟨b, h1, _, h2⟩ := H ops _ hops (init_layout g n ms)
    exact ⟨b, h1, h2⟩
  intro ops
  induction ops with
  | nil => intro b _ _; exact ⟨b, rfl, fun _ _ _ => rfl, by simp [lastWrite]⟩
  | cons op ops ih =>
    intro b hv hb
    obtain ⟨hl, m, hm, hx⟩ := hv op (by simp)
    obtain ⟨hj, rfl⟩ := List.getElem?_eq_some_iff.1 hm
    obtain ⟨b1, e1, l1, g1, o1, _⟩ := fillColumn_spec hb hn op.1 hj (hms _ (List.getElem_mem hj)) op.2 hl hx
    obtain ⟨b2, e2, n2, s2⟩ := ih b1 (fun o ho => hv o (by simp [ho])) l1
    refine ⟨b2, by rw [List.foldlM_cons, e1]; exact e2, ?_, ?_⟩
    · intro j hj i
      obtain ⟨k, c⟩ := op
      simp only [lastWrite, Option.or_eq_none_iff] at hj
      obtain ⟨h1, h2⟩ := hj
      have hk : j ≠ k := by rintro rfl; simp at h2
      rw [n2 j h1, o1 i j hk]
    · intro j c' hj i hi
      obtain ⟨k, c⟩ := op
      simp only [lastWrite] at hj
      cases hlw : lastWrite ops j with
      | some d =>
        rw [hlw] at hj; simp at hj; subst hj
        exact s2 j d hlw i hi
      | none =>
        rw [hlw] at hj
        simp at hj
        obtain ⟨rfl, rfl⟩ := hj
        rw [n2 k hlw i]
        exact g1 i (by simpa [hl] using hi)

/-- The hypotheses of `C02_write_history` for three writes, one column being overwritten. -/
example : ValidWrites 2 [5, 300] [(1, [300, 1]), (0, [4, 5]), (1, [2, 3])] := by
  intro op hop
  simp at hop
  rcases hop with rfl | rfl | rfl <;> simp

/-- C02, order. Two writes to different columns of any packed dataset give the same dataset (all words
included) in either order. -/
theorem C02_writes_commute {n : Nat} {ms : List Nat} {b : FBA} (hP : Packed n ms b) (hn : 0 < n)
    (hms : ∀ m ∈ ms, m < 2 ^ 63) (j k : Nat) (hjk : j ≠ k) (hj : j < ms.length) (hk : k < ms.length)
    (c d : List Nat) (hc : c.length = n) (hd : d.length = n) :
    ∃ b', (do let b1 ← b.fillColumn j c; b1.fillColumn k d) = .ok b' ∧
      (do let b1 ← b.fillColumn k d; b1.fillColumn j c) = .ok b' := by
  have hb := hP.layout hn hms
  obtain ⟨b1, e1, l1, f1⟩ := fillColumn_bitarray hb hn j hj (hms _ (List.getElem_mem hj)) c hc
  obtain ⟨b2, e2, l2, f2⟩ := fillColumn_bitarray l1 hn k hk (hms _ (List.getElem_mem hk)) d hd
  obtain ⟨b3, e3, l3, f3⟩ := fillColumn_bitarray hb hn k hk (hms _ (List.getElem_mem hk)) d hd
  obtain ⟨b4, e4, l4, f4⟩ := fillColumn_bitarray l3 hn j hj (hms _ (List.getElem_mem hj)) c hc
  have hdis : off n ms (j + 1) ≤ off n ms k ∨ off n ms (k + 1) ≤ off n ms j := by
    rcases Nat.lt_or_gt_of_ne hjk with h | h
    · left; exact off_mono n ms h
    · right; exact off_mono n ms h
  refine ⟨b2, by rw [e1]; exact e2, ?_⟩
  rw [e3]; simp only [bind_ok]; rw [e4]
  congr 1
  apply layout_ext l4 l2
  apply List.ext_getElem?
  intro q
  rw [f4, f3, f2, f1]
  by_cases hq1 : off n ms j ≤ q ∧ q < off n ms (j + 1)
  · rw [if_pos hq1, if_neg (by omega), if_pos hq1]
  · rw [if_neg hq1]
    split_ifs <;> rfl

/-- The hypotheses of `C02_writes_commute`, on a dataset in which column 1 was already written. -/
example : ∃ b, Packed 2 [5, 300] b ∧ (0 : Nat) ≠ 1 ∧ [0, 4].length = 2 ∧ [300, 7].length = 2 := by
  have hv : ValidWrites 2 [5, 300] [(1, [2, 3])] := by
    intro op hop
    simp at hop
    subst hop; simp
  obtain ⟨b, hb, _⟩ := C02_write_history (fun _ => 0) 2 [5, 300] (by norm_num) (by simp) _ hv
  exact ⟨b, ⟨_, _, hv, hb⟩, by decide, rfl, rfl⟩

end Verif
