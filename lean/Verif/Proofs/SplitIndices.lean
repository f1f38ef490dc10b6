import Verif.Proofs.Basic
import Verif.Spec.Split

/-! Proofs about `is_bin_in_partition` and `split_indices`. -/
namespace Verif

open Spec

theorem partSearch_spec (l : List Nat) (hs : l.Pairwise (· ≤ ·)) (bin : Nat) :
    ∀ (fuel : Nat) (left right : Int), 0 ≤ left → right < l.length → (right + 1 - left).toNat < fuel →
      (bin ∈ l → ∃ i : Nat, l[i]? = some bin ∧ left ≤ i ∧ i ≤ right) →
      partSearch l bin fuel left right = .ok (decide (bin ∈ l)) := by
  intro fuel
  induction fuel with
  | zero => intro left right _ _ h; omega
  | succ fuel ih =>
    intro left right h0 h1 hf hin
    simp only [partSearch]
    split
    · rename_i hle
      obtain ⟨m, hm⟩ : ∃ m : Nat, (left + right) / 2 = (m : Int) := ⟨((left + right) / 2).toNat, by omega⟩
      simp only [hm]
      have hml : m < l.length := by omega
      rw [if_neg (by omega)]
      simp only [Int.toNat_natCast, rd_of_lt hml, bind_ok]
      have hmono : ∀ i : Nat, ∀ v, l[i]? = some v → (i ≤ m → v ≤ l[m]) ∧ (m ≤ i → l[m] ≤ v) := by
        intro i v hv
        obtain ⟨hi, rfl⟩ := List.getElem?_eq_some_iff.1 hv
        rw [List.pairwise_iff_getElem] at hs
        constructor
        · intro h
          rcases Nat.lt_or_eq_of_le h with h | h
          · exact hs i m hi hml h
          · subst h; exact le_refl _
        · intro h
          rcases Nat.lt_or_eq_of_le h with h | h
          · exact hs m i hml hi h
          · subst h; exact le_refl _
      split
      · rename_i he
        have : bin ∈ l := he ▸ List.getElem_mem hml
        simp [this]
      · rename_i hne
        split
        · rename_i hlt
          apply ih
          · omega
          · omega
          · omega
          · intro hb
            obtain ⟨i, hi, hl, hr⟩ := hin hb
            refine ⟨i, hi, ?_, hr⟩
            have := (hmono i bin hi).1
            by_contra hcon
            have := this (by omega)
            omega
        · rename_i hlt
          apply ih
          · omega
          · omega
          · omega
          · intro hb
            obtain ⟨i, hi, hl, hr⟩ := hin hb
            refine ⟨i, hi, hl, ?_⟩
            have := (hmono i bin hi).2
            by_contra hcon
            have := this (by omega)
            omega
    · rename_i hle
      have : bin ∉ l := by
        intro hb
        obtain ⟨i, _, _, _⟩ := hin hb
        omega
      simp [this]

/-- `is_bin_in_partition` answers set membership on every sorted array. -/
theorem isBinInPartition_spec (l : List Nat) (hs : l.Pairwise (· ≤ ·)) (bin : Nat) :
    isBinInPartition bin l = .ok (decide (bin ∈ l)) := by
  unfold isBinInPartition
  split
  · rename_i h
    obtain ⟨a, rfl⟩ := List.length_eq_one_iff.1 h
    simp [rd, eq_comm]
  · apply partSearch_spec l hs bin
    · omega
    · omega
    · omega
    · intro hb
      obtain ⟨i, hi, rfl⟩ := List.getElem_of_mem hb
      exact ⟨i, by simp [hi], by omega, by omega⟩

theorem splitTest_spec {F : Type} (s : Split F) (hs : s.isCat = true → s.partition.Pairwise (· ≤ ·)) (bin : Nat) :
    splitTest s bin = .ok (goesLeft s bin) := by
  unfold splitTest goesLeft
  split
  · rename_i h
    rw [isBinInPartition_spec _ (hs h)]
  · rfl

theorem set_take_succ {α : Type _} (l : List α) (n : Nat) (x : α) (h : n < l.length) :
    (l.set n x).take (n + 1) = l.take n ++ [x] := by
  induction l generalizing n with
  | nil => simp at h
  | cons a l ih =>
    cases n with
    | zero => simp
    | succ n => simp at h; simp [ih n h]

/-- Result of one side of `split_indices`: the segment is stably partitioned. -/
theorem splitSide_spec {F : Type} (c : Ctx F) (s : Split F) (hs : s.isCat = true → s.partition.Pairwise (· ≤ ·))
    (x : Nat → Nat) (part lb rb : List Nat) (start stop : Nat) (h1 : start ≤ stop) (h2 : stop ≤ part.length)
    (hl : stop - start ≤ lb.length) (hr : stop - start ≤ rb.length)
    (hx : ∀ i ∈ slice part start stop, c.fba.getValue i s.feature = .ok (x i)) :
    ∃ lb' rb', lb'.length = lb.length ∧ rb'.length = rb.length ∧
      splitSide c s part lb rb start stop = .ok
        (part.take start ++ (slice part start stop).filter (fun i => goesLeft s (x i)) ++
          (slice part start stop).filter (fun i => !goesLeft s (x i)) ++ part.drop stop,
         lb', rb', start + ((slice part start stop).filter (fun i => goesLeft s (x i))).length) := by
  have hlen : (slice part start stop).length = stop - start := slice_length h2
  unfold splitSide
  generalize hseg : slice part start stop = seg at *
  obtain ⟨⟨lb', rb', nl, nr⟩, hf, h3, h4, h5, h6, h7, h8⟩ := foldlM_inv (l := seg)
    (f := fun (st : List Nat × List Nat × Nat × Nat) i => do
      let (lb, rb, nl, nr) := st
      let bin ← c.fba.getValue i s.feature
      let b ← splitTest s bin
      if b then
        let lb ← wr lb nl i
        return (lb, rb, nl + 1, nr)
      else
        let rb ← wr rb nr i
        return (lb, rb, nl, nr + 1))
    (s := (lb, rb, 0, 0))
    (fun pre st => st.1.length = lb.length ∧ st.2.1.length = rb.length ∧
      st.1.take st.2.2.1 = pre.filter (fun i => goesLeft s (x i)) ∧
      st.2.1.take st.2.2.2 = pre.filter (fun i => !goesLeft s (x i)) ∧
      st.2.2.1 = (pre.filter (fun i => goesLeft s (x i))).length ∧
      st.2.2.2 = (pre.filter (fun i => !goesLeft s (x i))).length)
    (by simp)
    (by
      rintro pre i post ⟨lb1, rb1, nl, nr⟩ hsplit ⟨g1, g2, g3, g4, g5, g6⟩
      simp only at g1 g2 g3 g4 g5 g6 ⊢
      have hi : i ∈ seg := by rw [hsplit]; simp
      have hpl : pre.length < stop - start := by
        rw [← hlen, hsplit]; simp
      have hnl : nl ≤ pre.length := by rw [g5]; exact List.length_filter_le _ _
      have hnr : nr ≤ pre.length := by rw [g6]; exact List.length_filter_le _ _
      simp only [hx i hi, bind_ok, splitTest_spec s hs]
      cases hb : goesLeft s (x i)
      · refine ⟨(lb1, rb1.set nr i, nl, nr + 1), ?_, ?_⟩
        · simp [wr_of_lt i (show nr < rb1.length by omega)]
        · refine ⟨g1, by simp [g2], ?_, ?_, ?_, ?_⟩
          · simpa [hb] using g3
          · simp [set_take_succ _ _ i (show nr < rb1.length by omega), g4, hb]
          · simpa [hb] using g5
          · simp [hb, g6]
      · refine ⟨(lb1.set nl i, rb1, nl + 1, nr), ?_, ?_⟩
        · simp [wr_of_lt i (show nl < lb1.length by omega)]
        · refine ⟨by simp [g1], g2, ?_, ?_, ?_, ?_⟩
          · simp [set_take_succ _ _ i (show nl < lb1.length by omega), g3, hb]
          · simpa [hb] using g4
          · simp [hb, g5]
          · simpa [hb] using g6)
  simp only at h3 h4 h5 h6 h7 h8
  rw [hf]
  simp only [bind_ok]
  have hsum : nl + nr = seg.length := by
    rw [h7, h8, List.length_eq_length_filter_add (l := seg) (fun i => goesLeft s (x i))]
  refine ⟨lb', rb', h3, h4, ?_⟩
  have hsl : slice lb' 0 nl = lb'.take nl := by simp [slice]
  have hsr : slice rb' 0 nr = rb'.take nr := by simp [slice]
  have hll : (seg.filter (fun i => goesLeft s (x i))).length = nl := h7.symm
  have hrl : (seg.filter (fun i => !goesLeft s (x i))).length = nr := h8.symm
  rw [hsl, hsr, h5, h6, wrSlice_of (by omega) (by omega) (by rw [hll]; omega)]
  simp only [bind_ok]
  rw [wrSlice_of (by omega) (by simp; omega) (by rw [hrl]; omega)]
  simp only [bind_ok, pure_eq_ok, hll]
  congr 2
  · have ht : (part.take start ++ seg.filter (fun i => goesLeft s (x i)) ++ part.drop (start + nl)).take (start + nl)
        = part.take start ++ seg.filter (fun i => goesLeft s (x i)) := by
      rw [List.take_left']
      simp [hll]; omega
    have hd : (part.take start ++ seg.filter (fun i => goesLeft s (x i)) ++ part.drop (start + nl)).drop stop
        = part.drop stop := by
      rw [List.drop_append]
      rw [List.drop_eq_nil_of_le (by simp [hll]; omega)]
      simp [hll]
      congr 1
      omega
    rw [ht, hd]

/-- `split_indices` on both kinds of samples. -/
theorem splitIndices_spec {F G : Type} (c : Ctx F) (s : Split F)
    (hs : s.isCat = true → s.partition.Pairwise (· ≤ ·)) (x : Nat → Nat) (k : Work G) (sT eT sV eV : Nat)
    (h1 : sT ≤ eT) (h2 : eT ≤ k.partTrain.length) (h3 : sV ≤ eV) (h4 : eV ≤ k.partValid.length)
    (h5 : eT - sT ≤ k.leftBuf.length) (h6 : eT - sT ≤ k.rightBuf.length)
    (h7 : eV - sV ≤ k.leftBuf.length) (h8 : eV - sV ≤ k.rightBuf.length)
    (hx : ∀ i ∈ slice k.partTrain sT eT ++ slice k.partValid sV eV, c.fba.getValue i s.feature = .ok (x i)) :
    ∃ k' : Work G,
      splitIndices c s k sT eT sV eV = .ok (k',
        sT + ((slice k.partTrain sT eT).filter (fun i => goesLeft s (x i))).length,
        sV + ((slice k.partValid sV eV).filter (fun i => goesLeft s (x i))).length) ∧
      k'.partTrain = k.partTrain.take sT ++ (slice k.partTrain sT eT).filter (fun i => goesLeft s (x i)) ++
          (slice k.partTrain sT eT).filter (fun i => !goesLeft s (x i)) ++ k.partTrain.drop eT ∧
      k'.partValid = k.partValid.take sV ++ (slice k.partValid sV eV).filter (fun i => goesLeft s (x i)) ++
          (slice k.partValid sV eV).filter (fun i => !goesLeft s (x i)) ++ k.partValid.drop eV ∧
      k'.leftBuf.length = k.leftBuf.length ∧ k'.rightBuf.length = k.rightBuf.length ∧
      k'.pool = k.pool ∧ k'.sampled = k.sampled ∧ k'.rng = k.rng := by
  obtain ⟨lb1, rb1, e1, e2, e3⟩ := splitSide_spec c s hs x k.partTrain k.leftBuf k.rightBuf sT eT h1 h2 h5 h6
    (fun i hi => hx i (by simp [hi]))
  obtain ⟨lb2, rb2, e4, e5, e6⟩ := splitSide_spec c s hs x k.partValid lb1 rb1 sV eV h3 h4 (by omega) (by omega)
    (fun i hi => hx i (by simp [hi]))
  refine ⟨⟨_, _, lb2, rb2, k.pool, k.sampled, k.rng⟩, by simp only [splitIndices, e3, e6, bind_ok, pure_eq_ok],
    rfl, rfl, ?_, ?_, rfl, rfl, rfl⟩
  · simp only; omega
  · simp only; omega

end Verif
