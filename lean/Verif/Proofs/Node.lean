import Verif.Proofs.Basic
import Verif.Spec.Node
import Mathlib.Data.List.Nodup
import Mathlib.Data.List.Range
import Mathlib.Data.List.Perm.Subperm

set_option linter.unusedSectionVars false

/-! Proofs about `compute_node_context`. -/
namespace Verif

open Spec

variable {F Y P G : Type} [Num F]

theorem length_lt_of_nodup {l : List Nat} {b cap : Nat} (hn : l.Nodup) (hl : ∀ x ∈ l, x < cap) (hb : b < cap)
    (hbl : b ∉ l) : l.length < cap := by
  have h1 : (b :: l).Nodup := List.nodup_cons.2 ⟨hbl, hn⟩
  have h2 : (b :: l) ⊆ List.range cap := by
    intro x hx
    rcases List.mem_cons.1 hx with rfl | hx
    · exact List.mem_range.2 hb
    · exact List.mem_range.2 (hl x hx)
  have := (List.subperm_of_subset h1 h2).length_le
  simp at this; omega

theorem length_le_of_nodup {l : List Nat} {cap : Nat} (hn : l.Nodup) (hl : ∀ x ∈ l, x < cap) : l.length ≤ cap := by
  have h2 : l ⊆ List.range cap := fun x hx => List.mem_range.2 (hl x hx)
  have := (List.subperm_of_subset hn h2).length_le
  simpa using this

theorem inBin_snoc (D : Data F) (j b : Nat) (l : List Nat) (i : Nat) :
    inBin D j b (l ++ [i]) = inBin D j b l ++ (if D.X i j = b then [i] else []) := by
  unfold inBin
  rw [List.filter_append]
  congr 1
  by_cases h : D.X i j = b <;> simp [h]

theorem inBin_length_pos (D : Data F) (j b : Nat) (l : List Nat) :
    (inBin D j b l).length = 0 ↔ ¬ ∃ i ∈ l, D.X i j = b := by
  rw [List.length_eq_zero_iff]
  unfold inBin
  rw [List.filter_eq_nil_iff]
  simp

theorem sumW_snoc (D : Data F) (l : List Nat) (i : Nat) : sumW D (l ++ [i]) = Num.add (sumW D l) (D.w i) := by
  simp [sumW]

theorem foldlM_snoc {α σ : Type _} (f : σ → α → M σ) (s : σ) (l : List α) (x : α) :
    (l ++ [x]).foldlM f s = l.foldlM f s >>= fun s => f s x := by
  rw [List.foldlM_append]
  cases l.foldlM f s with
  | error e => rfl
  | ok s' => simp only [bind_ok, List.foldlM_cons]; cases f s' x <;> rfl

theorem sumY_snoc (T : Task F Y P G) (D : Data F) (l : List Nat) (i : Nat) :
    sumY T D (l ++ [i]) = sumY T D l >>= fun y => T.addY y (D.w i) (D.y i) := by
  unfold sumY; exact foldlM_snoc _ _ _ _

theorem sumY_ok {T : Task F Y P G} {lab : F → Prop} {okY : Y → Prop} {okP : P → Prop} (hT : TaskSafe T lab okY okP)
    (D : Data F) (l : List Nat) (hl : ∀ i ∈ l, lab (D.y i)) : ∃ y, sumY T D l = .ok y ∧ okY y :=
  foldlM_inv (fun _ y => okY y) hT.zeroY (by
    intro pre i post y hs hy
    exact hT.addY y (D.w i) (D.y i) hy (hl i (by rw [hs]; simp)))

/-- Contents of the histogram of the training samples already seen. -/
structure TrainInv (T : Task F Y P G) (c : Ctx F) (D : Data F) (j : Nat) (pre : List Nat) (h : Hist F Y) : Prop where
  lenN : h.nTrain.length = c.maxNBins
  nTrain : ∀ b, b < c.maxNBins → h.nTrain[b]? = some (inBin D j b pre).length
  wTrain : ∀ b, b < c.maxNBins → h.wTrain[b]? = some (sumW D (inBin D j b pre))
  ySum : ∀ b, b < c.maxNBins → ∃ y, h.ySum[b]? = some y ∧ sumY T D (inBin D j b pre) = .ok y
  lenY : h.ySum.length = c.maxNBins
  neNodup : h.neTrain.Nodup
  neMem : ∀ b, b ∈ h.neTrain ↔ ∃ i ∈ pre, D.X i j = b
  nValid : h.nValid = List.replicate c.maxNBins 0
  wValid : h.wValid = List.replicate c.maxNBins Num.zero
  neValid : h.neValid = []

/-- Update of the statistics of one bin. -/
theorem update_bin {α : Type _} {l : List α} {cap b : Nat} {v : α} (f : Nat → List Nat → α) (D : Data F) (j i : Nat)
    (pre : List Nat) (hb : D.X i j = b) (hbc : b < cap)
    (hl : ∀ b, b < cap → l[b]? = some (f b (inBin D j b pre))) (hv : v = f b (inBin D j b pre ++ [i])) :
    ∀ b', b' < cap → (l.set b v)[b']? = some (f b' (inBin D j b' (pre ++ [i]))) := by
  intro b' hb'
  rw [inBin_snoc, List.getElem?_set]
  have hlen : b < l.length := (List.getElem?_eq_some_iff.1 (hl b hbc)).1
  by_cases h : b = b'
  · subst h; simp [hlen, hb, hv]
  · simp [h, hb, hl b' hb']

theorem trainStep_inv {T : Task F Y P G} {lab : F → Prop} {okY : Y → Prop} {okP : P → Prop}
    (hT : TaskSafe T lab okY okP) {c : Ctx F} {D : Data F} (hD : Holds c D) (j : Nat) (hj : j < D.d) (first : Bool)
    (pre : List Nat) (i : Nat) (hi : i < D.n) (hpre : ∀ i ∈ pre, i < D.n ∧ lab (D.y i)) (hlab : lab (D.y i))
    {h : Hist F Y} {w : F} {p : P} (hh : TrainInv T c D j pre h) (hp : okP p) :
    ∃ h' p', trainStep T c j first (h, w, p) i = .ok (h', if first then Num.add w (D.w i) else w, p') ∧
      TrainInv T c D j (pre ++ [i]) h' ∧ okP p' ∧
      (if first then T.addP p (D.w i) (D.y i) = .ok p' else p' = p) := by
  have hbc := hD.bound i j hi hj
  obtain ⟨y, hy1, hy2⟩ := hh.ySum _ hbc
  obtain ⟨y0, hy3, hy4⟩ := sumY_ok hT D (inBin D j (D.X i j) pre)
    (fun k hk => (hpre k (List.mem_filter.1 hk).1).2)
  have hyy : y0 = y := by rw [hy2] at hy3; injection hy3 with e; exact e.symm
  subst hyy
  obtain ⟨y', hy5, hy6⟩ := hT.addY y0 (D.w i) (D.y i) hy4 hlab
  have hn := hh.nTrain _ hbc
  have hw := hh.wTrain _ hbc
  obtain ⟨p', hp1, hp2, hp3⟩ : ∃ p', (if first = true then T.addP p (D.w i) (D.y i) else .ok p) = .ok p' ∧ okP p' ∧
      (if first then T.addP p (D.w i) (D.y i) = .ok p' else p' = p) := by
    cases first
    · exact ⟨p, by simp, hp, by simp⟩
    · obtain ⟨p', h1, h2⟩ := hT.addP p (D.w i) (D.y i) hp hlab
      exact ⟨p', by simp [h1], h2, by simp [h1]⟩
  obtain ⟨ne', hne1, hne2, hne3⟩ : ∃ ne', (if (inBin D j (D.X i j) pre).length = 0 then
      pushBin c.maxNBins h.neTrain (D.X i j) else .ok h.neTrain) = .ok ne' ∧ ne'.Nodup ∧
      ∀ b, b ∈ ne' ↔ ∃ k ∈ pre ++ [i], D.X k j = b := by
    have hlt : ∀ b ∈ h.neTrain, b < c.maxNBins := by
      intro b hb
      obtain ⟨k, hk, rfl⟩ := (hh.neMem b).1 hb
      exact hD.bound k j (hpre k hk).1 hj
    split
    · rename_i h0
      rw [inBin_length_pos] at h0
      have hnin : D.X i j ∉ h.neTrain := fun hin => h0 ((hh.neMem _).1 hin)
      refine ⟨h.neTrain ++ [D.X i j], ?_, ?_, ?_⟩
      · simp [pushBin, length_lt_of_nodup hh.neNodup hlt hbc hnin]
      · exact List.nodup_append.2 ⟨hh.neNodup, by simp, by
          intro a ha b hb
          simp at hb; subst hb
          exact fun e => hnin (e ▸ ha)⟩
      · intro b
        simp only [List.mem_append, hh.neMem, List.mem_singleton]
        constructor
        · rintro (⟨k, hk, rfl⟩ | rfl)
          · exact ⟨k, Or.inl hk, rfl⟩
          · exact ⟨i, Or.inr rfl, rfl⟩
        · rintro ⟨k, hk | rfl, rfl⟩
          · exact Or.inl ⟨k, hk, rfl⟩
          · exact Or.inr rfl
    · rename_i h0
      rw [inBin_length_pos, not_not] at h0
      refine ⟨h.neTrain, rfl, hh.neNodup, ?_⟩
      intro b
      simp only [hh.neMem, List.mem_append, List.mem_singleton]
      constructor
      · rintro ⟨k, hk, rfl⟩; exact ⟨k, Or.inl hk, rfl⟩
      · rintro ⟨k, hk | rfl, rfl⟩
        · exact ⟨k, hk, rfl⟩
        · exact h0
  have hln : D.X i j < h.nTrain.length := (List.getElem?_eq_some_iff.1 hn).1
  have hlw : D.X i j < h.wTrain.length := (List.getElem?_eq_some_iff.1 hw).1
  have hly : D.X i j < h.ySum.length := (List.getElem?_eq_some_iff.1 hy1).1
  refine ⟨{ h with
      neTrain := ne', nTrain := h.nTrain.set (D.X i j) ((inBin D j (D.X i j) pre).length + 1),
      wTrain := h.wTrain.set (D.X i j) (Num.add (sumW D (inBin D j (D.X i j) pre)) (D.w i)),
      ySum := h.ySum.set (D.X i j) y' }, p', ?_, ?_, hp2, hp3⟩
  · simp only [trainStep, hD.value i j hi hj, bind_ok, rd_ok.2 (hD.y i hi), rd_ok.2 (hD.w i hi), hp1, rd_ok.2 hn, hne1,
      wr_of_lt _ hln, rd_ok.2 hw, wr_of_lt _ hlw, rd_ok.2 hy1, hy5, wr_of_lt _ hly, pure_eq_ok]
  · refine ⟨by simp [hh.lenN], ?_, ?_, ?_, by simp [hh.lenY], hne2, hne3, hh.nValid, hh.wValid, hh.neValid⟩
    · exact update_bin (fun _ l => l.length) D j i pre rfl hbc hh.nTrain (by simp)
    · exact update_bin (fun _ l => sumW D l) D j i pre rfl hbc hh.wTrain (by simp [sumW_snoc])
    · intro b hb
      simp only
      rw [inBin_snoc, List.getElem?_set]
      by_cases e : D.X i j = b
      · subst e
        exact ⟨y', by simp [hly], by simp [sumY_snoc, hy2, hy5]⟩
      · simp only [e, if_false, List.append_nil]
        exact hh.ySum b hb

theorem trainLoop {T : Task F Y P G} {lab : F → Prop} {okY : Y → Prop} {okP : P → Prop}
    (hT : TaskSafe T lab okY okP) {c : Ctx F} {D : Data F} (hD : Holds c D) (j : Nat) (hj : j < D.d) (first : Bool)
    (train : List Nat) (htr : ∀ i ∈ train, i < D.n ∧ lab (D.y i)) (w : F) (p : P) (hp : okP p) :
    ∃ h' w' p', train.foldlM (trainStep T c j first) (Hist.zero T c.maxNBins, w, p) = .ok (h', w', p') ∧
      TrainInv T c D j train h' ∧ okP p' ∧
      w' = (if first then train.foldl (fun s i => Num.add s (D.w i)) w else w) ∧
      (if first then train.foldlM (fun p i => T.addP p (D.w i) (D.y i)) p = .ok p' else p' = p) := by
  obtain ⟨⟨h', w', p'⟩, h1, h2, h3, h4, h5⟩ := foldlM_inv (l := train) (f := trainStep T c j first)
    (s := (Hist.zero T c.maxNBins, w, p))
    (fun pre st => TrainInv T c D j pre st.1 ∧ okP st.2.2 ∧
      st.2.1 = (if first then pre.foldl (fun s i => Num.add s (D.w i)) w else w) ∧
      (if first then pre.foldlM (fun p i => T.addP p (D.w i) (D.y i)) p = .ok st.2.2 else st.2.2 = p))
    (by
      refine ⟨⟨?_, ?_, ?_, ?_, ?_, ?_, ?_, rfl, rfl, rfl⟩, hp, ?_, ?_⟩
      · simp [Hist.zero]
      · intro b hb; simp [Hist.zero, hb, inBin]
      · intro b hb; simp [Hist.zero, hb, inBin, sumW]
      · intro b hb; exact ⟨T.zeroY, by simp [Hist.zero, hb], by simp [inBin, sumY]⟩
      · simp [Hist.zero]
      · simp [Hist.zero]
      · intro b; simp [Hist.zero]
      · simp
      · simp)
    (by
      rintro pre i post ⟨h, w1, p1⟩ hs ⟨g1, g2, g3, g4⟩
      simp only at g1 g2 g3 g4
      have hi := htr i (by rw [hs]; simp)
      obtain ⟨h', p', e1, e2, e3, e4⟩ := trainStep_inv hT hD j hj first pre i hi.1
        (fun k hk => htr k (by rw [hs]; simp [hk])) hi.2 (w := w1) g1 g2
      refine ⟨_, e1, e2, e3, ?_, ?_⟩
      · cases first <;> simp_all
      · cases first <;> simp_all)
  exact ⟨h', w', p', h1, h2, h3, h4, h5⟩

/-- Contents of the histogram while the validation samples are read. -/
structure ValidInv (T : Task F Y P G) (c : Ctx F) (D : Data F) (j : Nat) (pre : List Nat) (h0 h : Hist F Y) : Prop where
  same : h = { h0 with nValid := h.nValid, wValid := h.wValid, neValid := h.neValid }
  lenV : h.nValid.length = c.maxNBins
  nValid : ∀ b, b < c.maxNBins → h.nValid[b]? = some (inBin D j b pre).length
  wValid : ∀ b, b < c.maxNBins → h.wValid[b]? = some (sumW D (inBin D j b pre))
  nevNodup : h.neValid.Nodup
  nevMem : ∀ b, b ∈ h.neValid ↔ ∃ i ∈ pre, D.X i j = b

theorem validStep_inv {T : Task F Y P G} {lab : F → Prop} {okY : Y → Prop} {okP : P → Prop}
    (hT : TaskSafe T lab okY okP) {c : Ctx F} {D : Data F} (hD : Holds c D) (j : Nat) (hj : j < D.d) (first : Bool)
    (p : P) (hp : okP p)
    (pre : List Nat) (i : Nat) (hi : i < D.n) (hpre : ∀ i ∈ pre, i < D.n ∧ lab (D.y i)) (hlab : lab (D.y i))
    {h0 h : Hist F Y} {w x : F} (hh : ValidInv T c D j pre h0 h) :
    ∃ h' x', validStep T c j first p (h, w, x) i = .ok (h', if first then Num.add w (D.w i) else w, x') ∧
      ValidInv T c D j (pre ++ [i]) h0 h' ∧
      (if first then T.addLoss p x (D.w i) (D.y i) = .ok x' else x' = x) := by
  have hbc := hD.bound i j hi hj
  have hn := hh.nValid _ hbc
  have hw := hh.wValid _ hbc
  obtain ⟨x', hp1, hp3⟩ : ∃ x', (if first = true then (do let label ← rd c.y i; T.addLoss p x (D.w i) label) else .ok x)
      = .ok x' ∧ (if first then T.addLoss p x (D.w i) (D.y i) = .ok x' else x' = x) := by
    cases first
    · exact ⟨x, by simp, by simp⟩
    · obtain ⟨x', h1⟩ := hT.addLoss p x (D.w i) (D.y i) hp hlab
      exact ⟨x', by simp [rd_ok.2 (hD.y i hi), h1], by simp [h1]⟩
  obtain ⟨ne', hne1, hne2, hne3⟩ : ∃ ne', (if (inBin D j (D.X i j) pre).length = 0 then
      pushBin c.maxNBins h.neValid (D.X i j) else .ok h.neValid) = .ok ne' ∧ ne'.Nodup ∧
      ∀ b, b ∈ ne' ↔ ∃ k ∈ pre ++ [i], D.X k j = b := by
    have hlt : ∀ b ∈ h.neValid, b < c.maxNBins := by
      intro b hb
      obtain ⟨k, hk, rfl⟩ := (hh.nevMem b).1 hb
      exact hD.bound k j (hpre k hk).1 hj
    split
    · rename_i h0
      rw [inBin_length_pos] at h0
      have hnin : D.X i j ∉ h.neValid := fun hin => h0 ((hh.nevMem _).1 hin)
      refine ⟨h.neValid ++ [D.X i j], ?_, ?_, ?_⟩
      · simp [pushBin, length_lt_of_nodup hh.nevNodup hlt hbc hnin]
      · exact List.nodup_append.2 ⟨hh.nevNodup, by simp, by
          intro a ha b hb
          simp at hb; subst hb
          exact fun e => hnin (e ▸ ha)⟩
      · intro b
        simp only [List.mem_append, hh.nevMem, List.mem_singleton]
        constructor
        · rintro (⟨k, hk, rfl⟩ | rfl)
          · exact ⟨k, Or.inl hk, rfl⟩
          · exact ⟨i, Or.inr rfl, rfl⟩
        · rintro ⟨k, hk | rfl, rfl⟩
          · exact Or.inl ⟨k, hk, rfl⟩
          · exact Or.inr rfl
    · rename_i h0
      rw [inBin_length_pos, not_not] at h0
      refine ⟨h.neValid, rfl, hh.nevNodup, ?_⟩
      intro b
      simp only [hh.nevMem, List.mem_append, List.mem_singleton]
      constructor
      · rintro ⟨k, hk, rfl⟩; exact ⟨k, Or.inl hk, rfl⟩
      · rintro ⟨k, hk | rfl, rfl⟩
        · exact ⟨k, hk, rfl⟩
        · exact h0
  have hln : D.X i j < h.nValid.length := (List.getElem?_eq_some_iff.1 hn).1
  have hlw : D.X i j < h.wValid.length := (List.getElem?_eq_some_iff.1 hw).1
  refine ⟨{ h with
      neValid := ne', nValid := h.nValid.set (D.X i j) ((inBin D j (D.X i j) pre).length + 1),
      wValid := h.wValid.set (D.X i j) (Num.add (sumW D (inBin D j (D.X i j) pre)) (D.w i)) }, x', ?_, ?_, hp3⟩
  · simp only [validStep, hD.value i j hi hj, bind_ok, rd_ok.2 (hD.w i hi), hp1, rd_ok.2 hn, hne1,
      wr_of_lt _ hln, rd_ok.2 hw, wr_of_lt _ hlw, pure_eq_ok]
  · refine ⟨?_, by simp [hh.lenV], ?_, ?_, hne2, hne3⟩
    · rw [hh.same]
    · exact update_bin (fun _ l => l.length) D j i pre rfl hbc hh.nValid (by simp)
    · exact update_bin (fun _ l => sumW D l) D j i pre rfl hbc hh.wValid (by simp [sumW_snoc])

theorem validLoop {T : Task F Y P G} {lab : F → Prop} {okY : Y → Prop} {okP : P → Prop}
    (hT : TaskSafe T lab okY okP) {c : Ctx F} {D : Data F} (hD : Holds c D) (j : Nat) (hj : j < D.d) (first : Bool)
    (p : P) (hp : okP p) (valid : List Nat) (hva : ∀ i ∈ valid, i < D.n ∧ lab (D.y i)) (w x : F) (h0 : Hist F Y)
    (e1 : h0.nValid = List.replicate c.maxNBins 0) (e2 : h0.wValid = List.replicate c.maxNBins Num.zero)
    (e3 : h0.neValid = []) :
    ∃ h' w' x', valid.foldlM (validStep T c j first p) (h0, w, x) = .ok (h', w', x') ∧
      ValidInv T c D j valid h0 h' ∧
      w' = (if first then valid.foldl (fun s i => Num.add s (D.w i)) w else w) ∧
      (if first then valid.foldlM (fun x i => T.addLoss p x (D.w i) (D.y i)) x = .ok x' else x' = x) := by
  obtain ⟨⟨h', w', x'⟩, h1, h2, h4, h5⟩ := foldlM_inv (l := valid) (f := validStep T c j first p)
    (s := (h0, w, x))
    (fun pre st => ValidInv T c D j pre h0 st.1 ∧
      st.2.1 = (if first then pre.foldl (fun s i => Num.add s (D.w i)) w else w) ∧
      (if first then pre.foldlM (fun x i => T.addLoss p x (D.w i) (D.y i)) x = .ok st.2.2 else st.2.2 = x))
    (by
      refine ⟨⟨rfl, ?_, ?_, ?_, ?_, ?_⟩, ?_, ?_⟩
      · simp [e1]
      · intro b hb; simp [e1, hb, inBin]
      · intro b hb; simp [e2, hb, inBin, sumW]
      · simp [e3]
      · intro b; simp [e3]
      · simp
      · simp)
    (by
      rintro pre i post ⟨h, w1, x1⟩ hs ⟨g1, g3, g4⟩
      simp only at g1 g3 g4
      have hi := hva i (by rw [hs]; simp)
      obtain ⟨h', x', e1, e2, e4⟩ := validStep_inv hT hD j hj first p hp pre i hi.1
        (fun k hk => hva k (by rw [hs]; simp [hk])) hi.2 (w := w1) (x := x1) g1
      refine ⟨_, e1, e2, ?_, ?_⟩
      · cases first <;> simp_all
      · cases first <;> simp_all)
  exact ⟨h', w', x', h1, h2, h4, h5⟩

/-- What the loop over features has computed after the features `pre`. -/
structure FeatInv (T : Task F Y P G) (c : Ctx F) (D : Data F) (okP : P → Prop) (train valid pre : List Nat)
    (a : NodeAcc F Y P) : Prop where
  len : a.hists.length = pre.length
  hists : ∀ (f j : Nat), pre[f]? = some j → ∃ h, a.hists[f]? = some h ∧ HistOK T c D j train valid h
  init : pre = [] → a.wTrain = Num.zero ∧ a.wValid = Num.zero ∧ a.yPred = T.zeroP ∧ a.loss = Num.zero
  okP : okP a.yPred
  wTrain : pre ≠ [] → a.wTrain = sumW D train
  yPred : pre ≠ [] → nodePred T D train = .ok a.yPred
  wValid : pre ≠ [] → a.wValid = if c.aggregation then sumW D valid else Num.zero
  loss : pre ≠ [] → if c.aggregation then nodeLoss T D a.yPred valid = .ok a.loss else a.loss = Num.zero

theorem featureStep_inv {T : Task F Y P G} {lab : F → Prop} {okY : Y → Prop} {okP : P → Prop}
    (hT : TaskSafe T lab okY okP) {c : Ctx F} {D : Data F} (hD : Holds c D) (train valid : List Nat)
    (htr : ∀ i ∈ train, i < D.n ∧ lab (D.y i)) (hva : ∀ i ∈ valid, i < D.n ∧ lab (D.y i)) (pre : List Nat) (j : Nat)
    (hj : j < D.d) (a : NodeAcc F Y P) (ha : FeatInv T c D okP train valid pre a) :
    ∃ a', featureStep T c train valid a j = .ok a' ∧ FeatInv T c D okP train valid (pre ++ [j]) a' := by
  have hfirst : a.hists.isEmpty = decide (pre = []) := by
    have := ha.len
    cases pre with
    | nil => simp at this; simp [this]
    | cons x xs =>
      cases hh : a.hists with
      | nil => rw [hh] at this; simp at this
      | cons y ys => simp
  obtain ⟨h1, w1, p1, t1, t2, t3, t4, t5⟩ :=
    trainLoop hT hD j hj a.hists.isEmpty train htr a.wTrain a.yPred ha.okP
  obtain ⟨p2, q1, q2, q3⟩ : ∃ p2, (if a.hists.isEmpty = true then T.endP p1 w1 else .ok p1) = .ok p2 ∧ okP p2 ∧
      nodePred T D train = .ok p2 := by
    rw [hfirst] at t4 t5 ⊢
    by_cases hp : pre = []
    · simp only [hp, decide_true, if_true] at t4 t5 ⊢
      obtain ⟨p2, e1, e2⟩ := hT.endP p1 w1 t3
      refine ⟨p2, e1, e2, ?_⟩
      obtain ⟨i1, _, i3, _⟩ := ha.init hp
      rw [i3] at t5; rw [i1] at t4
      unfold nodePred sumW
      rw [t5]; simp only [bind_ok]; rw [← t4]; exact e1
    · simp only [hp, decide_false] at t5 ⊢
      simp at t5
      refine ⟨p1, by simp, t3, ?_⟩
      rw [t5]; exact ha.yPred hp
  have hw1 : w1 = sumW D train := by
    rw [hfirst] at t4
    by_cases hp : pre = []
    · simp only [hp, decide_true, if_true, (ha.init hp).1] at t4; exact t4
    · simp only [hp, decide_false] at t4; simp at t4; rw [t4]; exact ha.wTrain hp
  by_cases hagg : c.aggregation = true
  · obtain ⟨h2, w2, x2, v1, v2, v3, v4⟩ := validLoop hT hD j hj a.hists.isEmpty p2 q2 valid hva a.wValid a.loss h1
      t2.nValid t2.wValid t2.neValid
    refine ⟨{ hists := a.hists ++ [h2], wTrain := w1, wValid := w2, yPred := p2, loss := x2 }, ?_, ?_⟩
    · simp only [featureStep, t1, q1, bind_ok, hagg, if_true, v1, pure_eq_ok]
    · have hk : HistOK T c D j train valid h2 := by
        have hs := v2.same
        refine ⟨?_, v2.lenV, ?_, ?_, ?_, ?_, ?_, ?_, ?_, fun _ => v2.wValid, v2.nevNodup, ?_⟩
        · rw [hs]; exact t2.lenN
        · rw [hs]; exact t2.nTrain
        · rw [hs]; exact t2.wTrain
        · rw [hs]; exact t2.ySum
        · rw [hs]; exact t2.lenY
        · rw [hs]; exact t2.neNodup
        · rw [hs]; exact t2.neMem
        · intro b hb; rw [hagg]; exact v2.nValid b hb
        · intro b; rw [v2.nevMem]; simp [hagg]
      refine ⟨by simp [ha.len], ?_, by simp, q2, fun _ => hw1, fun _ => q3, ?_, ?_⟩
      · intro f j' hf
        rcases Nat.lt_or_ge f pre.length with hlt | hge
        · rw [List.getElem?_append_left hlt] at hf
          obtain ⟨h, e1, e2⟩ := ha.hists f j' hf
          exact ⟨h, by simp only; rw [List.getElem?_append_left (by rw [ha.len]; exact hlt)]; exact e1, e2⟩
        · have hfe : f = pre.length := by
            have := (List.getElem?_eq_some_iff.1 hf).1; simp at this; omega
          subst hfe
          simp at hf; subst hf
          refine ⟨h2, ?_, hk⟩
          simp only; rw [← ha.len]; simp
      · intro _
        rw [hfirst] at v3
        simp only [hagg, if_true]
        by_cases hp : pre = []
        · simp only [hp, decide_true, if_true, (ha.init hp).2.1] at v3; exact v3
        · simp only [hp, decide_false] at v3; simp at v3; rw [v3, ha.wValid hp]; simp [hagg]
      · intro _
        rw [hfirst] at v4
        simp only [hagg, if_true]
        by_cases hp : pre = []
        · simp only [hp, decide_true, if_true, (ha.init hp).2.2.2] at v4; exact v4
        · simp only [hp, decide_false] at v4; simp at v4; rw [v4]
          have := ha.loss hp
          simp only [hagg, if_true] at this
          have e : a.yPred = p2 := by
            have := ha.yPred hp; rw [q3] at this; injection this with e; exact e.symm
          rw [← e]; exact this
  · simp only [Bool.not_eq_true] at hagg
    refine ⟨{ hists := a.hists ++ [h1], wTrain := w1, wValid := a.wValid, yPred := p2, loss := a.loss }, ?_, ?_⟩
    · simp only [featureStep, t1, q1, bind_ok, hagg, pure_eq_ok, Bool.false_eq_true, if_false]
    · have hk : HistOK T c D j train valid h1 := by
        refine ⟨t2.lenN, by simp [t2.nValid], t2.nTrain, t2.wTrain, t2.ySum, t2.lenY, t2.neNodup, t2.neMem, ?_, ?_, ?_,
          ?_⟩
        · intro b hb; simp [t2.nValid, hb, hagg]
        · intro h; simp [hagg] at h
        · simp [t2.neValid]
        · intro b; simp [t2.neValid, hagg]
      refine ⟨by simp [ha.len], ?_, by simp, q2, fun _ => hw1, fun _ => q3, ?_, ?_⟩
      · intro f j' hf
        rcases Nat.lt_or_ge f pre.length with hlt | hge
        · rw [List.getElem?_append_left hlt] at hf
          obtain ⟨h, e1, e2⟩ := ha.hists f j' hf
          exact ⟨h, by simp only; rw [List.getElem?_append_left (by rw [ha.len]; exact hlt)]; exact e1, e2⟩
        · have hfe : f = pre.length := by
            have := (List.getElem?_eq_some_iff.1 hf).1; simp at this; omega
          subst hfe
          simp at hf; subst hf
          refine ⟨h1, ?_, hk⟩
          simp only; rw [← ha.len]; simp
      · intro _
        simp only [hagg]
        by_cases hp : pre = []
        · simp [(ha.init hp).2.1]
        · simp [ha.wValid hp, hagg]
      · intro _
        simp only [hagg]
        by_cases hp : pre = []
        · simp [(ha.init hp).2.2.2]
        · have := ha.loss hp; simp [hagg] at this; simp [this]

/-- The node context computed by `compute_node_context` on samples inside the data. -/
structure NodeOK (T : Task F Y P G) (c : Ctx F) (D : Data F) (okP : P → Prop) (features train valid : List Nat)
    (nc : NodeCtx F Y P) : Prop where
  len : nc.hists.length = features.length
  hists : ∀ (f j : Nat), features[f]? = some j → ∃ h, nc.hists[f]? = some h ∧ HistOK T c D j train valid h
  okP : okP nc.yPred
  nTrain : nc.nTrain = train.length
  nValid : nc.nValid = valid.length
  wTrain : nc.wTrain = sumW D train
  yPred : nodePred T D train = .ok nc.yPred
  wValid : nc.wValid = if c.aggregation then sumW D valid else Num.zero
  loss : if c.aggregation then nodeLoss T D nc.yPred valid = .ok nc.loss else nc.loss = Num.zero

theorem nodeStats_spec {T : Task F Y P G} {lab : F → Prop} {okY : Y → Prop} {okP : P → Prop}
    (hT : TaskSafe T lab okY okP) {c : Ctx F} {D : Data F} (hD : Holds c D) (features train valid : List Nat)
    (hf : ∀ j ∈ features, j < D.d) (hf0 : features ≠ [])
    (htr : ∀ i ∈ train, i < D.n ∧ lab (D.y i)) (hva : ∀ i ∈ valid, i < D.n ∧ lab (D.y i)) :
    ∃ nc, nodeStats T c features train valid train.length valid.length = .ok nc ∧
      NodeOK T c D okP features train valid nc := by
  obtain ⟨a, h1, h2⟩ := foldlM_inv (l := features) (f := featureStep T c train valid)
    (s := { hists := [], wTrain := Num.zero, wValid := Num.zero, yPred := T.zeroP, loss := Num.zero })
    (fun pre a => FeatInv T c D okP train valid pre a)
    ⟨rfl, by simp, fun _ => ⟨rfl, rfl, rfl, rfl⟩, hT.zeroP, by simp, by simp, by simp, by simp⟩
    (by
      intro pre j post a hs ha
      exact featureStep_inv hT hD train valid htr hva pre j (hf j (by rw [hs]; simp)) a ha)
  refine ⟨⟨a.hists, a.yPred, train.length, valid.length, a.loss, a.wTrain, a.wValid⟩,
    by simp only [nodeStats, h1, bind_ok, pure_eq_ok], h2.len, h2.hists, h2.okP, rfl, rfl, h2.wTrain hf0,
    h2.yPred hf0, h2.wValid hf0, h2.loss hf0⟩

end Verif
