import Verif.Proofs.LeafGeneric

/-! The sums of the weights and labels in the search of a split, when they are small enough to be exact. -/
set_option linter.unusedSectionVars false
namespace Verif

open Spec

variable {F Y P G V : Type} [Num F] [AddCommGroup V]

/-- The arithmetic on weights and label statistics is exact as long as the results satisfy `bw` and `bv`: `Rw x u` says that the number `x` has the
value `u`, `Ry` the same for label statistics; `kw i` and `e i` are the values of row `i`. -/
structure ExactSums (T : Task F Y P G) (D : Data F) (rows : List Nat) (Rw : F → ℤ → Prop) (bw : ℤ → Prop) (kw : Nat → ℤ) (Ry : Y → V → Prop)
    (bv : V → Prop) (e : Nat → V) : Prop where
  zeroW : Rw Num.zero 0
  rowW : ∀ i ∈ rows, Rw (D.w i) (kw i)
  addW : ∀ {x y u v}, Rw x u → Rw y v → bw (u + v) → Rw (Num.add x y) (u + v)
  subW : ∀ {x y u v}, Rw x u → Rw y v → bw (u - v) → Rw (Num.sub x y) (u - v)
  zeroY : Ry T.zeroY 0
  rowY : ∀ i ∈ rows, ∀ {y y' v}, Ry y v → bv (v + e i) → T.addY y (D.w i) (D.y i) = .ok y' → Ry y' (v + e i)
  plusY : ∀ {x y u v}, Ry x u → Ry y v → bv (u + v) → Ry (T.plusY x y) (u + v)
  minusY : ∀ {x y u v}, Ry x u → Ry y v → bv (u - v) → Ry (T.minusY x y) (u - v)
  smallW : ∀ l : List Nat, l.Sublist rows → bw (l.map kw).sum
  smallY : ∀ l : List Nat, l.Sublist rows → bv (l.map e).sum

section
variable {T : Task F Y P G} {D : Data F} {rows : List Nat} {Rw : F → ℤ → Prop} {bw : ℤ → Prop} {kw : Nat → ℤ} {Ry : Y → V → Prop}
  {bv : V → Prop} {e : Nat → V}

theorem ExactSums.sub (E : ExactSums T D rows Rw bw kw Ry bv e) {l : List Nat} (hl : l.Sublist rows) : ExactSums T D l Rw bw kw Ry bv e :=
  ⟨E.zeroW, fun i hi => E.rowW i (hl.subset hi), E.addW, E.subW, E.zeroY, fun i hi => E.rowY i (hl.subset hi), E.plusY, E.minusY,
    fun l' h => E.smallW l' (h.trans hl), fun l' h => E.smallY l' (h.trans hl)⟩

theorem ExactSums.sumW (E : ExactSums T D rows Rw bw kw Ry bv e) : ∀ {l : List Nat}, l.Sublist rows → Rw (Spec.sumW D l) (l.map kw).sum := by
  intro l
  induction l using List.reverseRecOn with
  | nil => intro _; exact E.zeroW
  | append_singleton l i ih =>
    intro hl
    have h1 := ih ((List.sublist_append_left l [i]).trans hl)
    have h2 := E.addW h1 (E.rowW i (hl.subset (by simp))) (by have := E.smallW _ hl; simpa using this)
    unfold Spec.sumW at h2 ⊢
    simpa [List.foldl_append] using h2

theorem ExactSums.sumY (E : ExactSums T D rows Rw bw kw Ry bv e) : ∀ {l : List Nat}, l.Sublist rows → ∀ {y}, Spec.sumY T D l = .ok y →
    Ry y (l.map e).sum := by
  intro l
  induction l using List.reverseRecOn with
  | nil =>
    intro _ y hy
    obtain rfl := Except.ok.inj hy
    exact E.zeroY
  | append_singleton l i ih =>
    intro hl y hy
    rw [sumY_snoc, bind_eq_ok] at hy
    obtain ⟨y0, e1, e2⟩ := hy
    have h1 := ih ((List.sublist_append_left l [i]).trans hl) e1
    have h2 := E.rowY i (hl.subset (by simp)) h1 (by have := E.smallY _ hl; simpa using this) e2
    simpa using h2

variable {c : Ctx F} {lab : F → Prop} {okY : Y → Prop} {okP : P → Prop} {j : Nat} {train valid : List Nat} {nc : NodeCtx F Y P} {h : Hist F Y}

theorem sum_filter_lt (g : Nat → V) (x : Nat → Nat) (m : Nat) (l : List Nat) :
    ((l.filter fun i => decide (x i < m + 1)).map g).sum =
      ((l.filter fun i => decide (x i < m)).map g).sum + ((l.filter fun i => decide (x i = m)).map g).sum := by
  induction l with
  | nil => simp
  | cons i l ih =>
    rcases Nat.lt_trichotomy (x i) m with h | h | h
    · have h1 : x i < m + 1 := by omega
      have h2 : ¬ x i = m := by omega
      simp only [List.filter_cons, h, h1, h2, decide_true, if_true, decide_false, Bool.false_eq_true, if_false, List.map_cons, List.sum_cons, ih]
      abel
    · simp only [List.filter_cons, h, decide_true, if_true, decide_false, Bool.false_eq_true, if_false, List.map_cons, List.sum_cons, ih,
        Nat.lt_irrefl, Nat.lt_succ_self]
      abel
    · have h1 : ¬ x i < m + 1 := by omega
      have h2 : ¬ x i < m := by omega
      have h3 : ¬ x i = m := by omega
      simp only [List.filter_cons, h1, h2, h3, decide_false, Bool.false_eq_true, if_false, ih]

/-- The total of the label statistics over all bins. -/
theorem ExactSums.total (E : ExactSums T D train Rw bw kw Ry bv e) (H : NodeHyp T c D lab j train valid nc h) :
    Ry (h.ySum.foldl T.plusY T.zeroY) (train.map e).sum := by
  have key : ∀ m, m ≤ h.ySum.length → Ry ((h.ySum.take m).foldl T.plusY T.zeroY) ((train.filter fun i => decide (D.X i j < m)).map e).sum := by
    intro m
    induction m with
    | zero => intro _; simpa using E.zeroY
    | succ m ih =>
      intro hm
      have i1 := ih (by omega)
      have hmb : m < c.maxNBins := by rw [← H.hist.lenY]; omega
      obtain ⟨y, e1, e2⟩ := H.hist.ySum m hmb
      have f1 := E.sumY List.filter_sublist e2
      obtain ⟨hm', e1⟩ := List.getElem?_eq_some_iff.1 e1
      rw [List.take_succ_eq_append_getElem hm', List.foldl_append]
      simp only [List.foldl_cons, List.foldl_nil, e1]
      have hs := sum_filter_lt e (fun i => D.X i j) m train
      rw [hs]
      refine E.plusY i1 f1 ?_
      have := E.smallY _ (List.filter_sublist (p := fun i => decide (D.X i j < m + 1)) (l := train))
      rwa [hs] at this
  have := key h.ySum.length le_rfl
  rw [List.take_length, List.filter_eq_self.2] at this
  · exact this
  · intro i hi
    rw [H.hist.lenY]
    simpa using H.holds.bound i j (H.okTrain i hi).1 H.feat

/-- The running sums after the bins `pre` are the sums over the samples on each side. -/
theorem ExactSums.accOf (E : ExactSums T D train Rw bw kw Ry bv e) (H : NodeHyp T c D lab j train valid nc h) (hW : nc.wTrain = Spec.sumW D train)
    (isCat : Bool) {cumsum : List Nat} : ∀ (pre : List Nat), pre.Nodup → (∀ b ∈ pre, b ∈ h.neTrain) →
      Rw (accOf T nc h isCat cumsum pre).wL ((train.filter fun i => decide (D.X i j ∈ pre)).map kw).sum ∧
      Rw (accOf T nc h isCat cumsum pre).wR ((train.filter fun i => !decide (D.X i j ∈ pre)).map kw).sum ∧
      Ry (accOf T nc h isCat cumsum pre).yL ((train.filter fun i => decide (D.X i j ∈ pre)).map e).sum ∧
      Ry (accOf T nc h isCat cumsum pre).yR ((train.filter fun i => !decide (D.X i j ∈ pre)).map e).sum := by
  have hnot : ∀ pre : List Nat, ((train.filter fun i => !decide (D.X i j ∈ pre)).map kw).sum =
      (train.map kw).sum - ((train.filter fun i => decide (D.X i j ∈ pre)).map kw).sum := fun pre =>
    sum_filter_not kw (fun i => decide (D.X i j ∈ pre)) train
  have hnotV : ∀ pre : List Nat, ((train.filter fun i => !decide (D.X i j ∈ pre)).map e).sum =
      (train.map e).sum - ((train.filter fun i => decide (D.X i j ∈ pre)).map e).sum := fun pre =>
    sum_filter_not e (fun i => decide (D.X i j ∈ pre)) train
  have hsub : ∀ p : Nat → Bool, (train.filter p).Sublist train := fun p => List.filter_sublist
  intro pre
  induction pre using List.reverseRecOn with
  | nil =>
    intro _ _
    refine ⟨by simpa [Verif.accOf] using E.zeroW, ?_, by simpa [Verif.accOf] using E.zeroY, ?_⟩
    · simp only [Verif.accOf, List.foldl_nil, hW]
      simpa using E.sumW (List.Sublist.refl train)
    · simp only [Verif.accOf, List.foldl_nil]
      simpa using E.total H
  | append_singleton pre b ih =>
    intro hnd hin
    have hnd' := List.nodup_append.1 hnd
    have hb : b ∉ pre := fun hbp => hnd'.2.2 b hbp b (by simp) rfl
    have hbc := H.bin_lt (hin b (by simp))
    obtain ⟨e1, e2, e3, e4⟩ := ih hnd'.1 fun x hx => hin x (by simp [hx])
    have w1 : h.wTrain.getD b Num.zero = Spec.sumW D (inBin D j b train) := by
      simp [List.getD_eq_getElem?_getD, H.hist.wTrain b hbc]
    have w2 := E.sumW (hsub fun i => decide (D.X i j = b))
    obtain ⟨y, f1, f2⟩ := H.hist.ySum b hbc
    have g1 := E.sumY (hsub fun i => decide (D.X i j = b)) f2
    have y1 : h.ySum.getD b T.zeroY = y := by simp [List.getD_eq_getElem?_getD, f1]
    have s1 := sum_filter_snoc kw (fun i => D.X i j) pre hb train
    have s2 := sum_filter_snoc e (fun i => D.X i j) pre hb train
    have t1 : ((train.filter fun i => !decide (D.X i j ∈ pre ++ [b])).map kw).sum =
        ((train.filter fun i => !decide (D.X i j ∈ pre)).map kw).sum - ((train.filter fun i => decide (D.X i j = b)).map kw).sum := by
      rw [hnot, hnot, s1, sub_sub]
    have t2 : ((train.filter fun i => !decide (D.X i j ∈ pre ++ [b])).map e).sum =
        ((train.filter fun i => !decide (D.X i j ∈ pre)).map e).sum - ((train.filter fun i => decide (D.X i j = b)).map e).sum := by
      rw [hnotV, hnotV, s2, sub_sub]
    rw [accOf_snoc]
    refine ⟨?_, ?_, ?_, ?_⟩
    · simp only [accStep, w1]
      have := E.smallW _ (hsub fun i => decide (D.X i j ∈ pre ++ [b]))
      rw [s1] at this ⊢
      exact E.addW e1 w2 this
    · simp only [accStep, w1]
      have := E.smallW _ (hsub fun i => !decide (D.X i j ∈ pre ++ [b]))
      rw [t1] at this ⊢
      exact E.subW e2 w2 this
    · simp only [accStep, y1]
      have := E.smallY _ (hsub fun i => decide (D.X i j ∈ pre ++ [b]))
      rw [s2] at this ⊢
      exact E.plusY e3 g1 this
    · simp only [accStep, y1]
      have := E.smallY _ (hsub fun i => !decide (D.X i j ∈ pre ++ [b]))
      rw [t2] at this ⊢
      exact E.minusY e4 g1 this

end

end Verif
