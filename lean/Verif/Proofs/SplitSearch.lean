import Verif.Proofs.Node
import Mathlib.Data.List.Sort

set_option linter.unusedSectionVars false

/-! Proofs about the search of the best split. -/
namespace Verif

open Spec

variable {F Y P G : Type} [Num F]

/-- Number of samples whose bin is in the list `l`. -/
def cntIn (D : Data F) (j : Nat) (l s : List Nat) : Nat := s.countP fun i => decide (D.X i j ∈ l)

/-- Number of samples whose bin is at most `b`. -/
def cntLe (D : Data F) (j b : Nat) (s : List Nat) : Nat := s.countP fun i => decide (D.X i j ≤ b)

theorem cntIn_nil (D : Data F) (j : Nat) (s : List Nat) : cntIn D j [] s = 0 := by simp [cntIn]

theorem cntIn_snoc (D : Data F) (j : Nat) (l s : List Nat) (b : Nat) (hb : b ∉ l) :
    cntIn D j (l ++ [b]) s = cntIn D j l s + (inBin D j b s).length := by
  unfold cntIn inBin
  rw [← List.countP_eq_length_filter]
  induction s with
  | nil => simp
  | cons i s ih =>
    simp only [List.countP_cons, ih]
    by_cases h1 : D.X i j = b
    · have : D.X i j ∉ l := by rw [h1]; exact hb
      simp [h1, hb]; omega
    · by_cases h2 : D.X i j ∈ l <;> simp [h1, h2]; omega

theorem cntIn_le (D : Data F) (j : Nat) (l s : List Nat) : cntIn D j l s ≤ s.length := List.countP_le_length

theorem cntLe_le (D : Data F) (j b : Nat) (s : List Nat) : cntLe D j b s ≤ s.length := List.countP_le_length

theorem cntIn_mono (D : Data F) (j : Nat) {l l' : List Nat} (h : ∀ b ∈ l, b ∈ l') (s : List Nat) :
    cntIn D j l s ≤ cntIn D j l' s := by
  apply List.countP_mono_left
  intro i _ hi
  simp only [decide_eq_true_eq] at hi ⊢
  exact h _ hi

theorem cntLe_mono (D : Data F) (j : Nat) {b b' : Nat} (h : b ≤ b') (s : List Nat) :
    cntLe D j b s ≤ cntLe D j b' s := by
  apply List.countP_mono_left
  intro i _ hi
  simp only [decide_eq_true_eq] at hi ⊢
  omega

theorem cntIn_eq_cntLe (D : Data F) (j : Nat) {l s : List Nat} {b : Nat}
    (h : ∀ i ∈ s, D.X i j ∈ l ↔ D.X i j ≤ b) : cntIn D j l s = cntLe D j b s := by
  apply List.countP_congr
  intro i hi
  simp [h i hi]

/-! ### Sorting of bins -/

theorem sortNat_perm (l : List Nat) : (sortNat l).Perm l := List.perm_insertionSort _ _

theorem sortNat_sorted (l : List Nat) : (sortNat l).Pairwise (· ≤ ·) :=
  List.pairwise_insertionSort _ _

theorem sortNat_lt {l : List Nat} (h : l.Nodup) : (sortNat l).Pairwise (· < ·) := by
  have h1 := sortNat_sorted l
  have h2 : (sortNat l).Nodup := (sortNat_perm l).nodup_iff.2 h
  exact (List.pairwise_and_iff.2 ⟨h1, h2⟩).imp (by rintro a b ⟨h, h'⟩; omega)

theorem mem_sortNat {l : List Nat} {x : Nat} : x ∈ sortNat l ↔ x ∈ l := (sortNat_perm l).mem_iff

/-! ### Cumulated numbers of validation samples -/

/-- Invariant of the `while` loop. -/
structure CumInv (D : Data F) (j : Nat) (valid bv : List Nat) (st : Nat × Nat × Nat) : Prop where
  le : st.1 ≤ bv.length
  test : st.1 < bv.length → bv[st.1]? = some st.2.1
  cum : st.2.2 = cntIn D j (bv.take st.1) valid

theorem cumWhile_spec (D : Data F) (j : Nat) (valid bv nValid : List Nat) (hbv : bv.Pairwise (· < ·))
    (hn : ∀ b ∈ bv, nValid[b]? = some (inBin D j b valid).length) (binTrain : Nat) :
    ∀ (fuel : Nat) (st : Nat × Nat × Nat), bv.length - st.1 < fuel → CumInv D j valid bv st →
      (∀ b ∈ bv.take st.1, b ≤ binTrain) →
      ∃ st', cumWhile nValid bv binTrain fuel st = .ok st' ∧ CumInv D j valid bv st' ∧
        (∀ b ∈ bv.take st'.1, b ≤ binTrain) ∧ (∀ b ∈ bv.drop st'.1, binTrain < b) := by
  intro fuel
  induction fuel with
  | zero => intro st h; omega
  | succ fuel ih =>
    rintro ⟨idx, t, cum⟩ hf hI hle
    simp only at hf hle
    simp only [cumWhile]
    split
    · rename_i hc
      obtain ⟨hc1, hc2⟩ := hc
      have ht := hI.test hc2
      simp only at ht
      have htm : t ∈ bv := List.mem_of_getElem? ht
      have htake : bv.take (idx + 1) = bv.take idx ++ [t] := by
        rw [List.take_add_one, ht]; rfl
      have hnot : t ∉ bv.take idx := by
        intro hin
        have hnd : (bv.take (idx + 1)).Nodup :=
          (hbv.imp (fun h => Nat.ne_of_lt h)).sublist (List.take_sublist _ _)
        rw [htake] at hnd
        exact (List.nodup_append.1 hnd).2.2 t hin t (by simp) rfl
      have hcum : cum + (inBin D j t valid).length = cntIn D j (bv.take (idx + 1)) valid := by
        have := hI.cum
        simp only at this
        rw [htake, cntIn_snoc _ _ _ _ _ hnot, this]
      have hle' : ∀ b ∈ bv.take (idx + 1), b ≤ binTrain := by
        rw [htake]; intro b hb
        rcases List.mem_append.1 hb with hb | hb
        · exact hle b hb
        · simp at hb; omega
      simp only [rd_ok.2 (hn t htm), bind_ok]
      split
      · rename_i he
        refine ⟨_, rfl, ⟨by simp; omega, by simp; omega, by simpa using hcum⟩, by simpa using hle', ?_⟩
        simp [he]
      · rename_i he
        have hlt : idx + 1 < bv.length := by omega
        simp only [rd_of_lt hlt, bind_ok]
        apply ih
        · simp; omega
        · exact ⟨by simp; omega, by intro _; simp [hlt], by simpa using hcum⟩
        · simpa using hle'
    · rename_i hc
      refine ⟨_, rfl, hI, hle, ?_⟩
      simp only
      by_cases hlt : idx < bv.length
      · have ht := hI.test hlt
        simp only at ht
        have hbt : binTrain < t := by
          by_contra h
          exact hc ⟨by omega, hlt⟩
        intro b hb
        obtain ⟨k, hk, rfl⟩ := List.getElem_of_mem hb
        rw [List.getElem_drop]
        rw [List.pairwise_iff_getElem] at hbv
        obtain ⟨_, rfl⟩ := List.getElem?_eq_some_iff.1 ht
        rcases Nat.eq_zero_or_pos k with rfl | hk0
        · simpa using hbt
        · have := hbv idx (idx + k) hlt (by simp at hk; omega) (by omega)
          omega
      · simp [List.drop_eq_nil_of_le (Nat.le_of_not_lt hlt)]

theorem cumsumValid_spec (D : Data F) (j : Nat) (valid bt bv nValid cumsum : List Nat) (hbv : bv.Pairwise (· < ·))
    (hbt : bt.Pairwise (· < ·)) (hne : bv ≠ [])
    (hmem : ∀ i ∈ valid, D.X i j ∈ bv) (hn : ∀ b ∈ bv, nValid[b]? = some (inBin D j b valid).length)
    (hc : ∀ b ∈ bt, b < cumsum.length) :
    ∃ cs, cumsumValid nValid bt bv cumsum = .ok cs ∧ cs.length = cumsum.length ∧
      ∀ b ∈ bt, cs[b]? = some (cntLe D j b valid) := by
  have h0 : 0 < bv.length := List.length_pos_iff.2 hne
  obtain ⟨⟨st, cs⟩, h1, h2, h3, h4, h5⟩ := foldlM_inv (l := bt)
    (f := fun (s : (Nat × Nat × Nat) × List Nat) binTrain => do
      let st ← cumWhile nValid bv binTrain (bv.length + 1) s.1
      let cumsum ← wr s.2 binTrain st.2.2
      return (st, cumsum))
    (s := ((0, bv[0], 0), cumsum))
    (fun pre s => CumInv D j valid bv s.1 ∧ s.2.length = cumsum.length ∧
      (∀ x ∈ pre, s.2[x]? = some (cntLe D j x valid)) ∧
      (∀ b ∈ bv.take s.1.1, ∃ x ∈ pre, b ≤ x))
    (by
      refine ⟨⟨by simp, by intro _; simp [h0], by simp [cntIn_nil]⟩, rfl, by simp, by simp⟩)
    (by
      rintro pre b post ⟨st, cs⟩ hs ⟨g1, g2, g3, g4⟩
      simp only at g1 g2 g3 g4 ⊢
      have hpw := hbt
      rw [hs] at hpw
      have hlt : ∀ x ∈ pre, x < b := fun x hx => (List.pairwise_append.1 hpw).2.2 x hx b (by simp)
      obtain ⟨st', e1, e2, e3, e4⟩ := cumWhile_spec D j valid bv nValid hbv hn b (bv.length + 1) st (by omega) g1
        (by
          intro x hx
          obtain ⟨y, hy, hxy⟩ := g4 x hx
          have := hlt y hy; omega)
      have hbm : b ∈ bt := by rw [hs]; simp
      have hbc : b < cs.length := by rw [g2]; exact hc b hbm
      have hcum : st'.2.2 = cntLe D j b valid := by
        rw [e2.cum]
        apply cntIn_eq_cntLe
        intro i hi
        constructor
        · intro h; exact e3 _ h
        · intro h
          have := hmem i hi
          rw [← List.take_append_drop st'.1 bv] at this
          rcases List.mem_append.1 this with h' | h'
          · exact h'
          · have := e4 _ h'; omega
      refine ⟨(st', cs.set b st'.2.2), ?_, e2, by simp [g2], ?_, ?_⟩
      · simp [e1, wr_of_lt _ hbc]
      · intro x hx
        simp only
        rcases List.mem_append.1 hx with hx | hx
        · rw [List.getElem?_set_ne (by have := hlt x hx; omega)]
          exact g3 x hx
        · simp at hx; subst hx
          simp [hbc, hcum]
      · intro x hx
        exact ⟨b, by simp, e3 x hx⟩)
  refine ⟨cs, ?_, h3, h4⟩
  unfold cumsumValid
  rw [rd_of_lt h0]
  simp only [bind_ok, h1]
  rfl

/-! ### The loop over the bins -/

/-- Pure version of the update of the running counts and sums. -/
def accStep (T : Task F Y P G) (h : Hist F Y) (isCat : Bool) (cumsum : List Nat) (a : TryAcc F Y) (b : Nat) :
    TryAcc F Y :=
  { nL := a.nL + h.nTrain.getD b 0, nR := a.nR - h.nTrain.getD b 0
    wL := Num.add a.wL (h.wTrain.getD b Num.zero), wR := Num.sub a.wR (h.wTrain.getD b Num.zero)
    yL := T.plusY a.yL (h.ySum.getD b T.zeroY), yR := T.minusY a.yR (h.ySum.getD b T.zeroY)
    vL := if isCat then a.vL + h.nValid.getD b 0 else cumsum.getD b 0 }

/-- Running counts and sums after the bins `pre`. -/
def accOf (T : Task F Y P G) (nc : NodeCtx F Y P) (h : Hist F Y) (isCat : Bool) (cumsum : List Nat) (pre : List Nat) :
    TryAcc F Y :=
  pre.foldl (accStep T h isCat cumsum)
    { nL := 0, nR := nc.nTrain, wL := Num.zero, wR := nc.wTrain, yL := T.zeroY, yR := h.ySum.foldl T.plusY T.zeroY
      vL := 0 }

theorem accOf_snoc (T : Task F Y P G) (nc : NodeCtx F Y P) (h : Hist F Y) (isCat : Bool) (cumsum pre : List Nat)
    (b : Nat) : accOf T nc h isCat cumsum (pre ++ [b]) =
      accStep T h isCat cumsum (accOf T nc h isCat cumsum pre) b := by
  simp [accOf]

/-- The candidate leaves enough samples on both sides. -/
def Adm (c : Ctx F) (nc : NodeCtx F Y P) (a : TryAcc F Y) : Prop :=
  c.minLeaf ≤ a.nL ∧ (c.aggregation = true → c.minLeaf ≤ a.vL) ∧ c.minLeaf ≤ a.nR ∧
  (c.aggregation = true → c.minLeaf ≤ nc.nValid - a.vL)

/-- The split that is stored for a candidate. -/
def saveSplit (best : Split F) (nc : NodeCtx F Y P) (a : TryAcc F Y) (i : F × F) (feature bin : Nat) (isCat : Bool)
    (ordered : List Nat) : Split F :=
  { best with
    found := true, gain := some (informationGainProxy i.1 i.2 a.wL a.wR), feature := feature, binThreshold := bin
    impL := i.1, impR := i.2, nTrainL := a.nL, nTrainR := a.nR, wTrainL := a.wL, wTrainR := a.wR, nValidL := a.vL
    nValidR := nc.nValid - a.vL, isCat := isCat, bins := ordered }

/-- Laws of the comparisons that hold for floating point numbers including NaN and infinities. -/
structure GainLaws (F : Type) [Num F] : Prop where
  trans : ∀ a b c : F, Num.lt a b = true → Num.lt b c = true → Num.lt a c = true
  negInf : ∀ a b : F, Num.lt a b = true → Num.gtNegInf b = true

theorem gainGt_trans (L : GainLaws F) {x y : F} {b : Option F} (h1 : gainGt y b = true) (h2 : gainGt x b = false) :
    gainGt x (some y) = false := by
  cases hx : gainGt x (some y) with
  | false => rfl
  | true =>
    cases b with
    | none => simp only [gainGt] at *; rw [L.negInf y x hx] at h2; cases h2
    | some b => simp only [gainGt] at *; rw [L.trans b y x h1 hx] at h2; cases h2

/-- A pair of lists `q`, `b` such that the bins `q ++ [b]` are a proper prefix of the order. -/
def IsCut (ordered q : List Nat) (b : Nat) : Prop := ∃ r, ordered.dropLast = q ++ b :: r

/-- What is known of all cuts of an order. -/
structure OrderOK (T : Task F Y P G) (c : Ctx F) (nc : NodeCtx F Y P) (h : Hist F Y) (isCat : Bool)
    (cumsum ordered : List Nat) : Prop where
  len : ordered.length ≤ c.maxNBins
  read : ∀ q b, IsCut ordered q b →
    b < h.nTrain.length ∧ b < h.wTrain.length ∧ b < h.ySum.length ∧ b < h.nValid.length ∧ b < cumsum.length
  sub : ∀ q b, IsCut ordered q b → h.nTrain.getD b 0 ≤ (accOf T nc h isCat cumsum q).nR
  vle : ∀ q b, IsCut ordered q b → (accOf T nc h isCat cumsum (q ++ [b])).vL ≤ nc.nValid
  childs : ∀ q b, IsCut ordered q b → let a := accOf T nc h isCat cumsum (q ++ [b])
    ∃ i, T.childs a.wL a.wR a.yL a.yR = .ok i
  mono : ∀ q b q' b', IsCut ordered q b → IsCut ordered (q ++ b :: q') b' →
    (accOf T nc h isCat cumsum (q ++ b :: q' ++ [b'])).nR ≤ (accOf T nc h isCat cumsum (q ++ [b])).nR ∧
    (accOf T nc h isCat cumsum (q ++ [b])).vL ≤ (accOf T nc h isCat cumsum (q ++ b :: q' ++ [b'])).vL

/-- The candidate `q ++ [b]` of the order was chosen and stored in `best'`. -/
def Chosen (T : Task F Y P G) (c : Ctx F) (nc : NodeCtx F Y P) (h : Hist F Y) (feature : Nat) (isCat : Bool)
    (cumsum ordered : List Nat) (best best' : Split F) : Prop :=
  ∃ q b i, IsCut ordered q b ∧ Adm c nc (accOf T nc h isCat cumsum (q ++ [b])) ∧
    (let a := accOf T nc h isCat cumsum (q ++ [b]); T.childs a.wL a.wR a.yL a.yR = .ok i) ∧
    best' = saveSplit best nc (accOf T nc h isCat cumsum (q ++ [b])) i feature b isCat ordered

/-- `best'` is at least as good as the candidate `q ++ [b]`. -/
def Beats (T : Task F Y P G) (c : Ctx F) (nc : NodeCtx F Y P) (h : Hist F Y) (isCat : Bool)
    (cumsum q : List Nat) (b : Nat) (best' : Split F) : Prop :=
  Adm c nc (accOf T nc h isCat cumsum (q ++ [b])) → ∀ i,
    (let a := accOf T nc h isCat cumsum (q ++ [b]); T.childs a.wL a.wR a.yL a.yR = .ok i) →
    (let a := accOf T nc h isCat cumsum (q ++ [b]); gainGt (informationGainProxy i.1 i.2 a.wL a.wR) best'.gain = false)

/-- Irreflexivity of `<`, which also holds for floats. -/
def LtIrrefl (F : Type) [Num F] : Prop := ∀ a : F, Num.lt a a = false

/-- `best'` is no worse than `best`. -/
def NoWorse (best best' : Split F) : Prop := ∀ x : F, gainGt x best.gain = false → gainGt x best'.gain = false

theorem tryBins_spec {T : Task F Y P G} {c : Ctx F} {nc : NodeCtx F Y P} {h : Hist F Y} (feature : Nat) {isCat : Bool}
    {cumsum ordered : List Nat} (hO : OrderOK T c nc h isCat cumsum ordered) :
    ∀ (rest pre : List Nat) (best : Split F), ordered.dropLast = pre ++ rest →
      ∃ best', tryBins T c nc h feature isCat cumsum ordered rest (accOf T nc h isCat cumsum pre) best = .ok best' ∧
        (best' = best ∨ Chosen T c nc h feature isCat cumsum ordered best best') ∧
        (GainLaws F → NoWorse best best') ∧
        (GainLaws F → LtIrrefl F → ∀ q b r, rest = q ++ b :: r →
          Beats T c nc h isCat cumsum (pre ++ q) b best') := by
  intro rest
  induction rest with
  | nil =>
    intro pre best _
    exact ⟨best, rfl, Or.inl rfl, fun _ x hx => hx, fun _ _ q b r hr => by simp at hr⟩
  | cons b rest ih =>
    intro pre best hpre
    have hcut : IsCut ordered pre b := ⟨rest, hpre⟩
    obtain ⟨r1, r2, r3, r4, r5⟩ := hO.read pre b hcut
    have hsub := hO.sub pre b hcut
    have hvle := hO.vle pre b hcut
    have hsnoc := accOf_snoc T nc h isCat cumsum pre b
    have g1 : h.nTrain.getD b 0 = h.nTrain[b] := by simp [r1]
    have g2 : h.wTrain.getD b Num.zero = h.wTrain[b] := by simp [r2]
    have g3 : h.ySum.getD b T.zeroY = h.ySum[b] := by simp [r3]
    have g4 : h.nValid.getD b 0 = h.nValid[b] := by simp [r4]
    have g5 : cumsum.getD b 0 = cumsum[b] := by simp [r5]
    -- the new accumulator
    have hv : (if isCat = true then (do let v ← rd h.nValid b; return (accOf T nc h isCat cumsum pre).vL + v)
        else rd cumsum b : M Nat) = .ok (accOf T nc h isCat cumsum (pre ++ [b])).vL := by
      rw [hsnoc]
      simp only [accStep]
      cases isCat
      · simp only [Bool.false_eq_true, if_false, rd_of_lt r5, g5]
      · simp only [if_true, rd_of_lt r4, g4, bind_ok, pure_eq_ok]
    have hacc : accOf T nc h isCat cumsum (pre ++ [b]) =
        { nL := (accOf T nc h isCat cumsum pre).nL + h.nTrain[b]
          nR := (accOf T nc h isCat cumsum pre).nR - h.nTrain[b]
          wL := Num.add (accOf T nc h isCat cumsum pre).wL h.wTrain[b]
          wR := Num.sub (accOf T nc h isCat cumsum pre).wR h.wTrain[b]
          yL := T.plusY (accOf T nc h isCat cumsum pre).yL h.ySum[b]
          yR := T.minusY (accOf T nc h isCat cumsum pre).yR h.ySum[b]
          vL := (accOf T nc h isCat cumsum (pre ++ [b])).vL } := by
      rw [hsnoc]; simp only [accStep, g1, g2, g3]
    obtain ⟨i, hi⟩ := hO.childs pre b hcut
    have hpre' : ordered.dropLast = (pre ++ [b]) ++ rest := by simp [hpre]
    -- the three ways to go on
    have hcons : ∀ best' : Split F, (∀ q b' r, rest = q ++ b' :: r → Beats T c nc h isCat cumsum (pre ++ [b] ++ q) b' best') →
        Beats T c nc h isCat cumsum pre b best' →
        ∀ q b' r, b :: rest = q ++ b' :: r → Beats T c nc h isCat cumsum (pre ++ q) b' best' := by
      intro best' h1 h2 q b' r hq
      cases q with
      | nil => simp at hq; obtain ⟨rfl, rfl⟩ := hq; simpa using h2
      | cons x q =>
        simp at hq
        obtain ⟨rfl, hq⟩ := hq
        have := h1 q b' r hq
        simpa using this
    have hunf : tryBins T c nc h feature isCat cumsum ordered (b :: rest) (accOf T nc h isCat cumsum pre) best =
        (let a := accOf T nc h isCat cumsum (pre ++ [b])
         if a.nL < c.minLeaf ∨ (c.aggregation = true ∧ a.vL < c.minLeaf) then
           tryBins T c nc h feature isCat cumsum ordered rest a best
         else if a.nR < c.minLeaf ∨ (c.aggregation = true ∧ nc.nValid - a.vL < c.minLeaf) then .ok best
         else if gainGt (informationGainProxy i.1 i.2 a.wL a.wR) best.gain then
           tryBins T c nc h feature isCat cumsum ordered rest a (saveSplit best nc a i feature b isCat ordered)
         else tryBins T c nc h feature isCat cumsum ordered rest a best) := by
      have hwL : Num.add (accOf T nc h isCat cumsum pre).wL h.wTrain[b] = (accOf T nc h isCat cumsum (pre ++ [b])).wL := by
        rw [hacc]
      have hwR : Num.sub (accOf T nc h isCat cumsum pre).wR h.wTrain[b] = (accOf T nc h isCat cumsum (pre ++ [b])).wR := by
        rw [hacc]
      have hyL : T.plusY (accOf T nc h isCat cumsum pre).yL h.ySum[b] = (accOf T nc h isCat cumsum (pre ++ [b])).yL := by
        rw [hacc]
      have hyR : T.minusY (accOf T nc h isCat cumsum pre).yR h.ySum[b] = (accOf T nc h isCat cumsum (pre ++ [b])).yR := by
        rw [hacc]
      have hnL : (accOf T nc h isCat cumsum pre).nL + h.nTrain[b] = (accOf T nc h isCat cumsum (pre ++ [b])).nL := by
        rw [hacc]
      have hnR : (accOf T nc h isCat cumsum pre).nR - h.nTrain[b] = (accOf T nc h isCat cumsum (pre ++ [b])).nR := by
        rw [hacc]
      rw [g1] at hsub
      simp only [tryBins, rd_of_lt r1, rd_of_lt r2, rd_of_lt r3, bind_ok, usub_of_le hsub, hv, usub_of_le hvle, hwL, hwR,
        hyL, hyR, hnL, hnR, hi, hO.len, if_true]
      rfl
    rw [hunf]
    simp only
    split
    · rename_i hleft
      obtain ⟨best', e1, e2, e3, e4⟩ := ih (pre ++ [b]) best hpre'
      refine ⟨best', e1, e2, e3, fun L I => hcons best' (e4 L I) ?_⟩
      intro hadm
      exfalso
      rcases hleft with h1 | ⟨h1, h2⟩
      · have := hadm.1; omega
      · have := hadm.2.1 h1; omega
    · rename_i hleft
      split
      · rename_i hright
        refine ⟨best, rfl, Or.inl rfl, fun _ x hx => hx, fun L I => hcons best ?_ ?_⟩
        · intro q b' r hq hadm
          exfalso
          have hcut' : IsCut ordered (pre ++ b :: q) b' := ⟨r, by rw [hpre, hq]; simp⟩
          obtain ⟨m1, m2⟩ := hO.mono pre b q b' hcut hcut'
          have ev : pre ++ [b] ++ q ++ [b'] = pre ++ b :: q ++ [b'] := by simp
          rw [ev] at hadm
          rcases hright with h1 | ⟨h1, h2⟩
          · have := hadm.2.2.1; omega
          · have := hadm.2.2.2 h1; omega
        · intro hadm
          exfalso
          rcases hright with h1 | ⟨h1, h2⟩
          · have := hadm.2.2.1; omega
          · have := hadm.2.2.2 h1; omega
      · rename_i hright
        have hadm : Adm c nc (accOf T nc h isCat cumsum (pre ++ [b])) := by
          push Not at hleft hright
          exact ⟨hleft.1, hleft.2, hright.1, hright.2⟩
        split
        · rename_i hg
          obtain ⟨best', e1, e2, e3, e4⟩ := ih (pre ++ [b])
            (saveSplit best nc (accOf T nc h isCat cumsum (pre ++ [b])) i feature b isCat ordered) hpre'
          refine ⟨best', e1, ?_, ?_, fun L I => hcons best' (e4 L I) ?_⟩
          · right
            rcases e2 with rfl | ⟨q, b', i', c1, c2, c3, c4⟩
            · exact ⟨pre, b, i, hcut, hadm, hi, rfl⟩
            · exact ⟨q, b', i', c1, c2, c3, by rw [c4]; rfl⟩
          · intro L x hx
            exact e3 L x (gainGt_trans L hg hx)
          · intro _ i' hi'
            try simp only at hi' ⊢
            rw [hi] at hi'
            injection hi' with hi'
            subst hi'
            exact e3 L _ (I _)
        · rename_i hg
          obtain ⟨best', e1, e2, e3, e4⟩ := ih (pre ++ [b]) best hpre'
          refine ⟨best', e1, e2, e3, fun L I => hcons best' (e4 L I) ?_⟩
          intro _ i' hi'
          try simp only at hi' ⊢
          rw [hi] at hi'
          injection hi' with hi'
          subst hi'
          exact e3 L _ (by simpa using hg)

theorem tryOrder_spec {T : Task F Y P G} {c : Ctx F} {nc : NodeCtx F Y P} {h : Hist F Y} (feature : Nat) {isCat : Bool}
    {cumsum ordered : List Nat} (hO : OrderOK T c nc h isCat cumsum ordered) (best : Split F) :
    ∃ best', tryOrder T c nc h feature isCat cumsum ordered best = .ok best' ∧
        (best' = best ∨ Chosen T c nc h feature isCat cumsum ordered best best') ∧
        (GainLaws F → NoWorse best best') ∧
        (GainLaws F → LtIrrefl F → ∀ q b, IsCut ordered q b → Beats T c nc h isCat cumsum q b best') := by
  obtain ⟨best', e1, e2, e3, e4⟩ := tryBins_spec feature hO ordered.dropLast [] best (by simp)
  refine ⟨best', e1, e2, e3, ?_⟩
  rintro L I q b ⟨r, hr⟩
  have := e4 L I q b r hr
  simpa using this

end Verif
