import Verif.Spec.Real
import Verif.Proofs.Scratch

set_option linter.unusedSectionVars false

/-! Growing two trees in lockstep on the same rows: the weights of the second one are `κ` times the weights of the first one, labels and
sums over labels are related, impurities are multiplied by `μ` and losses by `lam`. -/
namespace Verif

open Spec

variable {Y P G : Type}

/-- What relates the two tasks. `RY w` relates the sums over labels of a set of samples of weight `w`, `RA w` the running predictions, `RP w` the
final predictions, `RL v` the labels of a sample of weight `v`. The losses are related in nodes with weights in `NZ`. -/
structure TaskSim (T T' : Task ℝ Y P G) where
  κ : ℝ
  μ : ℝ
  lam : ℝ
  NZ : ℝ → Prop
  RL : ℝ → ℝ → ℝ → Prop
  RY : ℝ → Y → Y → Prop
  RA : ℝ → P → P → Prop
  RP : ℝ → P → P → Prop
  κ_pos : 0 < κ
  μ_pos : 0 < μ
  mulL : ∀ {v l l'}, RL v l l' → ∀ m : Nat, RL (v * m) l l'
  zeroY : RY 0 T.zeroY T'.zeroY
  addY : ∀ {w y y' l l'}, RY w y y' → ∀ v, RL v l l' → SameResult (RY (w + v)) (T.addY y v l) (T'.addY y' (κ * v) l')
  plusY : ∀ {w y y' v z z'}, RY w y y' → RY v z z' → RY (w + v) (T.plusY y z) (T'.plusY y' z')
  minusY : ∀ {w y y' v z z'}, RY w y y' → RY v z z' → RY (w - v) (T.minusY y z) (T'.minusY y' z')
  zeroA : RA 0 T.zeroP T'.zeroP
  zeroP : RP 0 T.zeroP T'.zeroP
  addP : ∀ {w p p' l l'}, RA w p p' → ∀ v, RL v l l' → SameResult (RA (w + v)) (T.addP p v l) (T'.addP p' (κ * v) l')
  endP : ∀ {w p p'}, RA w p p' → SameResult (RP w) (T.endP p w) (T'.endP p' (κ * w))
  addLoss : ∀ {w p p' x x' l l'}, RP w p p' → (NZ w → x' = lam * x) → ∀ v, RL v l l' →
    SameResult (fun a b => NZ w → b = lam * a) (T.addLoss p x v l) (T'.addLoss p' x' (κ * v) l')
  childs : ∀ {w y y' v z z'}, RY w y y' → RY v z z' →
    SameResult (fun a b => b = (μ * a.1, μ * a.2)) (T.childs w v y z) (T'.childs (κ * w) (κ * v) y' z')

variable {T T' : Task ℝ Y P G}

/-- The contexts of the two trees. -/
structure CtxR (S : TaskSim T T') (c c' : Ctx ℝ) : Prop where
  eq : c' = { c with y := c'.y, w := c.w.map (S.κ * ·), step := c'.step }
  len : c'.y.length = c.y.length
  labels : ∀ {i : Nat} {l l' : ℝ}, c.y[i]? = some l → c'.y[i]? = some l' → ∀ {v : ℝ}, c.w[i]? = some v → S.RL v l l'

/-- Related statistics of the bins. -/
structure HistR (S : TaskSim T T') (h h' : Hist ℝ Y) : Prop where
  nTrain : h'.nTrain = h.nTrain
  wTrain : h'.wTrain = h.wTrain.map (S.κ * ·)
  nValid : h'.nValid = h.nValid
  wValid : h'.wValid = h.wValid.map (S.κ * ·)
  neTrain : h'.neTrain = h.neTrain
  neValid : h'.neValid = h.neValid
  lenWY : h.ySum.length = h.wTrain.length
  lenY : h'.ySum.length = h.ySum.length
  ySum : ∀ {b : Nat} {w : ℝ} {y y' : Y}, h.wTrain[b]? = some w → h.ySum[b]? = some y → h'.ySum[b]? = some y' → S.RY w y y'

theorem rd_sim {α β : Type} {S : α → β → Prop} {a : List α} {b : List β} {i : Nat} (hl : b.length = a.length)
    (h : ∀ x y, a[i]? = some x → b[i]? = some y → S x y) : SameResult S (rd a i) (rd b i) := by
  by_cases hi : i < a.length
  · obtain ⟨x, hx⟩ : ∃ x, a[i]? = some x := ⟨_, List.getElem?_eq_getElem hi⟩
    obtain ⟨y, hy⟩ : ∃ y, b[i]? = some y := ⟨_, List.getElem?_eq_getElem (hl ▸ hi)⟩
    rw [rd_ok.2 hx, rd_ok.2 hy]
    exact h x y hx hy
  · unfold rd
    rw [List.getElem?_eq_none (by omega), List.getElem?_eq_none (by omega)]
    rfl

theorem rd_map_sim {α β : Type} {a : List α} {i : Nat} (f : α → β) :
    SameResult (fun x y => y = f x ∧ a[i]? = some x) (rd a i) (rd (a.map f) i) := by
  refine rd_sim (by simp) fun x y hx hy => ?_
  rw [List.getElem?_map, hx] at hy
  exact ⟨by simpa using hy.symm, hx⟩

theorem wr_sim {α β : Type} {a : List α} {b : List β} {i : Nat} {x : α} {y : β} (hl : b.length = a.length) :
    SameResult (fun u v => u = a.set i x ∧ v = b.set i y ∧ i < a.length) (wr a i x) (wr b i y) := by
  unfold wr
  by_cases hi : i < a.length
  · rw [if_pos hi, if_pos (hl ▸ hi)]
    exact ⟨rfl, rfl, hi⟩
  · rw [if_neg hi, if_neg (hl ▸ hi)]
    rfl

theorem _root_.Verif.Spec.SameResult.and {α β : Type} {S : α → β → Prop} {Q : α → Prop} {a : M α} {b : M β} (h : SameResult S a b)
    (hq : ∀ x, a = .ok x → Q x) : SameResult (fun x y => S x y ∧ Q x) a b := by
  cases a <;> cases b <;> simp only [SameResult] at h ⊢
  · exact h
  · exact ⟨h, hq _ rfl⟩

section
variable (S : TaskSim T T') {c c' : Ctx ℝ}

theorem trainStep_sim (hc : CtxR S c c') (j : Nat) (first : Bool) {Q : ℝ → P → P → Prop} (hQ : first = true → Q = S.RA)
    (s s' : Hist ℝ Y × ℝ × P) (i : Nat) (h : HistR S s.1 s'.1 ∧ s'.2.1 = S.κ * s.2.1 ∧ Q s.2.1 s.2.2 s'.2.2) :
    SameResult (fun s s' => HistR S s.1 s'.1 ∧ s'.2.1 = S.κ * s.2.1 ∧ Q s.2.1 s.2.2 s'.2.2) (trainStep T c j first s i)
      (trainStep T' c' j first s' i) := by
  obtain ⟨h0, w0, p0⟩ := s
  obtain ⟨h1, w1, p1⟩ := s'
  obtain ⟨hh, rfl, hp⟩ := h
  simp only at hh hp
  unfold trainStep
  simp only
  rw [show c'.fba = c.fba by rw [hc.eq], show c'.w = c.w.map (S.κ * ·) by rw [hc.eq], show c'.maxNBins = c.maxNBins by rw [hc.eq]; rfl]
  refine SameResult.same.bind fun bin _ hb => ?_
  subst hb
  refine (rd_sim (S := fun l l' => ∀ {v : ℝ}, c.w[i]? = some v → S.RL v l l') hc.len fun x y hx hy _ hv => hc.labels hx hy hv).bind fun l l' hl => ?_
  refine (rd_map_sim _).bind ?_
  rintro sw _ ⟨rfl, hsw⟩
  have hl := hl hsw
  refine SameResult.bind (S := fun p p' => Q (if first then w0 + sw else w0) p p') ?_ fun p p' hp' => ?_
  · cases first with
    | true =>
      rw [hQ rfl] at hp ⊢
      exact S.addP hp sw hl
    | false => exact hp
  rw [hh.nTrain, hh.neTrain]
  refine SameResult.same.bind fun n _ hb => ?_
  subst hb
  refine SameResult.same.bind fun ne _ hb => ?_
  subst hb
  refine SameResult.same.bind fun nT _ hb => ?_
  subst hb
  rw [hh.wTrain]
  refine (rd_map_sim _).bind ?_
  rintro wB _ ⟨rfl, hwB⟩
  refine (wr_sim (by simp)).bind ?_
  rintro wT wT' ⟨rfl, rfl, hlt⟩
  refine (rd_sim (S := fun y y' => S.RY wB y y' ∧ bin < h0.ySum.length) hh.lenY fun x y hx hy =>
    ⟨hh.ySum hwB hx hy, (List.getElem?_eq_some_iff.1 hx).1⟩).bind ?_
  rintro yB yB' ⟨hy, hly⟩
  refine (S.addY hy sw hl).bind fun yB1 yB1' hy1 => ?_
  refine (wr_sim hh.lenY).bind ?_
  rintro ys ys' ⟨rfl, rfl, -⟩
  refine SameResult.pure ⟨⟨rfl, ?_, hh.nValid, hh.wValid, rfl, hh.neValid, by simp [hh.lenWY], by simp [hh.lenY], ?_⟩, ?_, hp'⟩
  · rw [List.map_set, show S.κ * Num.add wB sw = Num.add (S.κ * wB) (S.κ * sw) from mul_add _ _ _]
  · intro b w y y' h1 h2 h3
    by_cases hbb : bin = b
    · subst hbb
      rw [List.getElem?_set_self hlt] at h1
      rw [List.getElem?_set_self hly] at h2
      rw [List.getElem?_set_self (hh.lenY ▸ hly)] at h3
      injection h1 with h1
      injection h2 with h2
      injection h3 with h3
      rw [← h1, ← h2, ← h3]
      exact hy1
    · rw [List.getElem?_set_ne hbb] at h1 h2 h3
      exact hh.ySum h1 h2 h3
  · cases first with
    | true => show S.κ * w0 + S.κ * sw = S.κ * (w0 + sw); ring
    | false => rfl

theorem validStep_sim (hc : CtxR S c c') (j : Nat) (first : Bool) {w : ℝ} {p p' : P} (hp : S.RP w p p')
    (s s' : Hist ℝ Y × ℝ × ℝ) (i : Nat) (h : HistR S s.1 s'.1 ∧ s'.2.1 = S.κ * s.2.1 ∧ (S.NZ w → s'.2.2 = S.lam * s.2.2)) :
    SameResult (fun s s' => HistR S s.1 s'.1 ∧ s'.2.1 = S.κ * s.2.1 ∧ (S.NZ w → s'.2.2 = S.lam * s.2.2)) (validStep T c j first p s i)
      (validStep T' c' j first p' s' i) := by
  obtain ⟨h0, w0, l0⟩ := s
  obtain ⟨h1, w1, l1⟩ := s'
  obtain ⟨hh, rfl, hl0⟩ := h
  simp only at hh hl0
  unfold validStep
  simp only
  rw [show c'.fba = c.fba by rw [hc.eq], show c'.w = c.w.map (S.κ * ·) by rw [hc.eq], show c'.maxNBins = c.maxNBins by rw [hc.eq]; rfl]
  refine SameResult.same.bind fun bin _ hb => ?_
  subst hb
  refine (rd_map_sim _).bind ?_
  rintro sw _ ⟨rfl, hsw⟩
  refine SameResult.bind (S := fun a b => S.NZ w → b = S.lam * a) ?_ fun x x' hx => ?_
  · cases first with
    | true =>
      refine (rd_sim (S := S.RL sw) hc.len fun x y hx hy => hc.labels hx hy hsw).bind fun l l' hl => ?_
      exact S.addLoss hp hl0 sw hl
    | false => exact hl0
  rw [hh.nValid, hh.neValid]
  refine SameResult.same.bind fun n _ hb => ?_
  subst hb
  refine SameResult.same.bind fun ne _ hb => ?_
  subst hb
  refine SameResult.same.bind fun nT _ hb => ?_
  subst hb
  rw [hh.wValid]
  refine (rd_map_sim _).bind ?_
  rintro wB _ ⟨rfl, hwB⟩
  refine (wr_sim (by simp)).bind ?_
  rintro wT wT' ⟨rfl, rfl, hlt⟩
  refine SameResult.pure ⟨⟨hh.nTrain, hh.wTrain, rfl, ?_, hh.neTrain, rfl, hh.lenWY, hh.lenY, hh.ySum⟩, ?_, hx⟩
  · rw [List.map_set, show S.κ * Num.add wB sw = Num.add (S.κ * wB) (S.κ * sw) from mul_add _ _ _]
  · cases first with
    | true => show S.κ * w0 + S.κ * sw = S.κ * (w0 + sw); ring
    | false => rfl

/-- Related accumulators of the loop over the features. -/
structure AccR (a a' : NodeAcc ℝ Y P) : Prop where
  hists : List.Forall₂ (HistR S) a.hists a'.hists
  wTrain : a'.wTrain = S.κ * a.wTrain
  wValid : a'.wValid = S.κ * a.wValid
  start : a.hists = [] → a.wTrain = 0 ∧ S.RA a.wTrain a.yPred a'.yPred ∧ S.RP a.wTrain a.yPred a'.yPred ∧ a.loss = 0 ∧ a'.loss = 0
  later : a.hists ≠ [] → S.RP a.wTrain a.yPred a'.yPred ∧ (S.NZ a.wTrain → a'.loss = S.lam * a.loss)

theorem histZero_sim (m : Nat) : HistR S (Hist.zero T m) (Hist.zero T' m) := by
  refine ⟨rfl, ?_, rfl, ?_, rfl, rfl, by simp [Hist.zero], by simp [Hist.zero], ?_⟩
  · simp only [Hist.zero, List.map_replicate]
    rw [show S.κ * (Num.zero : ℝ) = Num.zero from mul_zero _]
  · simp only [Hist.zero, List.map_replicate]
    rw [show S.κ * (Num.zero : ℝ) = Num.zero from mul_zero _]
  · intro b w y y' h1 h2 h3
    simp only [Hist.zero, List.getElem?_replicate] at h1 h2 h3
    split at h1
    · next hb =>
      rw [if_pos hb] at h2 h3
      injection h1 with h1
      injection h2 with h2
      injection h3 with h3
      rw [← h1, ← h2, ← h3]
      exact S.zeroY
    · exact absurd h1 (by simp)

theorem featureStep_sim (hc : CtxR S c c') (train valid : List Nat) (a a' : NodeAcc ℝ Y P) (j : Nat) (h : AccR S a a') :
    SameResult (AccR S) (featureStep T c train valid a j) (featureStep T' c' train valid a' j) := by
  unfold featureStep
  have hemp : a'.hists.isEmpty = a.hists.isEmpty := by
    have := h.hists.length_eq
    cases ha : a.hists <;> cases ha' : a'.hists <;> simp_all
  simp only [hemp]
  rw [show c'.maxNBins = c.maxNBins by rw [hc.eq]; rfl, show c'.aggregation = c.aggregation by rw [hc.eq]]
  refine (SameResult.foldlM (S := fun s s' => HistR S s.1 s'.1 ∧ s'.2.1 = S.κ * s.2.1 ∧
    (if a.hists.isEmpty = true then S.RA else fun w p p' => w = a.wTrain ∧ S.RP w p p') s.2.1 s.2.2 s'.2.2)
    (fun s s' x hs => trainStep_sim S hc j _ (fun hf => by rw [if_pos hf]) s s' x hs)
    (s := (Hist.zero T c.maxNBins, a.wTrain, a.yPred)) (s' := (Hist.zero T' c.maxNBins, a'.wTrain, a'.yPred)) ⟨histZero_sim S _, h.wTrain, ?_⟩).bind ?_
  · split
    · next he => exact (h.start (List.isEmpty_iff.1 he)).2.1
    · next he => exact ⟨rfl, (h.later (fun h0 => he (List.isEmpty_iff.2 h0))).1⟩
  rintro ⟨hx, wx, px⟩ ⟨hy, wy, py⟩ ⟨hh, hw, hp⟩
  simp only at hh hw hp ⊢
  subst hw
  have hloss : S.NZ wx → a'.loss = S.lam * a.loss := by
    intro hx0
    cases he : a.hists.isEmpty with
    | true =>
      obtain ⟨-, -, -, e1, e2⟩ := h.start (List.isEmpty_iff.1 he)
      rw [e1, e2, mul_zero]
    | false =>
      rw [he] at hp
      exact (h.later (fun h0 => by rw [h0] at he; exact absurd he (by simp))).2 (hp.1 ▸ hx0)
  refine SameResult.bind (S := S.RP wx) ?_ fun p p' hp' => ?_
  · split
    · next he =>
      rw [if_pos he] at hp
      exact S.endP hp
    · next he =>
      rw [if_neg he] at hp
      exact hp.2
  cases c.aggregation with
  | false =>
    exact SameResult.pure ⟨List.rel_append h.hists (.cons hh .nil), rfl, h.wValid, fun h0 => absurd h0 (by simp), fun _ => ⟨hp', hloss⟩⟩
  | true =>
    refine (SameResult.foldlM (fun s s' x hs => validStep_sim S hc j _ hp' s s' x hs) (s := (hx, a.wValid, a.loss))
      (s' := (hy, a'.wValid, a'.loss)) ⟨hh, h.wValid, hloss⟩).bind ?_
    rintro ⟨hx', wx', lx'⟩ ⟨hy', wy', ly'⟩ ⟨hh', hw', hl'⟩
    exact SameResult.pure ⟨List.rel_append h.hists (.cons hh' .nil), rfl, hw', fun h0 => absurd h0 (by simp), fun _ => ⟨hp', hl'⟩⟩

/-- Related node contexts. -/
structure NcR (nc nc' : NodeCtx ℝ Y P) : Prop where
  hists : List.Forall₂ (HistR S) nc.hists nc'.hists
  yPred : S.RP nc.wTrain nc.yPred nc'.yPred
  nTrain : nc'.nTrain = nc.nTrain
  nValid : nc'.nValid = nc.nValid
  loss : S.NZ nc.wTrain → nc'.loss = S.lam * nc.loss
  wTrain : nc'.wTrain = S.κ * nc.wTrain
  wValid : nc'.wValid = S.κ * nc.wValid

theorem nodeStats_sim (hc : CtxR S c c') (features train valid : List Nat) (nT nV : Nat) :
    SameResult (NcR S) (nodeStats T c features train valid nT nV) (nodeStats T' c' features train valid nT nV) := by
  unfold nodeStats
  refine (SameResult.foldlM (fun s s' x hs => featureStep_sim S hc train valid s s' x hs)
    ⟨.nil, (mul_zero _).symm, (mul_zero _).symm, fun _ => ⟨rfl, S.zeroA, S.zeroP, rfl, rfl⟩, fun h => absurd rfl h⟩).bind fun a a' h => ?_
  refine SameResult.pure ⟨h.hists, ?_, rfl, rfl, ?_, h.wTrain, h.wValid⟩
  · by_cases he : a.hists = []
    · exact (h.start he).2.2.1
    · exact (h.later he).1
  · by_cases he : a.hists = []
    · obtain ⟨-, -, -, e1, e2⟩ := h.start he
      exact fun _ => by rw [e1, e2, mul_zero]
    · exact (h.later he).2

end

/-! ### The weights of the bins add up to the weight of the node -/

/-- Weight of a sample. -/
def wAt (c : Ctx ℝ) (i : Nat) : ℝ := (c.w[i]?).getD 0

theorem sum_set (l : List ℝ) (i : Nat) (x v : ℝ) (h : l[i]? = some x) : (l.set i (x + v)).sum = l.sum + v := by
  induction l generalizing i with
  | nil => simp at h
  | cons a l ih =>
    cases i with
    | zero =>
      simp only [List.getElem?_cons_zero, Option.some.injEq] at h
      simp only [List.set_cons_zero, List.sum_cons, h]
      ring
    | succ i =>
      simp only [List.getElem?_cons_succ] at h
      simp only [List.set_cons_succ, List.sum_cons, ih i h]
      ring

theorem trainStep_sum {c : Ctx ℝ} {j : Nat} {first : Bool} {s s' : Hist ℝ Y × ℝ × P} {i : Nat} (h : trainStep T c j first s i = .ok s') :
    s'.1.wTrain.sum = s.1.wTrain.sum + wAt c i ∧ s'.2.1 = if first then s.2.1 + wAt c i else s.2.1 := by
  obtain ⟨h0, w0, p0⟩ := s
  unfold trainStep at h
  simp only [bind_eq_ok] at h
  obtain ⟨bin, -, l, -, sw, hsw, p, -, n, -, ne, -, nT, -, wB, hwB, wT, hwT, yB, -, yB', -, ys, -, h⟩ := h
  have hw : wAt c i = sw := by unfold wAt; rw [rd_ok.1 hsw]; rfl
  injection h with h
  obtain ⟨-, rfl⟩ := wr_ok.1 hwT
  rw [← h, hw]
  refine ⟨sum_set _ _ _ _ (rd_ok.1 hwB), rfl⟩

theorem trainFold_sum {c : Ctx ℝ} {j : Nat} {first : Bool} {l : List Nat} {s s' : Hist ℝ Y × ℝ × P}
    (h : l.foldlM (trainStep T c j first) s = .ok s') :
    s'.1.wTrain.sum = s.1.wTrain.sum + (l.map (wAt c)).sum ∧ s'.2.1 = if first then s.2.1 + (l.map (wAt c)).sum else s.2.1 := by
  induction l generalizing s with
  | nil =>
    injection h with h
    subst h
    simp
  | cons x l ih =>
    rw [List.foldlM_cons, bind_eq_ok] at h
    obtain ⟨s1, h1, h⟩ := h
    obtain ⟨a1, a2⟩ := trainStep_sum h1
    obtain ⟨b1, b2⟩ := ih h
    rw [b1, b2, a1, a2]
    cases first <;> simp [add_assoc]

theorem validStep_keeps {c : Ctx ℝ} {j : Nat} {first : Bool} {p : P} {s s' : Hist ℝ Y × ℝ × ℝ} {i : Nat} (h : validStep T c j first p s i = .ok s') :
    s'.1.wTrain = s.1.wTrain := by
  obtain ⟨h0, w0, p0⟩ := s
  unfold validStep at h
  simp only [bind_eq_ok] at h
  obtain ⟨bin, -, sw, -, p, -, n, -, ne, -, nT, -, wB, -, wT, -, h⟩ := h
  injection h with h
  rw [← h]

theorem featureStep_sum {c : Ctx ℝ} {train valid : List Nat} {a a' : NodeAcc ℝ Y P} {j : Nat} (h : featureStep T c train valid a j = .ok a')
    (ha : (a.hists = [] → a.wTrain = 0) ∧ ∀ x ∈ a.hists, x.wTrain.sum = a.wTrain ∧ a.wTrain = (train.map (wAt c)).sum) :
    a'.hists ≠ [] ∧ ∀ x ∈ a'.hists, x.wTrain.sum = a'.wTrain ∧ a'.wTrain = (train.map (wAt c)).sum := by
  unfold featureStep at h
  simp only at h
  rw [bind_eq_ok] at h
  obtain ⟨⟨hx, wx, px⟩, h1, h⟩ := h
  obtain ⟨e1, e2⟩ := trainFold_sum h1
  have hz : (Hist.zero T c.maxNBins : Hist ℝ Y).wTrain.sum = 0 := by
    show (List.replicate c.maxNBins (0 : ℝ)).sum = 0
    simp
  simp only [hz, zero_add] at e1 e2
  have hwx : wx = (train.map (wAt c)).sum ∧ ∀ x ∈ a.hists, a.wTrain = wx := by
    cases he : a.hists with
    | nil =>
      rw [he] at e2
      simp only [List.isEmpty_nil, if_true, ha.1 he, zero_add] at e2
      exact ⟨e2, by simp⟩
    | cons x l =>
      rw [he] at e2
      simp only [List.isEmpty_cons, Bool.false_eq_true, if_false] at e2
      exact ⟨by rw [e2]; exact (ha.2 x (by rw [he]; simp)).2, fun _ _ => e2.symm⟩
  have key : ∀ h' : Hist ℝ Y, h'.wTrain = hx.wTrain → ∀ x ∈ a.hists ++ [h'], x.wTrain.sum = wx ∧ wx = (train.map (wAt c)).sum := by
    intro h' e x hxm
    rcases List.mem_append.1 hxm with h3 | h3
    · exact ⟨by rw [(ha.2 x h3).1, hwx.2 x h3], hwx.1⟩
    · rw [List.mem_singleton.1 h3, e, e1]
      exact ⟨hwx.1.symm, hwx.1⟩
  rw [bind_eq_ok] at h
  obtain ⟨p, -, h⟩ := h
  split at h
  · rw [bind_eq_ok] at h
    obtain ⟨⟨hv, wv, lv⟩, h2, h⟩ := h
    injection h with h
    rw [← h]
    refine ⟨by simp, key hv ?_⟩
    exact foldlM_inv_of_ok (I := fun _ (s : Hist ℝ Y × ℝ × ℝ) => s.1.wTrain = hx.wTrain) rfl h2
      (fun _ _ _ _ _ _ hI he => (validStep_keeps he).trans hI)
  · injection h with h
    rw [← h]
    exact ⟨by simp, key hx rfl⟩

theorem nodeStats_sum {c : Ctx ℝ} {features train valid : List Nat} {nT nV : Nat} {nc : NodeCtx ℝ Y P}
    (h : nodeStats T c features train valid nT nV = .ok nc) : ∀ x ∈ nc.hists, x.wTrain.sum = nc.wTrain := by
  unfold nodeStats at h
  rw [bind_eq_ok] at h
  obtain ⟨a, h1, h⟩ := h
  injection h with h
  rw [← h]
  have := foldlM_inv_of_ok (I := fun _ (a : NodeAcc ℝ Y P) => (a.hists = [] → a.wTrain = 0) ∧
      ∀ x ∈ a.hists, x.wTrain.sum = a.wTrain ∧ a.wTrain = (train.map (wAt c)).sum) ⟨fun _ => rfl, by simp⟩ h1
    (fun _ _ _ _ _ _ hI he => by
      obtain ⟨e1, e2⟩ := featureStep_sum he hI
      exact ⟨fun h0 => absurd h0 e1, e2⟩)
  exact fun x hx => (this.2 x hx).1

end Verif
