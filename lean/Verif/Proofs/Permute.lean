import Verif.Proofs.Rescale
import Verif.Proofs.OutOfBag

set_option linter.unusedSectionVars false

/-! Growing two trees in lockstep on the same rows with the bins of categorical features permuted. -/
namespace Verif.Bins

open Spec

/-! ### Permuted lists -/

/-- `l'` has at place `σ b` what `l` has at place `b`. -/
def PermL {α : Type} (σ : Equiv.Perm Nat) (l l' : List α) : Prop := l'.length = l.length ∧ ∀ b, l'[σ b]? = l[b]?

section
variable {α : Type} {σ : Equiv.Perm Nat} {l l' : List α}

theorem PermL.rd (h : PermL σ l l') (b : Nat) : Verif.rd l' (σ b) = Verif.rd l b := by
  unfold Verif.rd
  rw [h.2]

theorem PermL.lt (h : PermL σ l l') (b : Nat) : σ b < l.length ↔ b < l.length := by
  have := h.2 b
  constructor
  · intro h1
    by_contra h2
    rw [List.getElem?_eq_none (l := l) (by omega), List.getElem?_eq_none_iff, h.1] at this
    omega
  · intro h1
    by_contra h2
    rw [List.getElem?_eq_none (by rw [h.1]; omega)] at this
    have := List.getElem?_eq_none_iff.1 this.symm
    omega

theorem PermL.wr (h : PermL σ l l') (b : Nat) (x : α) : SameResult (PermL σ) (Verif.wr l b x) (Verif.wr l' (σ b) x) := by
  unfold Verif.wr
  by_cases hb : b < l.length
  · have hb' : σ b < l'.length := by rw [h.1, h.lt]; exact hb
    rw [if_pos hb, if_pos hb']
    refine SameResult.ok ⟨by simp [h.1], fun c => ?_⟩
    by_cases hc : b = c
    · subst hc
      rw [List.getElem?_set_self hb, List.getElem?_set_self hb']
    · rw [List.getElem?_set_ne hc, List.getElem?_set_ne (fun e => hc (σ.injective e)), h.2]
  · have hb' : ¬σ b < l'.length := by rw [h.1, h.lt]; exact hb
    rw [if_neg hb, if_neg hb']
    rfl

theorem PermL.replicate {n : Nat} (hn : ∀ b, σ b < n ↔ b < n) (x : α) : PermL σ (List.replicate n x) (List.replicate n x) := by
  refine ⟨rfl, fun b => ?_⟩
  simp only [List.getElem?_replicate, hn]

theorem PermL.one (h : PermL 1 l l') : l' = l := List.ext_getElem? fun i => h.2 i

theorem filterMap_range (l : List α) : (List.range l.length).filterMap (fun i => l[i]?) = l := by
  induction l with
  | nil => rfl
  | cons a l ih =>
    rw [List.length_cons, List.range_succ_eq_map, List.filterMap_cons]
    simp only [List.getElem?_cons_zero, List.filterMap_map]
    congr 1

theorem PermL.perm (h : PermL σ l l') : l'.Perm l := by
  have hr : (List.range l.length).Perm ((List.range l.length).map σ) := by
    refine (List.perm_ext_iff_of_nodup List.nodup_range (List.nodup_range.map σ.injective)).2 fun b => ?_
    simp only [List.mem_range, List.mem_map]
    constructor
    · intro hb
      refine ⟨σ.symm b, ?_, by simp⟩
      rw [← h.lt]
      simpa using hb
    · rintro ⟨a, ha, rfl⟩
      exact (h.lt a).2 ha
  have h1 := hr.filterMap (fun i => l'[i]?)
  rw [List.filterMap_map] at h1
  have h2 : (List.range l.length).filterMap ((fun i => l'[i]?) ∘ σ) = l := by
    rw [show ((fun i => l'[i]?) ∘ σ) = fun i => l[i]? from funext h.2]
    exact filterMap_range l
  rw [h2, ← h.1, filterMap_range] at h1
  exact h1

end

theorem _root_.Verif.Spec.SameResult.foldlM_mem {α σ τ : Type} {S : σ → τ → Prop} {f : σ → α → M σ} {g : τ → α → M τ} {l : List α}
    (h : ∀ s s' x, x ∈ l → S s s' → SameResult S (f s x) (g s' x)) {s : σ} {s' : τ} (hs : S s s') :
    SameResult S (l.foldlM f s) (l.foldlM g s') := by
  induction l generalizing s s' with
  | nil => exact SameResult.pure hs
  | cons x l ih =>
    rw [List.foldlM_cons, List.foldlM_cons]
    exact (h s s' x (by simp) hs).bind fun a b hab => ih (fun s s' y hy => h s s' y (by simp [hy])) hab

/-! ### Node statistics -/

variable {F Y P G : Type} [Num F]

/-- The second dataset is the first one with the bins of feature `j` permuted by `π j`. -/
structure FbaP (π : Nat → Equiv.Perm Nat) (b b' : FBA) : Prop where
  rows : b'.nSamples = b.nSamples
  maxs : b'.maxValues = b.maxValues
  vals : ∀ i j, i < b.nSamples → SameResult (fun v v' => v' = π j v) (b.getValue i j) (b'.getValue i j)

/-- The contexts of the two trees. -/
structure CtxP (π : Nat → Equiv.Perm Nat) (c c' : Ctx F) : Prop where
  eq : c' = { c with fba := c'.fba }
  fba : FbaP π c.fba c'.fba
  range : ∀ j b, π j b < c.maxNBins ↔ b < c.maxNBins
  nonCat : ∀ j, c.isCategorical[j]? = some false → π j = 1

/-- What the task has to satisfy: sums over labels can be added in any order, and the orders of categories depend on the sums only. -/
structure TaskP (T : Task F Y P G) : Prop where
  comm : ∀ y a b, T.plusY (T.plusY y a) b = T.plusY (T.plusY y b) a
  orders : ∀ (σ : Equiv.Perm Nat) (ne : List Nat) (ys ys' : List Y) (g : G), PermL σ ys ys' →
    SameResult (fun x y => y = (x.1.map (List.map σ), x.2)) (T.orders ne ys g) (T.orders (ne.map σ) ys' g)

/-- Permuted statistics of the bins. -/
structure HistP (σ : Equiv.Perm Nat) (h h' : Hist F Y) : Prop where
  nTrain : PermL σ h.nTrain h'.nTrain
  wTrain : PermL σ h.wTrain h'.wTrain
  nValid : PermL σ h.nValid h'.nValid
  wValid : PermL σ h.wValid h'.wValid
  neTrain : h'.neTrain = h.neTrain.map σ
  neValid : h'.neValid = h.neValid.map σ
  ySum : PermL σ h.ySum h'.ySum

theorem HistP.one {h h' : Hist F Y} (hh : HistP 1 h h') : h' = h := by
  obtain ⟨a1, a2, a3, a4, a5, a6, a7⟩ := h
  obtain ⟨b1, b2, b3, b4, b5, b6, b7⟩ := h'
  have e1 := hh.nTrain.one
  have e2 := hh.wTrain.one
  have e3 := hh.nValid.one
  have e4 := hh.wValid.one
  have e5 : b5 = a5.map (1 : Equiv.Perm Nat) := hh.neTrain
  have e6 : b6 = a6.map (1 : Equiv.Perm Nat) := hh.neValid
  have e7 := hh.ySum.one
  simp only at e1 e2 e3 e4 e7
  rw [show ((1 : Equiv.Perm Nat) : Nat → Nat) = id from rfl, List.map_id] at e5 e6
  rw [e1, e2, e3, e4, e5, e6, e7]

theorem pushBin_perm (σ : Equiv.Perm Nat) (cap : Nat) (ne : List Nat) (bin : Nat) :
    SameResult (fun a b => b = a.map σ) (pushBin cap ne bin) (pushBin cap (ne.map σ) (σ bin)) := by
  unfold pushBin
  rw [List.length_map]
  split
  · exact SameResult.ok (by simp)
  · rfl

section
variable {π : Nat → Equiv.Perm Nat} {c c' : Ctx F} {T : Task F Y P G}

theorem CtxP.maxNBins (h : CtxP π c c') : c'.maxNBins = c.maxNBins := by
  unfold Ctx.maxNBins
  rw [h.fba.maxs]

theorem trainStep_perm (hc : CtxP π c c') (j : Nat) (first : Bool) (s s' : Hist F Y × F × P) (i : Nat) (hi : i < c.fba.nSamples)
    (h : HistP (π j) s.1 s'.1 ∧ s'.2 = s.2) :
    SameResult (fun s s' => HistP (π j) s.1 s'.1 ∧ s'.2 = s.2) (trainStep T c j first s i) (trainStep T c' j first s' i) := by
  obtain ⟨h0, w0, p0⟩ := s
  obtain ⟨h1, w1, p1⟩ := s'
  obtain ⟨hh, he⟩ := h
  cases he
  simp only at hh
  unfold trainStep
  simp only
  rw [show c'.y = c.y by rw [hc.eq], show c'.w = c.w by rw [hc.eq], hc.maxNBins]
  refine (hc.fba.vals i j hi).bind ?_
  rintro bin _ rfl
  refine SameResult.same.bind ?_
  rintro l _ rfl
  refine SameResult.same.bind ?_
  rintro sw _ rfl
  refine SameResult.same.bind ?_
  rintro p _ rfl
  rw [hh.nTrain.rd, hh.neTrain]
  refine SameResult.same.bind ?_
  rintro n _ rfl
  refine SameResult.bind (S := fun a b => b = a.map (π j)) ?_ ?_
  · split
    · exact pushBin_perm _ _ _ _
    · exact SameResult.ok rfl
  rintro ne _ rfl
  refine (hh.nTrain.wr _ _).bind fun nT nT' hnT => ?_
  rw [hh.wTrain.rd]
  refine SameResult.same.bind ?_
  rintro wB _ rfl
  refine (hh.wTrain.wr _ _).bind fun wT wT' hwT => ?_
  rw [hh.ySum.rd]
  refine SameResult.same.bind ?_
  rintro yB _ rfl
  refine SameResult.same.bind ?_
  rintro yB1 _ rfl
  refine (hh.ySum.wr _ _).bind fun ys ys' hys => ?_
  exact SameResult.pure ⟨⟨hnT, hwT, hh.nValid, hh.wValid, rfl, hh.neValid, hys⟩, rfl⟩

theorem validStep_perm (hc : CtxP π c c') (j : Nat) (first : Bool) (p : P) (s s' : Hist F Y × F × F) (i : Nat) (hi : i < c.fba.nSamples)
    (h : HistP (π j) s.1 s'.1 ∧ s'.2 = s.2) :
    SameResult (fun s s' => HistP (π j) s.1 s'.1 ∧ s'.2 = s.2) (validStep T c j first p s i) (validStep T c' j first p s' i) := by
  obtain ⟨h0, w0, p0⟩ := s
  obtain ⟨h1, w1, p1⟩ := s'
  obtain ⟨hh, he⟩ := h
  cases he
  simp only at hh
  unfold validStep
  simp only
  rw [show c'.y = c.y by rw [hc.eq], show c'.w = c.w by rw [hc.eq], hc.maxNBins]
  refine (hc.fba.vals i j hi).bind ?_
  rintro bin _ rfl
  refine SameResult.same.bind ?_
  rintro sw _ rfl
  refine SameResult.same.bind ?_
  rintro p _ rfl
  rw [hh.nValid.rd, hh.neValid]
  refine SameResult.same.bind ?_
  rintro n _ rfl
  refine SameResult.bind (S := fun a b => b = a.map (π j)) ?_ ?_
  · split
    · exact pushBin_perm _ _ _ _
    · exact SameResult.ok rfl
  rintro ne _ rfl
  refine (hh.nValid.wr _ _).bind fun nT nT' hnT => ?_
  rw [hh.wValid.rd]
  refine SameResult.same.bind ?_
  rintro wB _ rfl
  refine (hh.wValid.wr _ _).bind fun wT wT' hwT => ?_
  exact SameResult.pure ⟨⟨hh.nTrain, hh.wTrain, hnT, hwT, hh.neTrain, rfl, hh.ySum⟩, rfl⟩

theorem histZero_perm {σ : Equiv.Perm Nat} {m : Nat} (hm : ∀ b, σ b < m ↔ b < m) : HistP σ (Hist.zero T m) (Hist.zero T m) :=
  ⟨.replicate hm _, .replicate hm _, .replicate hm _, .replicate hm _, rfl, rfl, .replicate hm _⟩

/-- Permuted statistics for the features `fs`. -/
structure HistsP (π : Nat → Equiv.Perm Nat) (fs : List Nat) (hs hs' : List (Hist F Y)) : Prop where
  len : hs.length = fs.length
  len' : hs'.length = fs.length
  at' : ∀ (i j : Nat) h h', fs[i]? = some j → hs[i]? = some h → hs'[i]? = some h' → HistP (π j) h h'

theorem HistsP.push {fs : List Nat} {hs hs' : List (Hist F Y)} (h : HistsP π fs hs hs') {j : Nat} {x x' : Hist F Y} (hx : HistP (π j) x x') :
    HistsP π (fs ++ [j]) (hs ++ [x]) (hs' ++ [x']) := by
  refine ⟨by simp [h.len], by simp [h.len'], fun i k y y' h1 h2 h3 => ?_⟩
  by_cases hi : i < fs.length
  · rw [List.getElem?_append_left hi] at h1
    rw [List.getElem?_append_left (by rw [h.len]; exact hi)] at h2
    rw [List.getElem?_append_left (by rw [h.len']; exact hi)] at h3
    exact h.at' i k y y' h1 h2 h3
  · have hi' : i < (fs ++ [j]).length := (List.getElem?_eq_some_iff.1 h1).1
    obtain rfl : i = fs.length := by simp at hi'; omega
    rw [List.getElem?_concat_length] at h1
    rw [← h.len, List.getElem?_concat_length] at h2
    rw [← h.len', List.getElem?_concat_length] at h3
    injection h1 with h1
    injection h2 with h2
    injection h3 with h3
    rw [← h1, ← h2, ← h3]
    exact hx

/-- Related accumulators. -/
structure AccP (π : Nat → Equiv.Perm Nat) (fs : List Nat) (a a' : NodeAcc F Y P) : Prop where
  hists : HistsP π fs a.hists a'.hists
  eq : a' = { a with hists := a'.hists }

theorem featureStep_perm (hc : CtxP π c c') {train valid : List Nat} (ht : ∀ i ∈ train, i < c.fba.nSamples) (hv : ∀ i ∈ valid, i < c.fba.nSamples)
    {fs : List Nat} {a a' : NodeAcc F Y P} (j : Nat) (h : AccP π fs a a') :
    SameResult (AccP π (fs ++ [j])) (featureStep T c train valid a j) (featureStep T c' train valid a' j) := by
  unfold featureStep
  have hemp : a'.hists.isEmpty = a.hists.isEmpty := by
    have := h.hists.len
    have := h.hists.len'
    cases ha : a.hists <;> cases ha' : a'.hists <;> simp_all <;> omega
  simp only [hemp]
  rw [hc.maxNBins, show c'.aggregation = c.aggregation by rw [hc.eq], show a'.wTrain = a.wTrain by rw [h.eq],
    show a'.yPred = a.yPred by rw [h.eq], show a'.wValid = a.wValid by rw [h.eq], show a'.loss = a.loss by rw [h.eq]]
  refine (SameResult.foldlM_mem (fun s s' x hx hs => trainStep_perm hc j _ s s' x (ht x hx) hs) (s := (Hist.zero T c.maxNBins, a.wTrain, a.yPred))
    (s' := (Hist.zero T c.maxNBins, a.wTrain, a.yPred)) ⟨histZero_perm (hc.range j), rfl⟩).bind ?_
  rintro ⟨hx, wx, px⟩ ⟨hy, wy, py⟩ ⟨hh, he⟩
  cases he
  simp only at hh ⊢
  refine SameResult.same.bind ?_
  rintro p _ rfl
  cases c.aggregation with
  | false => exact SameResult.pure ⟨h.hists.push hh, rfl⟩
  | true =>
    refine (SameResult.foldlM_mem (fun s s' x hx hs => validStep_perm hc j _ p s s' x (hv x hx) hs) (s := (hx, a.wValid, a.loss))
      (s' := (hy, a.wValid, a.loss)) ⟨hh, rfl⟩).bind ?_
    rintro ⟨hx', wx', lx'⟩ ⟨hy', wy', ly'⟩ ⟨hh', he⟩
    cases he
    exact SameResult.pure ⟨h.hists.push hh', rfl⟩

theorem featureFold_perm (hc : CtxP π c c') {train valid : List Nat} (ht : ∀ i ∈ train, i < c.fba.nSamples) (hv : ∀ i ∈ valid, i < c.fba.nSamples)
    (features : List Nat) {fs : List Nat} {a a' : NodeAcc F Y P} (h : AccP π fs a a') :
    SameResult (AccP π (fs ++ features)) (features.foldlM (featureStep T c train valid) a) (features.foldlM (featureStep T c' train valid) a') := by
  induction features generalizing fs a a' with
  | nil =>
    rw [List.append_nil]
    exact SameResult.pure h
  | cons j features ih =>
    rw [List.foldlM_cons, List.foldlM_cons]
    refine (featureStep_perm hc ht hv j h).bind fun b b' hb => ?_
    have := ih hb
    rwa [List.append_assoc] at this

/-- Related node contexts. -/
structure NcP (π : Nat → Equiv.Perm Nat) (fs : List Nat) (nc nc' : NodeCtx F Y P) : Prop where
  hists : HistsP π fs nc.hists nc'.hists
  eq : nc' = { nc with hists := nc'.hists }

theorem nodeStats_perm (hc : CtxP π c c') (features : List Nat) {train valid : List Nat} (ht : ∀ i ∈ train, i < c.fba.nSamples)
    (hv : ∀ i ∈ valid, i < c.fba.nSamples) (nT nV : Nat) :
    SameResult (NcP π features) (nodeStats T c features train valid nT nV) (nodeStats T c' features train valid nT nV) := by
  unfold nodeStats
  refine (featureFold_perm hc ht hv features (fs := []) ⟨⟨rfl, rfl, fun i j h h' h1 => absurd h1 (by simp)⟩, rfl⟩).bind fun a a' h => ?_
  refine SameResult.pure ⟨h.hists, ?_⟩
  simp only
  rw [h.eq]

end

end Verif.Bins
