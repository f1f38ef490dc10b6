import Verif.Proofs.Lockstep
import Verif.Proofs.SplitSearch
import Verif.Proofs.PermuteSplit

/-! # An additional last column that brings nothing new grows the same tree -/
set_option linter.unusedSectionVars false
namespace Verif.Extra

open Spec

variable {F Y P G : Type} [Num F]

theorem RelM.foldlM_mem {α σ τ : Type} {S : σ → τ → Prop} {f : σ → α → M σ} {g : τ → α → M τ} {l : List α}
    (h : ∀ s s' x, x ∈ l → S s s' → RelM S (f s x) (g s' x)) {s : σ} {s' : τ} (hs : S s s') : RelM S (l.foldlM f s) (l.foldlM g s') := by
  induction l generalizing s s' with
  | nil => exact RelM.pure' hs
  | cons x l ih =>
    rw [List.foldlM_cons, List.foldlM_cons]
    exact (h s s' x (by simp) hs).bind fun u v huv => ih (fun s s' y hy => h s s' y (by simp [hy])) huv

/-! ### Trying the same bins twice -/

/-- The second split has at least the gain of the first one. -/
def GainLe (s s' : Split F) : Prop := ∀ g, gainGt g s'.gain = true → gainGt g s.gain = true

theorem GainLe.refl (s : Split F) : GainLe s s := fun _ h => h

theorem GainLe.trans {s t u : Split F} (h : GainLe s t) (h' : GainLe t u) : GainLe s u := fun g hg => h g (h' g hg)

theorem GainLe.better (hL : GainLaws F) {s s' : Split F} {g : F} (h : gainGt g s.gain = true) (e : s'.gain = some g) : GainLe s s' := by
  intro x hx
  rw [e] at hx
  cases hg : gainGt x s.gain with
  | true => rfl
  | false => rw [gainGt_trans hL h hg] at hx; cases hx

theorem gain_self (hirr : ∀ a : F, Num.lt a a = false) {s s' : Split F} {g : F} (e : s.gain = some g) (h : GainLe s s') : gainGt g s'.gain = false := by
  cases hg : gainGt g s'.gain with
  | false => rfl
  | true =>
    have := h g hg
    rw [e] at this
    simp only [gainGt, hirr] at this
    cases this

/-- The parts of two contexts that the search of a split uses. -/
structure SameSearch (c c' : Ctx F) (nc nc' : NodeCtx F Y P) : Prop where
  minLeaf : c'.minLeaf = c.minLeaf
  aggregation : c'.aggregation = c.aggregation
  bins : c'.maxNBins = c.maxNBins
  nTrain : nc'.nTrain = nc.nTrain
  nValid : nc'.nValid = nc.nValid
  wTrain : nc'.wTrain = nc.wTrain

section
variable {T : Task F Y P G} {c c' : Ctx F} {nc nc' : NodeCtx F Y P}

theorem tryBins_same (hs : SameSearch c c' nc nc') (h : Hist F Y) (f : Nat) (isCat : Bool) (cumsum ordered bins : List Nat) (a : TryAcc F Y) (best : Split F) :
    tryBins T c' nc' h f isCat cumsum ordered bins a best = tryBins T c nc h f isCat cumsum ordered bins a best := by
  induction bins generalizing a best with
  | nil => rfl
  | cons b bins ih =>
    unfold tryBins
    simp only [ih, hs.minLeaf, hs.aggregation, hs.bins, hs.nValid]

theorem tryOrder_same (hs : SameSearch c c' nc nc') (h : Hist F Y) (f : Nat) (isCat : Bool) (cumsum ordered : List Nat) (best : Split F) :
    tryOrder T c' nc' h f isCat cumsum ordered best = tryOrder T c nc h f isCat cumsum ordered best := by
  unfold tryOrder
  rw [tryBins_same hs, hs.nTrain, hs.wTrain]

theorem findBestAlong_same (hs : SameSearch c c' nc nc') (h : Hist F Y) {f : Nat} (hf : c'.isCategorical[f]? = c.isCategorical[f]?) (best : Split F) (g : G) :
    findBestAlong T c' nc' h f best g = findBestAlong T c nc h f best g := by
  unfold findBestAlong
  have : rd c'.isCategorical f = rd c.isCategorical f := by unfold rd; rw [hf]
  rw [this, hs.aggregation]
  simp only [tryOrder_same hs]

variable (hL : GainLaws F) (hirr : ∀ a : F, Num.lt a a = false)
include hL hirr

theorem tryBins_twice {h : Hist F Y} {f : Nat} {isCat : Bool} {cumsum ordered : List Nat} (bins : List Nat) : ∀ (a : TryAcc F Y) (best best' : Split F),
    tryBins T c nc h f isCat cumsum ordered bins a best = .ok best' →
    GainLe best best' ∧ ∀ (f' : Nat) (b : Split F), GainLe best' b → tryBins T c nc h f' isCat cumsum ordered bins a b = .ok b := by
  induction bins with
  | nil =>
    intro a best best' e
    cases e
    exact ⟨GainLe.refl _, fun f' b _ => rfl⟩
  | cons x bins ih =>
    intro a best best' e
    unfold tryBins at e
    simp only [bind_eq_ok] at e
    obtain ⟨n, h1, w, h2, y, h3, nR, h4, vL, h5, vR, h6, e⟩ := e
    have key : ∀ (f' : Nat) (b : Split F), tryBins T c nc h f' isCat cumsum ordered (x :: bins) a b = _ := fun f' b => by
      unfold tryBins
      simp only [h1, h2, h3, h4, h5, h6, bind_ok]
      exact rfl
    by_cases c1 : a.nL + n < c.minLeaf ∨ (c.aggregation = true ∧ vL < c.minLeaf)
    · rw [if_pos c1] at e
      obtain ⟨i1, i2⟩ := ih _ _ _ e
      refine ⟨i1, fun f' b hb => ?_⟩
      rw [key, if_pos c1]
      exact i2 f' b hb
    · rw [if_neg c1] at e
      by_cases c2 : nR < c.minLeaf ∨ (c.aggregation = true ∧ vR < c.minLeaf)
      · rw [if_pos c2] at e
        cases e
        refine ⟨GainLe.refl _, fun f' b hb => ?_⟩
        rw [key, if_neg c1, if_pos c2]
      · rw [if_neg c2, bind_eq_ok] at e
        obtain ⟨⟨iL, iR⟩, h7, e⟩ := e
        simp only at e
        by_cases c3 : gainGt (informationGainProxy iL iR (Num.add a.wL w) (Num.sub a.wR w)) best.gain = true
        · rw [if_pos c3] at e
          by_cases c4 : ordered.length ≤ c.maxNBins
          · rw [if_pos c4] at e
            obtain ⟨i1, i2⟩ := ih _ _ _ e
            refine ⟨(GainLe.better hL c3 rfl).trans i1, fun f' b hb => ?_⟩
            have c5 := gain_self hirr rfl (i1.trans hb)
            rw [key, if_neg c1, if_neg c2, h7, bind_ok]
            simp only [c5, Bool.false_eq_true, if_false]
            exact i2 f' b hb
          · rw [if_neg c4] at e
            cases e
        · rw [if_neg c3] at e
          obtain ⟨i1, i2⟩ := ih _ _ _ e
          refine ⟨i1, fun f' b hb => ?_⟩
          have c5 : ¬gainGt (informationGainProxy iL iR (Num.add a.wL w) (Num.sub a.wR w)) b.gain = true := fun h => c3 (i1 _ (hb _ h))
          rw [key, if_neg c1, if_neg c2, h7, bind_ok]
          simp only
          rw [if_neg c5]
          exact i2 f' b hb

theorem orders_twice {h : Hist F Y} {f : Nat} {isCat : Bool} {cumsum : List Nat} (os : List (List Nat)) : ∀ (best best' : Split F),
    os.foldlM (fun best o => tryOrder T c nc h f isCat cumsum o best) best = .ok best' →
    GainLe best best' ∧ ∀ (f' : Nat) (b : Split F), GainLe best' b → os.foldlM (fun best o => tryOrder T c nc h f' isCat cumsum o best) b = .ok b := by
  induction os with
  | nil =>
    intro best best' e
    cases e
    exact ⟨GainLe.refl _, fun f' b _ => rfl⟩
  | cons o os ih =>
    intro best best' e
    rw [List.foldlM_cons, bind_eq_ok] at e
    obtain ⟨b1, e1, e2⟩ := e
    obtain ⟨i1, i2⟩ := tryBins_twice hL hirr _ _ _ _ e1
    obtain ⟨j1, j2⟩ := ih _ _ e2
    refine ⟨i1.trans j1, fun f' b hb => ?_⟩
    rw [List.foldlM_cons, show tryOrder T c nc h f' isCat cumsum o b = .ok b from i2 f' b (j1.trans hb), bind_ok]
    exact j2 f' b hb

/-- The orders do not use the generator. -/
def DetOrders (T : Task F Y P G) : Prop := ∀ ne ys g os g', T.orders ne ys g = .ok (os, g') → ∀ g1, T.orders ne ys g1 = .ok (os, g1)

theorem findBestAlong_twice {h : Hist F Y} {f : Nat} {best best' : Split F} {g g' : G}
    (e : findBestAlong T c nc h f best g = .ok (best', g')) :
    GainLe best best' ∧ ∀ (f' : Nat) (b : Split F) (g1 : G), (c.isCategorical[f]? = some true → DetOrders T) →
      c.isCategorical[f']? = c.isCategorical[f]? → GainLe best' b →
      findBestAlong T c nc h f' b g1 = .ok (b, g1) := by
  unfold findBestAlong at e
  rw [bind_eq_ok] at e
  obtain ⟨isCat, h1, e⟩ := e
  have h1' := rd_ok.1 h1
  cases isCat with
  | true =>
    simp only [if_true, bind_eq_ok] at e
    obtain ⟨⟨os, g2⟩, h2, b1, h3, e⟩ := e
    cases e
    obtain ⟨i1, i2⟩ := orders_twice hL hirr _ _ _ h3
    refine ⟨i1, fun f' b g1 hdet hf hb => ?_⟩
    unfold findBestAlong
    rw [rd_ok.2 (hf.trans h1'), bind_ok]
    simp only [if_true]
    rw [hdet h1' _ _ _ _ _ h2 g1, bind_ok]
    simp only
    rw [i2 f' b hb, bind_ok]
    rfl
  | false =>
    simp only [Bool.false_eq_true, if_false, bind_eq_ok] at e
    obtain ⟨cs, h2, b1, h3, e⟩ := e
    cases e
    obtain ⟨i1, i2⟩ := tryBins_twice hL hirr _ _ _ _ h3
    refine ⟨i1, fun f' b g1 hdet hf hb => ?_⟩
    unfold findBestAlong
    rw [rd_ok.2 (hf.trans h1'), bind_ok]
    simp only [Bool.false_eq_true, if_false]
    rw [h2, bind_ok]
    rw [show tryOrder T c nc h f' false cs (sortNat h.neTrain) b = .ok b from i2 f' b hb, bind_ok]
    rfl

end

/-! ### Node statistics with one more column -/

section
variable {T : Task F Y P G} {c c' : Ctx F}

theorem trainStep_rel {q : Prop} {j j' i : Nat} (hv : RelM (fun x y => x = y) (c.fba.getValue i j) (c'.fba.getValue i j')) (hy : c'.y = c.y) (hw : c'.w = c.w)
    (hb : c'.maxNBins = c.maxNBins) {first first' : Bool} (hf : q → first' = first) {s s' : Hist F Y × F × P} (hs : s.1 = s'.1 ∧ (q → s.2 = s'.2)) :
    RelM (fun x y => x.1 = y.1 ∧ (q → x.2 = y.2)) (trainStep T c j first s i) (trainStep T c' j' first' s' i) := by
  obtain ⟨h, w0, p0⟩ := s
  obtain ⟨h', w1, p1⟩ := s'
  obtain ⟨rfl, hq⟩ := hs
  unfold trainStep
  rw [hy, hw, hb]
  refine hv.bind fun bin _ e => ?_
  subst e
  refine RelM.same.bind fun label _ e => ?_
  subst e
  refine RelM.same.bind fun sw _ e => ?_
  subst e
  refine RelM.bind (S := fun a b => q → a = b) (fun u v hu hv hq' => ?_) fun p p' hp => ?_
  · rw [hf hq', ← (Prod.mk.inj (hq hq')).2, hu] at hv
    injection hv
  refine RelM.same.bind fun n _ e => ?_
  subst e
  refine RelM.same.bind fun ne _ e => ?_
  subst e
  refine RelM.same.bind fun nT _ e => ?_
  subst e
  refine RelM.same.bind fun wB _ e => ?_
  subst e
  refine RelM.same.bind fun wT _ e => ?_
  subst e
  refine RelM.same.bind fun yB _ e => ?_
  subst e
  refine RelM.same.bind fun yB _ e => ?_
  subst e
  refine RelM.same.bind fun yS _ e => ?_
  subst e
  exact RelM.pure' ⟨rfl, fun hq' => by rw [hf hq', hp hq', (Prod.mk.inj (hq hq')).1]⟩

theorem validStep_rel {q : Prop} {j j' i : Nat} (hv : RelM (fun x y => x = y) (c.fba.getValue i j) (c'.fba.getValue i j')) (hy : c'.y = c.y) (hw : c'.w = c.w)
    (hb : c'.maxNBins = c.maxNBins) {first first' : Bool} (hf : q → first' = first) {p p' : P} (hp : q → p = p') {s s' : Hist F Y × F × F}
    (hs : s.1 = s'.1 ∧ (q → s.2 = s'.2)) :
    RelM (fun x y => x.1 = y.1 ∧ (q → x.2 = y.2)) (validStep T c j first p s i) (validStep T c' j' first' p' s' i) := by
  obtain ⟨h, w0, p0⟩ := s
  obtain ⟨h', w1, p1⟩ := s'
  obtain ⟨rfl, hq⟩ := hs
  unfold validStep
  rw [hy, hw, hb]
  refine hv.bind fun bin _ e => ?_
  subst e
  refine RelM.same.bind fun sw _ e => ?_
  subst e
  refine RelM.bind (S := fun a b => q → a = b) (fun u v hu hv hq' => ?_) fun l l' hl => ?_
  · rw [hf hq', ← (Prod.mk.inj (hq hq')).2, ← hp hq', hu] at hv
    injection hv
  refine RelM.same.bind fun n _ e => ?_
  subst e
  refine RelM.same.bind fun ne _ e => ?_
  subst e
  refine RelM.same.bind fun nT _ e => ?_
  subst e
  refine RelM.same.bind fun wB _ e => ?_
  subst e
  refine RelM.same.bind fun wT _ e => ?_
  subst e
  exact RelM.pure' ⟨rfl, fun hq' => by rw [hf hq', hl hq', (Prod.mk.inj (hq hq')).1]⟩

/-- The statistics of a column depend on its values only. -/
theorem featureStep_rel {q : Prop} {j j' : Nat} {train valid : List Nat}
    (hv : ∀ i, i ∈ train ∨ i ∈ valid → RelM (fun x y => x = y) (c.fba.getValue i j) (c'.fba.getValue i j')) (hy : c'.y = c.y) (hw : c'.w = c.w)
    (hb : c'.maxNBins = c.maxNBins) (ha : c'.aggregation = c.aggregation) {a a' : NodeAcc F Y P} (hq : q → a = a') :
    RelM (fun x y => ∃ h, x.hists = a.hists ++ [h] ∧ y.hists = a'.hists ++ [h] ∧ (q → x = y))
      (featureStep T c train valid a j) (featureStep T c' train valid a' j') := by
  unfold featureStep
  rw [ha, hb]
  have hf : q → a'.hists.isEmpty = a.hists.isEmpty := fun h => by rw [hq h]
  refine RelM.bind (S := fun x y => x.1 = y.1 ∧ (q → x.2 = y.2)) ?_ ?_
  · refine RelM.foldlM_mem ?_ ⟨rfl, fun h => by rw [hq h]⟩
    exact fun s s' i hi hs => trainStep_rel (hv i (.inl hi)) hy hw hb hf hs
  rintro ⟨h, w, p⟩ ⟨h', w', p'⟩ ⟨e, hs⟩
  simp only at e hs ⊢
  subst e
  refine RelM.bind (S := fun x y => q → x = y) (fun u v hu hv hq' => ?_) fun p p' hp => ?_
  · obtain ⟨rfl, rfl⟩ := Prod.mk.inj (hs hq')
    rw [← hq hq', hu] at hv
    injection hv
  split
  · refine RelM.bind (S := fun x y => x.1 = y.1 ∧ (q → x.2 = y.2)) ?_ ?_
    · refine RelM.foldlM_mem ?_ ⟨rfl, fun h => by rw [hq h]⟩
      exact fun s s' i hi hs => validStep_rel (hv i (.inr hi)) hy hw hb hf hp hs
    rintro ⟨h, wv, l⟩ ⟨h', wv', l'⟩ ⟨e, hs'⟩
    simp only at e hs' ⊢
    subst e
    refine RelM.pure' ⟨h, rfl, rfl, fun hq' => ?_⟩
    obtain ⟨rfl, rfl⟩ := Prod.mk.inj (hs hq')
    obtain ⟨rfl, rfl⟩ := Prod.mk.inj (hs' hq')
    rw [hp hq', hq hq']
  · refine RelM.pure' ⟨h, rfl, rfl, fun hq' => ?_⟩
    obtain ⟨rfl, rfl⟩ := Prod.mk.inj (hs hq')
    rw [hp hq', hq hq']

theorem trainStep_later {j i : Nat} {s s' : Hist F Y × F × P} (h : trainStep T c j false s i = .ok s') : s'.2 = s.2 := by
  obtain ⟨h0, w, p⟩ := s
  unfold trainStep at h
  simp only [bind_eq_ok] at h
  obtain ⟨_, -, _, -, _, -, p', h1, _, -, _, -, _, -, _, -, _, -, _, -, _, -, _, -, h⟩ := h
  cases h
  simp only [Bool.false_eq_true, if_false] at h1 ⊢
  cases h1
  rfl

theorem validStep_later {j i : Nat} {p : P} {s s' : Hist F Y × F × F} (h : validStep T c j false p s i = .ok s') : s'.2 = s.2 ∧ s'.1.neTrain = s.1.neTrain := by
  obtain ⟨h0, w, l⟩ := s
  unfold validStep at h
  simp only [bind_eq_ok] at h
  obtain ⟨_, -, _, -, l', h1, _, -, _, -, _, -, _, -, _, -, h⟩ := h
  cases h
  simp only [Bool.false_eq_true, if_false] at h1 ⊢
  cases h1
  simp

theorem foldlM_inv {α σ : Type} {I : σ → Prop} {f : σ → α → M σ} {l : List α} (h : ∀ s x s', x ∈ l → I s → f s x = .ok s' → I s') {s s' : σ} (hs : I s)
    (e : l.foldlM f s = .ok s') : I s' := by
  induction l generalizing s with
  | nil => cases e; exact hs
  | cons x l ih =>
    rw [List.foldlM_cons, bind_eq_ok] at e
    obtain ⟨t, h1, h2⟩ := e
    exact ih (fun s y s' hy => h s y s' (by simp [hy])) (h s x t (by simp) hs h1) h2

/-- At most one bin has been seen. -/
def OneBin (v : Nat) (h : Hist F Y) : Prop := h.neTrain = [] ∨ (h.neTrain.length = 1 ∧ ∃ n, h.nTrain[v]? = some (n + 1))

theorem trainStep_one {j i v : Nat} (hv : c.fba.getValue i j = .ok v) {first : Bool} {s s' : Hist F Y × F × P} (hs : OneBin v s.1)
    (h : trainStep T c j first s i = .ok s') : OneBin v s'.1 := by
  obtain ⟨h0, w, p⟩ := s
  unfold trainStep at h
  simp only [hv, bind_ok] at h
  simp only [bind_eq_ok] at h
  obtain ⟨_, -, _, -, _, -, n, h1, ne, h2, nT, h3, _, -, _, -, _, -, _, -, _, -, h⟩ := h
  cases h
  have e3 : nT[v]? = some (n + 1) := by
    unfold wr at h3
    split at h3
    · cases h3
      rw [List.getElem?_set_self (by assumption)]
    · cases h3
  simp only at hs
  by_cases hn : n = 0
  · rw [if_pos hn] at h2
    unfold pushBin at h2
    split at h2
    · cases h2
      refine .inr ⟨?_, n, e3⟩
      rcases hs with hs | ⟨-, m, hs⟩
      · simp [hs]
      · rw [rd_ok.1 h1] at hs
        injection hs with hs
        omega
    · cases h2
  · rw [if_neg hn] at h2
    cases h2
    rcases hs with hs | ⟨hs, -⟩
    · exact .inl hs
    · exact .inr ⟨hs, n, e3⟩

/-- A column that is not the first one only adds its own statistics. -/
theorem featureStep_later {j : Nat} {train valid : List Nat} {a a' : NodeAcc F Y P} (ha : a.hists ≠ []) (h : featureStep T c train valid a j = .ok a') :
    ∃ h, a' = { a with hists := a.hists ++ [h] } ∧ ∀ v, (∀ i ∈ train, c.fba.getValue i j = .ok v) → h.neTrain.length ≤ 1 := by
  have hf : a.hists.isEmpty = false := by simpa using ha
  unfold featureStep at h
  rw [hf, bind_eq_ok] at h
  obtain ⟨⟨h0, w, p⟩, h1, h⟩ := h
  simp only [Bool.false_eq_true, if_false] at h
  rw [bind_eq_ok] at h
  obtain ⟨p', h2, h⟩ := h
  cases h2
  have e1 : ((w, p) : F × P) = (a.wTrain, a.yPred) := foldlM_inv (I := fun s : Hist F Y × F × P => s.2 = (a.wTrain, a.yPred))
    (fun s x s' _ hs e => (trainStep_later e).trans hs) rfl h1
  obtain ⟨rfl, rfl⟩ := Prod.mk.inj e1
  have one : ∀ v, (∀ i ∈ train, c.fba.getValue i j = .ok v) → h0.neTrain.length ≤ 1 := by
    intro v hv
    rcases foldlM_inv (I := fun s : Hist F Y × F × P => OneBin v s.1) (fun s x s' hx hs e => trainStep_one (hv x hx) hs e) (.inl rfl) h1 with h | h
    · simp only at h; rw [h]; simp
    · exact h.1.le
  split at h
  · rw [bind_eq_ok] at h
    obtain ⟨⟨h5, wv, l⟩, h3, h⟩ := h
    cases h
    have e2 := foldlM_inv (I := fun s : Hist F Y × F × F => s.2 = (a.wValid, a.loss) ∧ s.1.neTrain = h0.neTrain)
      (fun s x s' _ hs e => ⟨(validStep_later e).1.trans hs.1, (validStep_later e).2.trans hs.2⟩) ⟨rfl, rfl⟩ h3
    obtain ⟨e2, e4⟩ := e2
    obtain ⟨rfl, rfl⟩ := Prod.mk.inj e2
    exact ⟨h5, rfl, fun v hv => e4 ▸ one v hv⟩
  · cases h
    exact ⟨h0, rfl, one⟩

theorem featureStep_hist {j : Nat} {train valid : List Nat} {a a' : NodeAcc F Y P} (h : featureStep T c train valid a j = .ok a') :
    ∃ x, a'.hists = a.hists ++ [x] := by
  obtain ⟨x, hx, -⟩ := featureStep_rel (q := True) (c := c) (c' := c) (a := a) (a' := a) (fun _ _ => RelM.same) rfl rfl rfl rfl (fun _ => rfl) a' a' h h
  exact ⟨x, hx⟩

theorem features_hists {train valid : List Nat} (fs : List Nat) : ∀ {a a' : NodeAcc F Y P}, fs.foldlM (featureStep T c train valid) a = .ok a' →
    a.hists <+: a'.hists ∧ a'.hists.length = a.hists.length + fs.length ∧ ∀ (i j : Nat), fs[i]? = some j → ∃ b b' x, featureStep T c train valid b j = .ok b' ∧
      b'.hists = b.hists ++ [x] ∧ a'.hists[a.hists.length + i]? = some x := by
  induction fs with
  | nil =>
    intro a a' h
    cases h
    exact ⟨List.prefix_rfl, rfl, fun i j h => by simp at h⟩
  | cons f fs ih =>
    intro a a' h
    rw [List.foldlM_cons, bind_eq_ok] at h
    obtain ⟨b, h1, h2⟩ := h
    obtain ⟨i1, i2, i3⟩ := ih h2
    obtain ⟨x, hx⟩ := featureStep_hist h1
    refine ⟨(hx ▸ List.prefix_append _ _ : a.hists <+: b.hists).trans i1, by rw [i2, hx]; simp; omega, fun i j hij => ?_⟩
    cases i with
    | zero =>
      simp only [List.getElem?_cons_zero, Option.some.injEq] at hij
      subst hij
      refine ⟨a, b, x, h1, hx, ?_⟩
      obtain ⟨t, ht⟩ := i1
      rw [← ht, hx, Nat.add_zero, List.append_assoc, List.getElem?_append_right le_rfl]
      simp
    | succ i =>
      rw [List.getElem?_cons_succ] at hij
      obtain ⟨b1, b2, y, q1, q2, q3⟩ := i3 i j hij
      refine ⟨b1, b2, y, q1, q2, ?_⟩
      rw [← q3, hx]
      congr 1
      simp
      omega

end

/-! ### The context with one more column -/

/-- `c'` has one more column than `c`: a copy of column `j`, or a constant. -/
structure Ext (T : Task F Y P G) (d : Nat) (c c' : Ctx F) : Prop where
  eq : c' = { c with fba := c'.fba, maxFeatures := d + 1, isCategorical := c'.isCategorical }
  maxFeatures : c.maxFeatures = d
  cols : c.fba.nFeatures = d
  cols' : c'.fba.nFeatures = d + 1
  pos : 0 < d
  rows : c'.fba.nSamples = c.fba.nSamples
  bins : c'.maxNBins = c.maxNBins
  val : ∀ i < c.fba.nSamples, ∀ f, f < d → RelM (fun x y => x = y) (c.fba.getValue i f) (c'.fba.getValue i f)
  inside : ∀ i f b, c.fba.getValue i f = .ok b → f < d
  cat : ∀ f < d, c'.isCategorical[f]? = c.isCategorical[f]?
  new : (∃ j < d, (∀ i < c.fba.nSamples, RelM (fun x y => x = y) (c.fba.getValue i j) (c'.fba.getValue i d)) ∧
      c'.isCategorical[d]? = c.isCategorical[j]? ∧ (c.isCategorical[j]? = some true → DetOrders T)) ∨
    ∃ v, ∀ i < c.fba.nSamples, c'.fba.getValue i d = .ok v

end Verif.Extra
