import Verif.Proofs.Labels
import Verif.Spec.Modes

/-! Equivalent settings of the estimators. -/
set_option linter.unusedSectionVars false
namespace Verif

open Spec

section
variable {L V K F Y P G W N N' : Type} [LinearOrder L] [DecidableEq V] [DecidableEq N] [DecidableEq N'] [LinearOrder K] [Field K] [FloorSemiring K] [Num F]

open Py

theorem Py.bind_congr {S α β : Type} {m : Py S α} {f : α → Py S β} {s s' : S} (h : m s = m s') : (m >>= f) s = (m >>= f) s' := by
  change Py.bind m f s = Py.bind m f s'
  unfold Py.bind
  rw [h]

theorem Py.bind_rel {S α β : Type} {m m' : Py S α} {f f' : α → Py S β} {s s' : S} {r : S → S} (h : m' s' = ((m s).1, r (m s).2))
    (hf : ∀ a t, f' a (r t) = ((f a t).1, r (f a t).2)) : (m' >>= f') s' = (((m >>= f) s).1, r ((m >>= f) s).2) := by
  change Py.bind m' f' s' = ((Py.bind m f s).1, r (Py.bind m f s).2)
  unfold Py.bind
  rw [h]
  rcases m s with ⟨x, t⟩
  cases x with
  | error e => rfl
  | ok a => exact hf a t

/-! ### One-versus-rest with at most two classes -/

theorem encodeY_mode {y : List L} (hy : y ≠ []) (h2 : (sortedUnique y).length ≤ 2) {s : World L V K F P G W} (hf : s.self.fitted = false) :
    encodeY y true (withMode true s) = encodeY y true (withMode false s) := by
  have h : ∀ b, staysOvr (withMode b s).self y = false := fun b => by
    unfold staysOvr
    rw [decide_eq_false (by omega), Bool.and_false]
  have hk : ∀ b, codesOf (withMode b s).self y = [labelCodes (sortedUnique y) y] := fun b => by unfold codesOf; rw [h b]; rfl
  rw [encodeY_ok hy (fun _ h => by rw [show (withMode true s).self.fitted = s.self.fitted from rfl, hf] at h; cases h),
    encodeY_ok hy (fun h => by cases h), hk, hk]
  unfold encodedEst
  rw [h, h]
  rfl

theorem encodeY_targets (y : List L) (s : World L V K F P G W) : encodeY y false s = (.error .valueError, s) := by
  unfold encodeY
  rw [Py.bind_of_ok (Py.read_apply _ _)]
  exact Py.bind_of_error rfl

/-! ### The weights of the caller -/

theorem generateSeeds_callerWeights (w : List F) (lib : Lib V K F G W) :
    Comm (withWeights w) (generateSeeds (L := L) (P := P) lib) (generateSeeds lib) := by
  unfold generateSeeds
  refine .bindRead fun s => ?_
  refine Comm.bind (r := withWeights w) (.lift _) (fun rs => ?_) s
  cases rs with
  | some n => exact .bind (.modify (by exact fun _ => rfl)) fun _ => .ite Iff.rfl (.modify (by exact fun _ => rfl)) (.pure _)
  | none => exact .bind (.modify (by exact fun _ => rfl)) fun _ => .ite Iff.rfl (.modify (by exact fun _ => rfl)) (.pure _)

theorem fitRest_callerWeights (w : List F) (lib : Lib V K F G W) (a : FitArgs N V) (p : FitData F Y P G) :
    Comm (withWeights w) (fitRest (L := L) lib a p) (fitRest lib a p) := by
  unfold fitRest
  refine .bindRead fun s => ?_
  refine Comm.bind (r := withWeights w) (.lift _) (fun mf => .bind (.modify (by exact fun _ => rfl)) fun _ => .bind (generateSeeds_callerWeights w lib) fun _ =>
    .bind (.lift _) fun ic => .bind ?_ fun sub => .bind (.lift _) fun enc => .bind (.modify (by exact fun _ => rfl)) fun _ => .bind (.lift _) fun fba =>
    .bind (.modify (by exact fun _ => rfl)) fun _ => .bind (.read (by exact fun _ => rfl)) fun seeds => .bind ?_ fun depths => .bind (.lift _) fun trees =>
    .modify (by exact fun _ => rfl)) s
  · intro t; rw [encoderSubset_eq, encoderSubset_eq]; rfl
  · intro t; rw [treeDepths_eq, treeDepths_eq]; rfl

theorem encodeY_callerWeights (w : List F) (y : List L) (t : Bool) :
    Comm (withWeights w) (encodeY (V := V) (K := K) (F := F) (P := P) (G := G) (W := W) y t) (encodeY y t) := by
  unfold encodeY
  refine .bind (.read (by exact fun _ => rfl)) fun ovr => .bind (.raiseIf _ _) fun _ => .bind (.raiseIf _ _) fun _ => ?_
  simp only
  refine .bind (.modify (by exact fun _ => rfl)) fun _ => ?_
  split
  · split
    · refine .bind ?_ fun _ => .pure _
      unfold setMulticlass
      exact .bind (.read (by exact fun _ => rfl)) fun b => .bind (.raiseIf _ _) fun _ => .modify (by exact fun _ => rfl)
    · exact .pure _
  · exact .pure _

theorem writeBack_eq (t : World L V K F P G W) (b : Bool) (w : List F) : writeBack b w t = (.ok (), { t with weights := if b then w else t.weights }) := by
  cases b <;> rfl

theorem prepClassifier_callerWeights (lib : Lib V K F G W) (a : FitArgs N V) (y : List L) (sw w : List F) (m m' : Option Bool) (s : World L V K F (List F) G W) :
    ∃ w', prepClassifier lib { a with weights := m } y sw (withWeights w s) =
      ((prepClassifier lib { a with weights := m' } y sw s).1, withWeights w' (prepClassifier lib { a with weights := m' } y sw s).2) := by
  unfold prepClassifier
  have h := encodeY_callerWeights (V := V) (K := K) (P := List F) (G := G) (W := W) w y a.targetsOK s
  rcases hE : encodeY y a.targetsOK s with ⟨r, t⟩
  rw [hE] at h
  cases r with
  | error e => exact ⟨w, by rw [Py.bind_of_error h, Py.bind_of_error hE]⟩
  | ok ys =>
    rw [Py.bind_of_ok h, Py.bind_of_ok hE, Py.bind_of_ok (Py.read_apply _ _), Py.bind_of_ok (Py.read_apply _ _)]
    simp only
    rw [show (withWeights w t).self = t.self from rfl]
    cases hb : (t.self.aggregation && (Num.le t.self.dirichlet Num.zero && Num.le Num.zero t.self.dirichlet)) with
    | true => exact ⟨w, by rw [Py.bind_of_error (Py.raiseIf_true _ rfl), Py.bind_of_error (Py.raiseIf_true _ rfl)]⟩
    | false =>
      rw [Py.bind_of_ok (Py.raiseIf_false _ rfl), Py.bind_of_ok (Py.raiseIf_false _ rfl), Py.bind_of_ok (Py.modify_apply _ _),
        Py.bind_of_ok (Py.modify_apply _ _), Py.bind_of_ok (writeBack_eq _ _ _), Py.bind_of_ok (writeBack_eq _ _ _)]
      exact ⟨_, rfl⟩

/-! ### History -/

/-- The attributes that the second half of `fit` sets. -/
def setLate (f : Bool) (mf : Nat) (seeds : List Nat) (ic : List Bool) (enc : Option (EncCfg K × List (FitCol V K))) (trees : List (TreeObj F P G))
    (ns nf : Nat) (e : Est L V K F P G) : Est L V K F P G :=
  { e with fitted := f, maxFeatures_ := mf, seeds := seeds, isCategorical_ := ic, encoder := enc, trees := trees, nSamples := ns, nFeatures := nf }

theorem fitRest_late {lib : Lib V K F G W} {a : FitArgs N V} {p : FitData F Y P G} {s t : World L V K F P G W} {f mf seeds ic enc trees ns nf}
    (h : fitRest lib a p s = (.ok (), t)) : fitRest lib a p { s with self := setLate f mf seeds ic enc trees ns nf s.self } = (.ok (), t) := by
  obtain ⟨o, rfl⟩ := fitRest_inv h
  have o2 : Outcome lib a p (setLate f mf seeds ic enc trees ns nf s.self) s.np :=
    ⟨o.mf, o.ic, o.enc, o.fba, o.trees, o.hmf, o.hrs, o.hic, o.hacc, o.henc, o.hfba, o.htrees⟩
  exact fitRest_ok (s := { s with self := setLate f mf seeds ic enc trees ns nf s.self })
    ⟨o.mf, o.ic, o.enc, o.fba, o.trees, o.hmf, o.hrs, o.hic, o.hacc, o.henc, o.hfba, o.htrees⟩

/-- What a successful treatment of the labels needs. -/
theorem fitClassifier_needs {lib : Lib V K F G W} {a : FitArgs N V} {y : List L} {s t : World L V K F (List F) G W}
    (hy : y ≠ []) (hf : s.self.ovr = true → s.self.fitted = true → 2 < (sortedUnique y).length) (h : fitClassifier lib a y s = (.ok (), t)) :
    y.length = a.nRows ∧ (a.weights ≠ none → s.weights.length = a.nRows) ∧ a.targetsOK = true ∧
    (s.self.aggregation = true → ¬(Num.le s.self.dirichlet Num.zero = true ∧ Num.le Num.zero s.self.dirichlet = true)) ∧
    fitRest lib a (preparedOf lib (withCategorical a.categorical s.self) y (weightsOf a s))
      { s with self := preparedEst (withCategorical a.categorical s.self) y,
               weights := callerWeights (withCategorical a.categorical s.self) a y s.weights (weightsOf a s) } = (.ok (), t) := by
  unfold fitClassifier at h
  have h1 : y.length = a.nRows := by
    by_contra hn
    rw [Py.bind_of_error (fitChecks_rows hn)] at h
    cases h
  have h2 : a.weights ≠ none → s.weights.length = a.nRows := by
    intro hw
    by_contra hn
    rw [Py.bind_of_error (fitChecks_weights h1 hw hn)] at h
    cases h
  rw [Py.bind_of_ok (fitChecks_ok h1 h2)] at h
  have h3 : a.targetsOK = true := by
    cases ht : a.targetsOK with
    | true => rfl
    | false =>
      rw [Py.bind_of_error (e := .valueError) (s' := { s with self := withCategorical a.categorical s.self })] at h
      · cases h
      · unfold prepClassifier
        rw [ht, Py.bind_of_error (encodeY_targets _ _)]
  have h4 : s.self.aggregation = true → ¬(Num.le s.self.dirichlet Num.zero = true ∧ Num.le Num.zero s.self.dirichlet = true) := by
    rintro ha ⟨d1, d2⟩
    obtain ⟨p, t1, hp, -⟩ := Py.bind_inv h
    unfold prepClassifier at hp
    rw [h3, Py.bind_of_ok (encodeY_ok (s := { s with self := withCategorical a.categorical s.self }) hy hf), Py.bind_of_ok (Py.read_apply _ _)] at hp
    simp only at hp
    rw [Py.bind_of_error (Py.raiseIf_true _ (by
      change (s.self.aggregation && (Num.le s.self.dirichlet Num.zero && Num.le Num.zero s.self.dirichlet)) = true
      rw [ha, d1, d2]; rfl))] at hp
    cases hp
  rw [Py.bind_of_ok (prepClassifier_ok (s := { s with self := withCategorical a.categorical s.self }) h3 hy hf h4)] at h
  exact ⟨h1, h2, h3, h4, h⟩

theorem fitClassifier_of {lib : Lib V K F G W} {a : FitArgs N V} {y : List L} {s t : World L V K F (List F) G W}
    (hy : y ≠ []) (hf : s.self.ovr = true → s.self.fitted = true → 2 < (sortedUnique y).length)
    (h1 : y.length = a.nRows) (h2 : a.weights ≠ none → s.weights.length = a.nRows) (h3 : a.targetsOK = true)
    (h4 : s.self.aggregation = true → ¬(Num.le s.self.dirichlet Num.zero = true ∧ Num.le Num.zero s.self.dirichlet = true))
    (h : fitRest lib a (preparedOf lib (withCategorical a.categorical s.self) y (weightsOf a s))
      { s with self := preparedEst (withCategorical a.categorical s.self) y,
               weights := callerWeights (withCategorical a.categorical s.self) a y s.weights (weightsOf a s) } = (.ok (), t)) :
    fitClassifier lib a y s = (.ok (), t) := by
  unfold fitClassifier
  rw [Py.bind_of_ok (fitChecks_ok h1 h2), Py.bind_of_ok (prepClassifier_ok (s := { s with self := withCategorical a.categorical s.self }) h3 hy hf h4)]
  exact h

theorem fitRegressor_needs {lib : Lib V K F G W} {a : FitArgs N V} {y : List F} {s t : World L V K F F G W} (h : fitRegressor lib a y s = (.ok (), t)) :
    y.length = a.nRows ∧ (a.weights ≠ none → s.weights.length = a.nRows) ∧
    fitRest lib a ⟨fun _ => regressorTask lib.argsort, false, [y], [weightsOf a s]⟩ { s with self := withCategorical a.categorical s.self } = (.ok (), t) := by
  unfold fitRegressor at h
  have h1 : y.length = a.nRows := by
    by_contra hn
    rw [Py.bind_of_error (fitChecks_rows hn)] at h
    cases h
  have h2 : a.weights ≠ none → s.weights.length = a.nRows := by
    intro hw
    by_contra hn
    rw [Py.bind_of_error (fitChecks_weights h1 hw hn)] at h
    cases h
  rw [Py.bind_of_ok (fitChecks_ok h1 h2)] at h
  exact ⟨h1, h2, h⟩

theorem fitRegressor_of {lib : Lib V K F G W} {a : FitArgs N V} {y : List F} {s t : World L V K F F G W}
    (h1 : y.length = a.nRows) (h2 : a.weights ≠ none → s.weights.length = a.nRows)
    (h : fitRest lib a ⟨fun _ => regressorTask lib.argsort, false, [y], [weightsOf a s]⟩ { s with self := withCategorical a.categorical s.self } = (.ok (), t)) :
    fitRegressor lib a y s = (.ok (), t) := by
  unfold fitRegressor
  rw [Py.bind_of_ok (fitChecks_ok h1 h2)]
  exact h

/-! ### Unknown categories -/

theorem colMaxValue_known (cfg : EncCfg K) (b : Bool) (fc : FitCol V K) (m : Bool) {cats : List V} (h : ∀ c, fc = .cat c → ∀ v ∈ cats, v ∈ c) :
    colMaxValue { cfg with handleUnknownError := b } fc m cats = colMaxValue cfg fc m cats := by
  cases fc with
  | num thr => rfl
  | cat c =>
    have : (cats.any fun v => decide (v ∉ c)) = false := by
      rw [List.any_eq_false]
      intro v hv
      simpa using h c rfl v hv
    simp only [colMaxValue, this, Bool.false_and]

theorem mapM_congr_mem' {α β : Type} {f g : α → M β} {l : List α} (h : ∀ x ∈ l, f x = g x) : l.mapM f = l.mapM g := by
  induction l with
  | nil => rfl
  | cons x l ih => rw [List.mapM_cons, List.mapM_cons, h x (by simp), ih fun y hy => h y (by simp [hy])]

theorem encoderTransform_known {cv : Conv V K} {cfg : EncCfg K} {enc : List (FitCol V K)} {X : Dataset N V} (h : AllKnown enc X) (b : Bool) (g : Nat → Word) (n : Nat) :
    encoderTransform cv { cfg with handleUnknownError := b } enc g n X = encoderTransform cv cfg enc g n X := by
  cases X with
  | frame X =>
    have : (enc.zip X).mapM (fun p => colMaxValue { cfg with handleUnknownError := b } p.1 (p.2.2.cells.any (·.isNone)) (p.2.2.categories cv)) =
        (enc.zip X).mapM (fun p => colMaxValue cfg p.1 (p.2.2.cells.any (·.isNone)) (p.2.2.categories cv)) := by
      refine mapM_congr_mem' fun p hp => colMaxValue_known _ _ _ _ fun c hc v hv => h p hp c hc v ?_
      unfold Series.categories at hv
      split
      · rename_i hk; rwa [if_pos hk] at hv
      · rename_i hk; rw [if_neg hk] at hv; exact (cv.mem_catsOf _ _).1 hv
    simp only [encoderTransform, transformDataFrame, this]
  | array k X =>
    have : (enc.zip X).mapM (fun p => colMaxValue { cfg with handleUnknownError := b } p.1 (decide (k = .uif) && p.2.any (·.isNone)) (cv.catsOf p.2)) =
        (enc.zip X).mapM (fun p => colMaxValue cfg p.1 (decide (k = .uif) && p.2.any (·.isNone)) (cv.catsOf p.2)) :=
      mapM_congr_mem' fun p hp => colMaxValue_known _ _ _ _ fun c hc v hv => h p hp c hc v ((cv.mem_catsOf _ _).1 hv)
    simp only [encoderTransform, transformArray, this]

/-- What "error" accepts, "consider_missing" treats in the same way. -/
theorem colMaxValue_error {cfg : EncCfg K} {fc : FitCol V K} {m : Bool} {cats : List V} {v : Nat}
    (h : colMaxValue { cfg with handleUnknownError := true } fc m cats = .ok v) : colMaxValue { cfg with handleUnknownError := false } fc m cats = .ok v := by
  cases fc with
  | num thr => exact h
  | cat c =>
    simp only [colMaxValue] at h ⊢
    cases hu : (cats.any fun v => decide (v ∉ c)) <;> rw [hu] at h
    · exact h
    · cases h

theorem mapM_mono {α β : Type} {f g : α → M β} {l : List α} {r : List β} (h : ∀ x y, f x = .ok y → g x = .ok y) (hl : l.mapM f = .ok r) : l.mapM g = .ok r :=
  mapM_eq_ok.2 ((mapM_eq_ok.1 hl).imp fun a b => h a b)

theorem encoderTransform_error {cv : Conv V K} {cfg : EncCfg K} {enc : List (FitCol V K)} {X : Dataset N V} {g : Nat → Word} {n : Nat} {fba : FBA}
    (h : encoderTransform cv { cfg with handleUnknownError := true } enc g n X = .ok fba) :
    encoderTransform cv { cfg with handleUnknownError := false } enc g n X = .ok fba := by
  cases X with
  | frame X =>
    simp only [encoderTransform, transformDataFrame] at h ⊢
    split at h
    · cases h
    · rename_i hl
      rw [if_neg hl]
      rw [bind_eq_ok] at h
      obtain ⟨mv, h1, h2⟩ := h
      rw [mapM_mono (fun _ _ hx => colMaxValue_error hx) h1, bind_ok]
      exact h2
  | array k X =>
    simp only [encoderTransform, transformArray] at h ⊢
    split at h
    · cases h
    · rename_i hl
      rw [if_neg hl]
      split at h
      · cases h
      · rename_i hk
        rw [if_neg hk]
        rw [bind_eq_ok] at h
        obtain ⟨mv, h1, h2⟩ := h
        rw [mapM_mono (fun _ _ hx => colMaxValue_error hx) h1, bind_ok]
        exact h2

/-- Unknown categories are rejected with "error". -/
theorem encoderTransform_rejects {cv : Conv V K} {cfg : EncCfg K} {enc : List (FitCol V K)} {X : Dataset N V} {g : Nat → Word} {n : Nat} {fba : FBA}
    (h : encoderTransform cv { cfg with handleUnknownError := true } enc g n X = .ok fba) : AllKnown enc X := by
  have key : ∀ {fc : FitCol V K} {m : Bool} {cats : List V} {v : Nat}, colMaxValue { cfg with handleUnknownError := true } fc m cats = .ok v →
      ∀ c, fc = .cat c → ∀ v ∈ cats, v ∈ c := by
    rintro fc m cats x hx c rfl v hv
    simp only [colMaxValue] at hx
    by_contra hn
    have : (cats.any fun v => decide (v ∉ c)) = true := List.any_eq_true.2 ⟨v, hv, by simpa using hn⟩
    rw [this] at hx
    cases hx
  have all : ∀ {α β : Type} {f : α → M β} {l : List α} {r : List β}, l.mapM f = .ok r → ∀ x ∈ l, ∃ y, f x = .ok y := by
    intro α β f l r hl x hx
    have := mapM_eq_ok.1 hl
    induction this with
    | nil => cases hx
    | cons h1 _ ih =>
      rcases List.mem_cons.1 hx with rfl | hx
      · exact ⟨_, h1⟩
      · exact ih (mapM_eq_ok.2 (by assumption)) hx
  cases X with
  | frame X =>
    simp only [encoderTransform, transformDataFrame] at h
    split at h
    · cases h
    · rw [bind_eq_ok] at h
      obtain ⟨mv, h1, -⟩ := h
      intro p hp c hc v hv
      obtain ⟨y, hy⟩ := all h1 p hp
      refine key hy c hc v ?_
      unfold Series.categories
      split
      · rename_i hk; rwa [if_pos hk] at hv
      · rename_i hk; rw [if_neg hk] at hv; exact (cv.mem_catsOf _ _).2 hv
  | array k X =>
    simp only [encoderTransform, transformArray] at h
    split at h
    · cases h
    · split at h
      · cases h
      · rw [bind_eq_ok] at h
        obtain ⟨mv, h1, -⟩ := h
        intro p hp c hc v hv
        obtain ⟨y, hy⟩ := all h1 p hp
        exact key hy c hc v ((cv.mem_catsOf _ _).2 hv)

/-- The columns that `fit` has seen. -/
theorem fit_zip {α : Type} {f : Nat → α → M (FitCol V K)} {X : List α} {k : Nat} {enc : List (FitCol V K)}
    (h : ((List.range' k X.length).zip X).mapM (fun p => f p.1 p.2) = .ok enc) : ∀ p ∈ enc.zip X, ∃ j, f j p.2 = .ok p.1 := by
  induction X generalizing k enc with
  | nil => intro p hp; simp at hp
  | cons x X ih =>
    rw [List.length_cons, List.range'_succ, List.zip_cons_cons, List.mapM_cons, bind_eq_ok] at h
    obtain ⟨fc, h1, h⟩ := h
    rw [bind_eq_ok] at h
    obtain ⟨r, h2, h⟩ := h
    cases h
    intro p hp
    rw [List.zip_cons_cons] at hp
    rcases List.mem_cons.1 hp with rfl | hp
    · exact ⟨_, h1⟩
    · exact ih h2 p hp

theorem encoderFit_known {cv : Conv V K} {cfg : EncCfg K} {sub : Option (List Nat)} {X : Dataset N V} {enc : List (FitCol V K)}
    (h : encoderFit cv cfg sub X = .ok enc) : AllKnown enc X := by
  cases X with
  | frame X =>
    have h : ((List.range (X.map Prod.snd).length).zip (X.map Prod.snd)).mapM (fun p => fitSeries cv cfg sub p.1 p.2) = .ok enc := by
      simp only [encoderFit, fitDataFrame] at h
      split at h
      · split at h
        · cases h
        · exact h
      · exact h
    rw [List.range_eq_range'] at h
    have h := fit_zip h
    intro p hp c hc v hv
    obtain ⟨j, hj⟩ := h (p.1, p.2.2) (by
      rw [List.zip_map_right]
      exact List.mem_map.2 ⟨p, hp, rfl⟩)
    simp only [fitSeries, hc] at hj
    rw [bind_eq_ok] at hj
    obtain ⟨d, hd, hj⟩ := hj
    rw [bind_eq_ok] at hj
    obtain ⟨t, ht, hj⟩ := hj
    have hk : (t = .isCategory → p.2.2.kind = .category) ∧ (t = .toCategory → p.2.2.kind ≠ .category) := by
      unfold isSeriesCategorical at ht
      revert ht
      cases p.2.2.kind <;> rcases d with _ | _ | _ <;> simp <;> first | (rintro rfl; simp) | (split <;> rintro ⟨⟩ <;> simp)
    cases t with
    | isCategory => cases hj; rwa [if_pos (hk.1 rfl)] at hv
    | toCategory => cases hj; rw [if_neg (hk.2 rfl)] at hv; exact (cv.mem_catsOf _ _).2 hv
    | numerical =>
      simp only at hj
      rw [bind_eq_ok] at hj
      obtain ⟨_, _, hj⟩ := hj
      rw [bind_eq_ok] at hj
      obtain ⟨_, _, hj⟩ := hj
      rw [bind_eq_ok] at hj
      obtain ⟨_, _, hj⟩ := hj
      cases hj
  | array k X =>
    have h : ((List.range X.length).zip X).mapM (fun p => fitArrayCol cv cfg sub k p.1 p.2) = .ok enc := by
      simp only [encoderFit, fitArray] at h
      split at h
      · split at h
        · cases h
        · exact h
      · exact h
    rw [List.range_eq_range'] at h
    have h := fit_zip h
    intro p hp c hc v hv
    obtain ⟨j, hj⟩ := h p hp
    simp only [fitArrayCol, hc] at hj
    rw [bind_eq_ok] at hj
    obtain ⟨d, hd, hj⟩ := hj
    rw [bind_eq_ok] at hj
    obtain ⟨t, ht, hj⟩ := hj
    split at hj
    · cases hj; exact (cv.mem_catsOf _ _).2 hv
    · rw [bind_eq_ok] at hj
      obtain ⟨_, _, hj⟩ := hj
      rw [bind_eq_ok] at hj
      obtain ⟨_, _, hj⟩ := hj
      rw [bind_eq_ok] at hj
      obtain ⟨_, _, hj⟩ := hj
      cases hj

theorem fitRest_unknown {lib : Lib V K F G W} {a : FitArgs N V} {p : FitData F Y P G} {s t : World L V K F P G W} {enc : Option (EncCfg K × List (FitCol V K))} (b : Bool)
    (h : fitRest lib a p s = (.ok (), t)) :
    fitRest lib a p { s with self := { s.self with handleUnknownError := b, encoder := enc } } = (.ok (), { t with self := withUnknown b t.self }) := by
  obtain ⟨o, rfl⟩ := fitRest_inv h
  exact fitRest_ok (s := { s with self := { s.self with handleUnknownError := b, encoder := enc } })
    ⟨o.mf, o.ic, o.enc, o.fba, o.trees, o.hmf, o.hrs, o.hic, o.hacc, o.henc, (encoderTransform_known (encoderFit_known o.henc) b lib.words a.nRows).trans o.hfba, o.htrees⟩

/-- A fitted classifier in one-versus-rest mode cannot be fitted on at most two classes. -/
theorem fitClassifier_refit {lib : Lib V K F G W} {a : FitArgs N V} {y : List L} {s t : World L V K F (List F) G W} (ho : s.self.ovr = true)
    (hf : s.self.fitted = true) (h2 : (sortedUnique y).length ≤ 2) : fitClassifier lib a y s ≠ (.ok (), t) := by
  intro h
  unfold fitClassifier at h
  obtain ⟨sw, s1, h1, h⟩ := Py.bind_inv h
  obtain ⟨p, s2, hp, -⟩ := Py.bind_inv h
  have e1 : s1.self.ovr = true ∧ s1.self.fitted = true := by
    by_cases hl : y.length = a.nRows
    · by_cases hw : a.weights ≠ none → s.weights.length = a.nRows
      · rw [fitChecks_ok hl hw] at h1
        cases h1
        exact ⟨ho, hf⟩
      · push Not at hw
        rw [fitChecks_weights hl hw.1 hw.2] at h1
        cases h1
    · rw [fitChecks_rows hl] at h1
      cases h1
  unfold prepClassifier at hp
  obtain ⟨ys, s3, he, -⟩ := Py.bind_inv hp
  unfold encodeY at he
  rw [Py.bind_of_ok (Py.read_apply _ _)] at he
  obtain ⟨_, s4, hr, he⟩ := Py.bind_inv he
  have e4 : s4 = s1 := by
    cases hb : (!a.targetsOK) with
    | true => rw [Py.raiseIf_true _ hb] at hr; cases hr
    | false => rw [Py.raiseIf_false _ hb] at hr; cases hr; rfl
  subst e4
  obtain ⟨_, s5, hr, he⟩ := Py.bind_inv he
  have e5 : s5 = s4 := by
    cases hb : (s4.self.ovr && y.isEmpty) with
    | true => rw [Py.raiseIf_true _ hb] at hr; cases hr
    | false => rw [Py.raiseIf_false _ hb] at hr; cases hr; rfl
  subst e5
  simp only at he
  rw [Py.bind_of_ok (Py.modify_apply _ _), if_pos e1.1, if_pos h2] at he
  obtain ⟨_, s6, hm, -⟩ := Py.bind_inv he
  unfold setMulticlass at hm
  rw [Py.bind_of_ok (Py.read_apply _ _), Py.bind_of_error (Py.raiseIf_true _ e1.2)] at hm
  cases hm

theorem encode_unknown {lib : Lib V K F G W} {e : Est L V K F P G} {cfg : EncCfg K} {enc : List (FitCol V K)} {n : Nat} {X : Dataset N V}
    (he : e.encoder = some (cfg, enc)) (h : AllKnown enc X) : (withUnknown true e).encode lib n X = (withUnknown false e).encode lib n X := by
  unfold Est.encode withUnknown
  simp only [he, Option.map_some, encoderTransform_known (cfg := cfg) h]

theorem encode_rejects {lib : Lib V K F G W} {e : Est L V K F P G} {cfg : EncCfg K} {enc : List (FitCol V K)} {n : Nat} {X : Dataset N V} {fba : FBA}
    (he : e.encoder = some (cfg, enc)) (h : (withUnknown true e).encode lib n X = .ok fba) : AllKnown enc X := by
  unfold Est.encode withUnknown at h
  simp only [he, Option.map_some] at h
  exact encoderTransform_rejects h

/-! ### Names of the columns -/

theorem dict_distinct {β : Type} (X : List (N × β)) (d : List (N × β)) (h : ((d ++ X).map Prod.fst).Nodup) :
    X.foldl (fun d p => dictSet d p.1 p.2) d = d ++ X := by
  induction X generalizing d with
  | nil => simp
  | cons x X ih =>
    have hx : dictSet d x.1 x.2 = d ++ [x] := by
      unfold dictSet
      rw [if_neg]
      intro hc
      obtain ⟨p, hp, he⟩ := List.any_eq_true.1 hc
      rw [List.map_append, List.nodup_append] at h
      exact h.2.2 p.1 (List.mem_map_of_mem hp) x.1 (by simp) (of_decide_eq_true he)
    rw [List.foldl_cons, hx, ih _ (by simpa using h)]
    simp

theorem encoderTransform_names {X : Dataset N V} {X' : Dataset N' V} (h : ColumnsAgree X X') (cv : Conv V K) (cfg : EncCfg K) (enc : List (FitCol V K))
    (g : Nat → Word) (n : Nat) : encoderTransform cv cfg enc g n X = encoderTransform cv cfg enc g n X' := by
  cases h with
  | array k X => rfl
  | @frame X X' h1 h2 h3 =>
    have hl : X.length = X'.length := by simpa using congrArg List.length h3
    have hm : ∀ (β : Type) (f : FitCol V K × Series V → M β), (enc.zip X).mapM (fun p => f (p.1, p.2.2)) = (enc.zip X').mapM (fun p => f (p.1, p.2.2)) := by
      intro β f
      have e : ∀ {M' : Type} (Z : List (M' × Series V)), (enc.zip Z).mapM (fun p => f (p.1, p.2.2)) = (enc.zip (Z.map Prod.snd)).mapM f := by
        intro M' Z
        rw [List.zip_map_right, List.mapM_map]
        rfl
      rw [e X, e X', h3]
    have hf : ∀ (σ : Type) (f : σ → Nat × Series V → M σ) (b : σ), ((List.range X.length).zip X).foldlM (fun b p => f b (p.1, p.2.2)) b =
        ((List.range X'.length).zip X').foldlM (fun b p => f b (p.1, p.2.2)) b := by
      intro σ f b
      have e : ∀ {M' : Type} (Z : List (M' × Series V)), ((List.range Z.length).zip Z).foldlM (fun b p => f b (p.1, p.2.2)) b =
          ((List.range (Z.map Prod.snd).length).zip (Z.map Prod.snd)).foldlM f b := by
        intro M' Z
        rw [List.zip_map_right, List.foldlM_map, List.length_map]
        rfl
      rw [e X, e X', h3]
    simp only [encoderTransform, transformDataFrame]
    rw [dict_distinct X [] (by simpa using h1), dict_distinct X' [] (by simpa using h2), List.nil_append, List.nil_append, hl,
      hm Nat fun p => colMaxValue cfg p.1 (p.2.cells.any (·.isNone)) (p.2.categories cv)]
    split
    · rfl
    · refine congrArg _ (funext fun mv => ?_)
      have := hf FBA (fun b p => do
        let fc ← rd enc p.1
        let mv ← rd mv p.1
        let col ← binnedCol cv.toFloat .typeError fc mv p.2.cells
        b.fillColumn p.1 col) (FBA.init g n mv)
      rw [hl] at this
      exact this

theorem encoderFit_names {X : Dataset N V} {X' : Dataset N' V} (h : ColumnsAgree X X') (cv : Conv V K) (cfg : EncCfg K) (sub : Option (List Nat)) :
    encoderFit cv cfg sub X = encoderFit cv cfg sub X' := by
  cases h with
  | array k X => rfl
  | frame h1 h2 h3 => simp only [encoderFit, h3]

theorem nFeatures_names {X : Dataset N V} {X' : Dataset N' V} (h : ColumnsAgree X X') : X.nFeatures = X'.nFeatures := by
  cases h with
  | array k X => rfl
  | frame h1 h2 h3 => simpa [Dataset.nFeatures] using congrArg List.length h3

end

end Verif
