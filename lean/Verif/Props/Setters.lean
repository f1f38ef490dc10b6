import Verif.Proofs.History
import Verif.Props.Forest

set_option linter.unusedSectionVars false

/-! # Changing parameters after `fit` (C35, C36, C37) -/
namespace Verif

open Spec

section
variable {F Y P G : Type} [Num F] {R : Rng G} {T : F → Task F Y P G} {lab : F → Prop} {draw : Nat → List Nat} {depth : Nat}
  {c : Ctx F} {D : Data F} {gb : Nat → Garbage F} {seeds : List Nat}

/-- C35, regression and multinomial classification. After any history of valid changes of `step` a fitted forest is the
forest obtained by fitting with the last value from the start: equal objects, so equal predictions. -/
theorem C35_step_is_refit (hcmp : CompareOK F) (hT : ∀ d, ValidTask (T d) lab) (h : ForestInput c D lab)
    (hlen : c.w.length = D.n) (hdraw : DrawsOK D.n draw) {f0 f : ForestObj F P G} (hs : Num.le f0.step Num.zero = false)
    (hf : f0.fit R T draw depth c gb seeds = .ok f) (hist : List F) (hv : ∀ v ∈ hist, Num.le v Num.zero = false) :
    ∃ f', hist.foldlM (fun f v => ForestObj.setStep v f) f = .ok f' ∧
      ForestObj.fit R T draw depth c gb seeds { f0 with step := hist.getLastD f0.step } = .ok f' := by
  unfold ForestObj.fit at hf ⊢
  simp only
  split at hf
  · exact absurd hf (by simp)
  · next hc =>
    rw [if_neg hc]
    rw [bind_eq_ok] at hf
    obtain ⟨ts, h1, h2⟩ := hf
    simp only [pure_eq_ok] at h2
    injection h2 with h2
    subst h2
    obtain ⟨ts', e1, e2⟩ := history_step
      (fitAll := fun s d => fitForest R T draw depth { c with step := s, aggregation := f0.aggregation } gb d seeds)
      (fun {s d ts} v hs hts => by
        obtain ⟨okY, okP, hsafe⟩ := validTask_safe (hT d)
        exact fitForest_setStep (c := { c with step := s, aggregation := f0.aggregation }) hsafe
          ⟨⟨h.holds.n, h.holds.d, h.holds.value, h.holds.bound, h.holds.y, h.holds.w, h.holds.cat⟩, ⟨h.params.feats, h.params.minSplit⟩, h.labels⟩
          hlen hdraw (hcmp s v hs) hts) hist hv (f := { f0 with trees := some ts }) hs rfl h1
    exact ⟨_, e1, by rw [e2, bind_ok]; rfl⟩

/-- C35, one-versus-rest. -/
theorem C35_step_is_refit_ovr (hcmp : CompareOK F) (hT : ∀ d, ValidTask (T d) lab) {ys ws : List (List F)} {E N : Nat} {Dk : Nat → Data F}
    (h : ∀ k y w, ys[k]? = some y → ws[k]? = some w → ForestInput { c with y := y, w := w } (Dk k) lab ∧ w.length = N ∧ (Dk k).n = N)
    (hdraw : DrawsOK N draw) {f0 f : ForestObj F P G} (hs : Num.le f0.step Num.zero = false)
    (hf : f0.fitOvr R T draw depth c gb E ys ws seeds = .ok f) (hist : List F) (hv : ∀ v ∈ hist, Num.le v Num.zero = false) :
    ∃ f', hist.foldlM (fun f v => ForestObj.setStep v f) f = .ok f' ∧
      ForestObj.fitOvr R T draw depth c gb E ys ws seeds { f0 with step := hist.getLastD f0.step } = .ok f' := by
  unfold ForestObj.fitOvr at hf ⊢
  simp only
  split at hf
  · exact absurd hf (by simp)
  · next hc =>
    rw [if_neg hc]
    rw [bind_eq_ok] at hf
    obtain ⟨ts, h1, h2⟩ := hf
    simp only [pure_eq_ok] at h2
    injection h2 with h2
    subst h2
    obtain ⟨ts', e1, e2⟩ := history_step
      (fitAll := fun s d => fitOvr R T draw depth { c with step := s, aggregation := f0.aggregation } gb d E ys ws seeds)
      (fun {s d ts} v hs hts => by
        obtain ⟨okY, okP, hsafe⟩ := validTask_safe (hT d)
        unfold fitOvr at hts ⊢
        refine mapM_fuse hts fun x _ o ho => ?_
        simp only at ho ⊢
        rw [bind_eq_ok] at ho
        obtain ⟨y, hy, ho⟩ := ho
        rw [bind_eq_ok] at ho
        obtain ⟨w, hw, ho⟩ := ho
        obtain ⟨q1, q2, q3⟩ := h _ y w (rd_ok.1 hy) (rd_ok.1 hw)
        rw [hy, bind_ok, hw, bind_ok]
        exact buildTree_setStep (c := { c with y := y, w := w, step := s, aggregation := f0.aggregation }) (D := Dk (x.2 / E)) hsafe
          ⟨⟨q1.holds.n, q1.holds.d, q1.holds.value, q1.holds.bound, q1.holds.y, q1.holds.w, q1.holds.cat⟩, ⟨q1.params.feats, q1.params.minSplit⟩, q1.labels⟩
          (q2.trans q3.symm) (by rw [q3]; exact hdraw) (hcmp s v hs) ho) hist hv (f := { f0 with trees := some ts }) hs rfl h1
    exact ⟨_, e1, by rw [e2, bind_ok]; rfl⟩

end

section
variable {G : Type} {R : Rng G} {argsort : List ℝ → List Nat} {n : Nat} {cr : Criterion} {st : CatStrategy} {draw : Nat → List Nat} {depth : Nat}
  {c : Ctx ℝ} {D : Data ℝ} {gb : Nat → Garbage ℝ} {seeds : List Nat}

/-- C36, multinomial classification. After any history of valid changes of `dirichlet` and `step`, the forest is the one obtained
by fitting with the last values from the start: same parameters, structure, predictions of nodes and weights (`SameForest`). The
last value of `dirichlet` must be one that `fit` accepts. -/
theorem C36_dirichlet_is_refit (hA : ArgsortPerm argsort) (hS : StrategyOK n st) (h : ForestInput c D (ClassLabel n))
    (hlen : c.w.length = D.n) (hdraw : DrawsOK D.n draw) {f0 f : ForestObj ℝ (List ℝ) G} (hs : 0 < f0.step)
    (hf : f0.fit R (fun d => classifierTask R argsort n d cr st) draw depth c gb seeds = .ok f)
    (hist : List (Change ℝ)) (hv : ∀ x ∈ hist, x.Valid)
    (hlast : f0.aggregation = true → lastDirichlet f0.dirichlet hist ≠ 0) :
    ∃ f' fr, hist.foldlM (Change.apply fun d => classifierTask R argsort n d cr st) f = .ok f' ∧
      ForestObj.fit R (fun d => classifierTask R argsort n d cr st) draw depth c gb seeds
        { f0 with step := lastStep f0.step hist, dirichlet := lastDirichlet f0.dirichlet hist } = .ok fr ∧
      SameForest f' fr := by
  unfold ForestObj.fit at hf ⊢
  simp only
  split at hf
  · exact absurd hf (by simp)
  · rw [bind_eq_ok] at hf
    obtain ⟨ts, h1, h2⟩ := hf
    simp only [pure_eq_ok] at h2
    injection h2 with h2
    subst h2
    have hin : ∀ s, ForestInput { c with step := s, aggregation := f0.aggregation } D (ClassLabel n) := fun s =>
      ⟨⟨h.holds.n, h.holds.d, h.holds.value, h.holds.bound, h.holds.y, h.holds.w, h.holds.cat⟩, ⟨h.params.feats, h.params.minSplit⟩, h.labels⟩
    obtain ⟨f', ts', ts0', e1, e2, e3, e4, e5, e6, e7⟩ := history (T := fun d => classifierTask R argsort n d cr st)
      (fitAll := fun s d => fitForest R (fun d => classifierTask R argsort n d cr st) draw depth
        { c with step := s, aggregation := f0.aggregation } gb d seeds)
      ⟨fun {s d ts ts0} v _ hts hsame => mapM_fuse₂ hts hsame fun x _ y y0 hy hy0 =>
          (buildTree_change (v := v) hA hS (hin s) hlen hdraw hy hy0).2,
        fun {s d ts ts0} v hts hsame => mapM_fuse₂ hts hsame fun x _ y y0 hy hy0 =>
          (buildTree_change (v := v) hA hS (hin s) hlen hdraw hy hy0).1,
        fun h0 => neF_real.1 h0⟩
      hist hv (f := { f0 with trees := some ts }) (by simp only [Num.le, decide_eq_false_iff_not]; exact not_le.2 hs) rfl h1 (SameTree.all _)
    simp only at e2 e3 e4
    rw [if_neg, ← e2, ← e3]
    · exact ⟨f', { f0 with step := f'.step, dirichlet := f'.dirichlet, trees := some ts0' }, e1, by rw [e6, bind_ok]; rfl,
        rfl, rfl, e4, ts', ts0', e5, rfl, e7⟩
    · intro h0
      simp only [Bool.and_eq_true, Bool.not_eq_true', neF_real] at h0
      exact hlast h0.1 h0.2

/-- C36, one-versus-rest. -/
theorem C36_dirichlet_is_refit_ovr (hA : ArgsortPerm argsort) (hS : StrategyOK 2 st) {ys ws : List (List ℝ)} {E N : Nat} {Dk : Nat → Data ℝ}
    (h : ∀ k y w, ys[k]? = some y → ws[k]? = some w → ForestInput { c with y := y, w := w } (Dk k) (ClassLabel 2) ∧ w.length = N ∧ (Dk k).n = N)
    (hdraw : DrawsOK N draw) {f0 f : ForestObj ℝ (List ℝ) G} (hs : 0 < f0.step)
    (hf : f0.fitOvr R (fun d => classifierTask R argsort 2 d cr st) draw depth c gb E ys ws seeds = .ok f)
    (hist : List (Change ℝ)) (hv : ∀ x ∈ hist, x.Valid)
    (hlast : f0.aggregation = true → lastDirichlet f0.dirichlet hist ≠ 0) :
    ∃ f' fr, hist.foldlM (Change.apply fun d => classifierTask R argsort 2 d cr st) f = .ok f' ∧
      ForestObj.fitOvr R (fun d => classifierTask R argsort 2 d cr st) draw depth c gb E ys ws seeds
        { f0 with step := lastStep f0.step hist, dirichlet := lastDirichlet f0.dirichlet hist } = .ok fr ∧
      SameForest f' fr := by
  unfold ForestObj.fitOvr at hf ⊢
  simp only
  split at hf
  · exact absurd hf (by simp)
  · rw [bind_eq_ok] at hf
    obtain ⟨ts, h1, h2⟩ := hf
    simp only [pure_eq_ok] at h2
    injection h2 with h2
    subst h2
    have key : ∀ (v s d : ℝ) (x : Nat × Nat) (o o0 : TreeObj ℝ (List ℝ) G), SameTree o o0 →
        (do let y ← rd ys (x.2 / E)
            let w ← rd ws (x.2 / E)
            buildTree R (fun d => classifierTask R argsort 2 d cr st) draw depth
              { c with step := s, aggregation := f0.aggregation, y := y, w := w } (gb x.2) d x.1 : M _) = .ok o0 →
        (∃ o' f', o.setDirichlet (fun d => classifierTask R argsort 2 d cr st) v = .ok o' ∧
          (do let y ← rd ys (x.2 / E)
              let w ← rd ws (x.2 / E)
              buildTree R (fun d => classifierTask R argsort 2 d cr st) draw depth
                { c with step := s, aggregation := f0.aggregation, y := y, w := w } (gb x.2) v x.1 : M _) = .ok f' ∧ SameTree o' f') ∧
        ∃ o' f', o.setStep v = .ok o' ∧
          (do let y ← rd ys (x.2 / E)
              let w ← rd ws (x.2 / E)
              buildTree R (fun d => classifierTask R argsort 2 d cr st) draw depth
                { c with step := v, aggregation := f0.aggregation, y := y, w := w } (gb x.2) d x.1 : M _) = .ok f' ∧ SameTree o' f' := by
      intro v s d x o o0 hso ho
      rw [bind_eq_ok] at ho
      obtain ⟨y, hy, ho⟩ := ho
      rw [bind_eq_ok] at ho
      obtain ⟨w, hw, ho⟩ := ho
      obtain ⟨q1, q2, q3⟩ := h _ y w (rd_ok.1 hy) (rd_ok.1 hw)
      simp only [hy, bind_ok, hw]
      exact buildTree_change (c := { c with step := s, aggregation := f0.aggregation, y := y, w := w }) (D := Dk (x.2 / E)) hA hS
        ⟨⟨q1.holds.n, q1.holds.d, q1.holds.value, q1.holds.bound, q1.holds.y, q1.holds.w, q1.holds.cat⟩, ⟨q1.params.feats, q1.params.minSplit⟩, q1.labels⟩
        (q2.trans q3.symm) (by rw [q3]; exact hdraw) hso ho
    obtain ⟨f', ts', ts0', e1, e2, e3, e4, e5, e6, e7⟩ := history (T := fun d => classifierTask R argsort 2 d cr st)
      (fitAll := fun s d => fitOvr R (fun d => classifierTask R argsort 2 d cr st) draw depth
        { c with step := s, aggregation := f0.aggregation } gb d E ys ws seeds)
      ⟨fun {s d ts ts0} v _ hts hsame => mapM_fuse₂ hts hsame fun x _ y y0 hy hy0 => (key v s d x y y0 hy hy0).2,
        fun {s d ts ts0} v hts hsame => mapM_fuse₂ hts hsame fun x _ y y0 hy hy0 => (key v s d x y y0 hy hy0).1,
        fun h0 => neF_real.1 h0⟩
      hist hv (f := { f0 with trees := some ts }) (by simp only [Num.le, decide_eq_false_iff_not]; exact not_le.2 hs) rfl h1 (SameTree.all _)
    simp only at e2 e3 e4
    rw [if_neg, ← e2, ← e3]
    · exact ⟨f', { f0 with step := f'.step, dirichlet := f'.dirichlet, trees := some ts0' }, e1, by rw [e6, bind_ok]; rfl,
        rfl, rfl, e4, ts', ts0', e5, rfl, e7⟩
    · intro h0
      simp only [Bool.and_eq_true, Bool.not_eq_true', neF_real] at h0
      exact hlast h0.1 h0.2

/-- C36, predictions: equal forests predict equal probabilities, on every encoded matrix. -/
theorem C36_predictions {f f' : ForestObj ℝ (List ℝ) G} (h : SameForest f f') (k : Nat) (fba : FBA) :
    ∃ ts ts', f.trees = some ts ∧ f'.trees = some ts' ∧ predictProba k ts fba = predictProba k ts' fba ∧
      ∀ eps E, predictProbaOvr eps k E ts fba = predictProbaOvr eps k E ts' fba := by
  obtain ⟨ts, ts', h1, h2, h3⟩ := h.trees
  have hl : ts.length = ts'.length := h3.length_eq
  have hfold : ∀ out, ts.foldlM (fun out o => do
      let p ← TreeObj.predict mixV o fba
      addMat out p) out = ts'.foldlM (fun out o => do
      let p ← TreeObj.predict mixV o fba
      addMat out p) out := by
    clear h1 h2 hl
    induction h3 with
    | nil => intro out; rfl
    | cons ha _ ih =>
      intro out
      simp only [List.foldlM_cons, ha.predict, ih]
  have hovr : ∀ E j out, (ts.zipIdx j).foldlM (fun (out : List (List ℝ)) (x : TreeObj ℝ (List ℝ) G × Nat) => do
      let p ← TreeObj.predict mixV x.1 fba
      if out.length = p.length then (out.zip p).mapM fun (row, q) => addCol (x.2 / E) row q else .error .valueError) out =
      (ts'.zipIdx j).foldlM (fun (out : List (List ℝ)) (x : TreeObj ℝ (List ℝ) G × Nat) => do
      let p ← TreeObj.predict mixV x.1 fba
      if out.length = p.length then (out.zip p).mapM fun (row, q) => addCol (x.2 / E) row q else .error .valueError) out := by
    clear h1 h2 hl hfold
    intro E
    induction h3 with
    | nil => intro j out; rfl
    | cons ha _ ih =>
      intro j out
      simp only [List.zipIdx_cons, List.foldlM_cons, ha.predict, ih]
  refine ⟨ts, ts', h1, h2, ?_, fun eps E => ?_⟩
  · unfold predictProba accumulateProba
    rw [hfold, hl]
  · unfold predictProbaOvr
    exact congrArg (· >>= _) (hovr E 0 _)

/-- C37 is violated: `dirichlet` can be set to zero on a forest fitted with aggregation; `aggregation` can be set on a forest fitted with
`dirichlet` zero. Such a forest is one that `fit` refuses. -/
theorem C37_violated : ∃ (f0 f f' : ForestObj ℝ (List ℝ) Nat) (c : Ctx ℝ) (D : Data ℝ), f0.aggregation = true ∧ f0.dirichlet ≠ 0 ∧
    ForestInput c D (ClassLabel 2) ∧
    f0.fit toyRng (fun d => classifierTask toyRng realArgsort 2 d .gini .all) realDraw 1 c (fun _ => realGarbage) [3, 8] = .ok f ∧
    f.setDirichlet (fun d => classifierTask toyRng realArgsort 2 d .gini .all) 0 = .ok f' ∧ f'.trees.isSome = true ∧
    f'.aggregation = true ∧ f'.dirichlet = 0 ∧
    f'.fit toyRng (fun d => classifierTask toyRng realArgsort 2 d .gini .all) realDraw 1 c (fun _ => realGarbage) [3, 8] = .error .valueError := by
  have hS : StrategyOK 2 .all := by unfold StrategyOK; decide
  obtain ⟨fba, h, hr⟩ := real_forest_input (ClassLabel 2) (fun _ h => h)
  have hin : ForestInput { realCtx fba with step := 1, aggregation := true } realData (ClassLabel 2) :=
    ⟨⟨h.holds.n, h.holds.d, h.holds.value, h.holds.bound, h.holds.y, h.holds.w, h.holds.cat⟩, ⟨h.params.feats, h.params.minSplit⟩, h.labels⟩
  obtain ⟨trees, ht⟩ := fitForest_ok (R := toyRng) (T := fun d => classifierTask toyRng realArgsort 2 d .gini .all) (d := 1 / 2)
    (depth := 1) (classifier_safe toyRng realArgsort_sorts.1 2 (1 / 2) .gini hS) hin rfl realDraw_ok (fun _ => realGarbage)
    (seeds := [3, 8]) (fun s _ => realDraw_tv s)
  have hne : neF (1 / 2 : ℝ) 0 = true := by norm_num [neF, Num.le]
  obtain ⟨ts', ts0', e1, e2, e3⟩ : ∃ ts' ts0', trees.mapM (TreeObj.setDirichlet (fun d => classifierTask toyRng realArgsort 2 d .gini .all) 0) = .ok ts' ∧
      _ ∧ List.Forall₂ SameTree ts' ts0' := mapM_fuse₂ ht (SameTree.all _) fun x _ y y0 hy hy0 =>
        (buildTree_change (v := 0) realArgsort_sorts.1 hS hin rfl realDraw_ok hy hy0).1
  refine ⟨⟨1, 1 / 2, true, none⟩, ⟨1, 1 / 2, true, some trees⟩, ⟨1, 0, true, some ts'⟩, realCtx fba, realData, rfl, by norm_num, h, ?_, ?_, rfl, rfl, rfl, ?_⟩
  · unfold ForestObj.fit
    have : neF (1 / 2 : ℝ) Num.zero = true := hne
    simp only [this, Bool.not_true, Bool.and_false, Bool.false_eq_true, if_false]
    rw [ht]
    rfl
  · unfold ForestObj.setDirichlet
    have : Num.lt (0 : ℝ) Num.zero = false := by norm_num [Num.lt, Num.zero]
    simp only [this, Bool.false_eq_true, if_false, hne, if_true, e1, bind_ok]
    rfl
  · unfold ForestObj.fit
    have : neF (0 : ℝ) Num.zero = false := by norm_num [neF, Num.le, Num.zero]
    simp only [this, Bool.not_false, Bool.and_true, if_true]

end

section
variable {F Y P G : Type} [Num F]

/-- The part of C37 that holds: calls of `fit` (on any data), of the setter of `step`, of the setter of `dirichlet` with values other than
zero, and of the setter of `aggregation` before the first fit only, never lead to a fitted forest with aggregation and with `dirichlet`
zero. Missing in comparison with C37: `dirichlet = 0` and `aggregation = True` after a fit, which the code allows. -/
theorem C37_partial (R : Rng G) (T : F → Task F Y P G) (calls : List (Call F P G)) {f0 f : ForestObj F P G} (h0 : f0.trees = none)
    (hfit : ∀ run, Call.fit run ∈ calls → ∃ draw depth c gb seeds, run = ForestObj.fit R T draw depth c gb seeds ∨
      ∃ E ys ws, run = ForestObj.fitOvr R T draw depth c gb E ys ws seeds)
    (hdir : ∀ v, Call.setDirichlet v ∈ calls → neF v Num.zero = true)
    (hagg : ∀ pre b post, calls = pre ++ Call.setAggregation b :: post → ∀ run, Call.fit run ∉ pre)
    (hrun : calls.foldlM (Call.run T) f0 = .ok f) :
    f.trees.isSome = true → f.aggregation = true → neF f.dirichlet Num.zero = true := by
  refine foldlM_inv_of_ok (I := fun pre (f : ForestObj F P G) => (f.trees.isSome = true → f.aggregation = true → neF f.dirichlet Num.zero = true) ∧
    ((∀ run, Call.fit run ∉ pre) → f.trees = none)) ⟨by simp [h0], fun _ => h0⟩ hrun ?_ |>.1
  intro pre x post s s1 hl ⟨hI, hN⟩ he
  cases x with
  | setStep v =>
    simp only [Call.run, ForestObj.setStep] at he
    split at he
    · exact absurd he (by simp)
    · split at he
      · next hn =>
        injection he with he
        subst he
        refine ⟨fun ht => ?_, fun _ => hn⟩
        simp only [hn] at ht
        exact absurd ht (by simp)
      · next ts hn =>
        rw [bind_eq_ok] at he
        obtain ⟨ts', _, he⟩ := he
        injection he with he
        subst he
        refine ⟨fun _ ha => hI (by simp [hn]) ha, fun hf => ?_⟩
        have := hN (fun run hr => hf run (by simp [hr]))
        rw [hn] at this; exact absurd this (by simp)
  | setDirichlet v =>
    have hv : neF v Num.zero = true := hdir v (by rw [hl]; simp)
    simp only [Call.run, ForestObj.setDirichlet] at he
    split at he
    · exact absurd he (by simp)
    · split at he
      · next hn =>
        injection he with he
        subst he
        exact ⟨fun _ _ => hv, fun _ => hn⟩
      · next ts hn =>
        have hno : (∀ run, Call.fit run ∉ pre ++ [Call.setDirichlet v]) → False := fun hf => by
          have := hN (fun run hr => hf run (by simp [hr]))
          rw [hn] at this; exact absurd this (by simp)
        split at he
        · rw [bind_eq_ok] at he
          obtain ⟨ts', _, he⟩ := he
          injection he with he
          subst he
          exact ⟨fun _ _ => hv, fun hf => (hno hf).elim⟩
        · injection he with he
          subst he
          exact ⟨fun _ _ => hv, fun hf => (hno hf).elim⟩
  | setAggregation b =>
    have hn := hN (hagg pre b post hl)
    simp only [Call.run, ForestObj.setAggregation] at he
    injection he with he
    subst he
    refine ⟨fun ht => ?_, fun _ => hn⟩
    simp only [hn] at ht
    exact absurd ht (by simp)
  | fit run =>
    have hfin : ∀ ts', (f1 : ForestObj F P G) → f1 = { s with trees := some ts' } → ¬(s.aggregation && !neF s.dirichlet Num.zero) = true →
        (f1.trees.isSome = true → f1.aggregation = true → neF f1.dirichlet Num.zero = true) ∧
        ((∀ r, Call.fit r ∉ pre ++ [Call.fit run]) → f1.trees = none) := by
      rintro ts' f1 rfl hc
      refine ⟨fun _ ha => ?_, fun hf => (hf run (by simp)).elim⟩
      simp only at ha ⊢
      simpa [ha] using hc
    obtain ⟨draw, depth, c, gb, seeds, rfl | ⟨E, ys, ws, rfl⟩⟩ := hfit run (by rw [hl]; simp)
    · simp only [Call.run, ForestObj.fit] at he
      split at he
      · exact absurd he (by simp)
      · next hc =>
        rw [bind_eq_ok] at he
        obtain ⟨ts', _, he⟩ := he
        injection he with he
        exact hfin ts' s1 he.symm hc
    · simp only [Call.run, ForestObj.fitOvr] at he
      split at he
      · exact absurd he (by simp)
      · next hc =>
        rw [bind_eq_ok] at he
        obtain ⟨ts', _, he⟩ := he
        injection he with he
        exact hfin ts' s1 he.symm hc

end

/-! ## Examples -/

theorem compare_real : CompareOK ℝ := fun _ _ _ h => neF_real.1 h

/-- A forest fitted on the data of the examples, and a history of changes. -/
theorem real_forest_fit (f0 : ForestObj ℝ (List ℝ) Nat) (h0 : f0.aggregation = true → f0.dirichlet ≠ 0) :
    ∃ (c : Ctx ℝ) (f : ForestObj ℝ (List ℝ) Nat), ForestInput c realData (ClassLabel 2) ∧ c.w.length = realData.n ∧ DrawsOK realData.n realDraw ∧
      f0.fit toyRng (fun d => classifierTask toyRng realArgsort 2 d .gini .all) realDraw 1 c (fun _ => realGarbage) [3, 8] = .ok f := by
  have hS : StrategyOK 2 .all := by unfold StrategyOK; decide
  obtain ⟨fba, h, hr⟩ := real_forest_input (ClassLabel 2) (fun _ h => h)
  have hin : ForestInput { realCtx fba with step := f0.step, aggregation := f0.aggregation } realData (ClassLabel 2) :=
    ⟨⟨h.holds.n, h.holds.d, h.holds.value, h.holds.bound, h.holds.y, h.holds.w, h.holds.cat⟩, ⟨h.params.feats, h.params.minSplit⟩, h.labels⟩
  obtain ⟨trees, ht⟩ := fitForest_ok (R := toyRng) (T := fun d => classifierTask toyRng realArgsort 2 d .gini .all) (d := f0.dirichlet)
    (depth := 1) (classifier_safe toyRng realArgsort_sorts.1 2 f0.dirichlet .gini hS) hin rfl realDraw_ok (fun _ => realGarbage)
    (seeds := [3, 8]) (fun s _ => realDraw_tv s)
  refine ⟨realCtx fba, { f0 with trees := some trees }, h, rfl, realDraw_ok, ?_⟩
  unfold ForestObj.fit
  rw [if_neg]
  · rw [ht]; rfl
  · intro hc
    simp only [Bool.and_eq_true, Bool.not_eq_true', neF_real] at hc
    exact h0 hc.1 hc.2

/-- Hypotheses of C35 and C36 with aggregation, and a history that passes through `dirichlet = 0`. -/
example : ∃ (c : Ctx ℝ) (f : ForestObj ℝ (List ℝ) Nat), ArgsortPerm realArgsort ∧ StrategyOK 2 .all ∧ CompareOK ℝ ∧
    (∀ d, ValidTask (classifierTask toyRng realArgsort 2 d .gini .all) (ClassLabel 2)) ∧
    ForestInput c realData (ClassLabel 2) ∧ c.w.length = realData.n ∧ DrawsOK realData.n realDraw ∧
    ForestObj.fit toyRng (fun d => classifierTask toyRng realArgsort 2 d .gini .all) realDraw 1 c (fun _ => realGarbage) [3, 8] ⟨1, 1 / 2, true, none⟩ = .ok f ∧
    (∀ x ∈ ([.dirichlet 0, .step 2, .dirichlet 3] : List (Change ℝ)), x.Valid) ∧
    lastDirichlet (1 / 2 : ℝ) [.dirichlet 0, .step 2, .dirichlet 3] ≠ 0 := by
  have hS : StrategyOK 2 .all := by unfold StrategyOK; decide
  obtain ⟨c, f, h1, h2, h3, h4⟩ := real_forest_fit ⟨1, 1 / 2, true, none⟩ (fun _ => by norm_num)
  refine ⟨c, f, realArgsort_sorts.1, hS, compare_real, fun d => .classifier _ _ _ _ realArgsort_sorts.1 hS, h1, h2, h3, h4, ?_, ?_⟩
  · simp [Change.Valid, Num.le, Num.lt, Num.zero]
  · norm_num [lastDirichlet]

/-- Hypotheses of the one-versus-rest versions, without aggregation. -/
example : ∃ (c : Ctx ℝ) (f : ForestObj ℝ (List ℝ) Nat), ArgsortPerm realArgsort ∧ StrategyOK 2 .all ∧
    (∀ k y w, hotY[k]? = some y → [realW, realW, realW][k]? = some w → ForestInput { c with y := y, w := w } (hotData k) (ClassLabel 2) ∧
      w.length = 6 ∧ (hotData k).n = 6) ∧ DrawsOK 6 realDraw ∧
    ForestObj.fitOvr toyRng (fun d => classifierTask toyRng realArgsort 2 d .gini .all) realDraw 1 c (fun _ => realGarbage) 2 hotY
      [realW, realW, realW] [5, 5, 5, 9, 9, 9] ⟨1, 0, false, none⟩ = .ok f := by
  have hS : StrategyOK 2 .all := by unfold StrategyOK; decide
  obtain ⟨fba, hr, hin⟩ := hot_input 1 false
  obtain ⟨trees, ht⟩ := hot_fit _ _ 0 hin
  refine ⟨{ realCtx fba with step := 1, aggregation := false }, ⟨1, 0, false, some trees⟩, realArgsort_sorts.1, hS,
    fun k y w hy hw => ⟨(hin k y w hy hw).1, (hin k y w hy hw).2, rfl⟩, realDraw_ok, ?_⟩
  unfold ForestObj.fitOvr
  simp only [Bool.false_and, Bool.false_eq_true, if_false]
  rw [ht]
  rfl

/-- Hypotheses of `C37_partial`: settings before a fit, a fit, changes after it. -/
example : ∃ (c : Ctx ℝ) (f : ForestObj ℝ (List ℝ) Nat), ForestInput c realData (ClassLabel 2) ∧
    ([.setAggregation true, .setDirichlet 2,
      .fit (ForestObj.fit toyRng (fun d => classifierTask toyRng realArgsort 2 d .gini .all) realDraw 1 c (fun _ => realGarbage) [3, 8]),
      .setDirichlet 2] : List (Call ℝ (List ℝ) Nat)).foldlM (Call.run fun d => classifierTask toyRng realArgsort 2 d .gini .all)
        ⟨1, 0, false, none⟩ = .ok f ∧ f.trees.isSome = true ∧ f.aggregation = true := by
  obtain ⟨c, f, h1, h2, h3, h4⟩ := real_forest_fit ⟨1, 2, true, none⟩ (fun _ => by norm_num)
  obtain ⟨ts, hf⟩ : ∃ ts, f = ⟨1, 2, true, some ts⟩ := by
    unfold ForestObj.fit at h4
    split at h4
    · exact absurd h4 (by simp)
    · rw [bind_eq_ok] at h4
      obtain ⟨ts, _, h4⟩ := h4
      injection h4 with h4
      exact ⟨ts, h4.symm⟩
  refine ⟨c, f, h1, ?_, by rw [hf]; rfl, by rw [hf]⟩
  have e1 : Num.lt (2 : ℝ) Num.zero = false := by norm_num [Num.lt, Num.zero]
  have e2 : neF (2 : ℝ) 2 = false := neF_real.2 rfl
  simp only [List.foldlM_cons, List.foldlM_nil, Call.run, ForestObj.setAggregation, bind_ok, ForestObj.setDirichlet, e1, Bool.false_eq_true, if_false, h4]
  simp only [hf, e2, Bool.false_eq_true, if_false, bind_ok, pure_eq_ok]

end Verif
