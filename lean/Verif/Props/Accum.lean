import Verif.Proofs.Accum
import Verif.Props.Pool
import Mathlib.Tactic.IntervalCases

/-! # Predictions of forests computed by worker threads -/
namespace Verif

open Spec

variable {F G : Type} [Num F]

/-- **C39** With the lock, for every interleaving of the individual reads and writes of any number of workers and for all floats: when
all trees are finished the shared array holds what one gets by adding the prediction of every tree exactly once, one tree after
the other, in some order. -/
theorem C39_exactly_once {workers n : Nat} {upd : Nat → List (Cell × F)} {out : Cell → F} (h : Ends true workers n upd out) :
    ∃ order : List Nat, order.Perm (List.range n) ∧ out = order.foldl (fun out i => applyUpd out (upd i)) fun _ => Num.zero := by
  obtain ⟨l, s, hr, hall, rfl⟩ := h
  obtain ⟨cost, hI⟩ := hr.inv
  obtain ⟨h1, h2⟩ := hI.final hall
  exact ⟨s.finished.reverse, (List.reverse_perm _).trans h1, by rw [h2, applyAll_reverse]⟩

/-- **C39** At no time two workers are inside the critical section. -/
theorem C39_mutual_exclusion {workers n : Nat} {upd : Nat → List (Cell × F)} {l : List AStep} {s : AState F}
    (h : AState.Run true workers n upd l s) {w w' i j i' j' : Nat}
    (hw : s.ws w = .adding i j ∨ ∃ v, s.ws w = .loaded i j v) (hw' : s.ws w' = .adding i' j' ∨ ∃ v, s.ws w' = .loaded i' j' v) : w = w' := by
  obtain ⟨cost, hI⟩ := h.inv
  have h1 := hI.out w (by rcases hw with e | ⟨v, e⟩ <;> rw [e] <;> rfl)
  have h2 := hI.out w' (by rcases hw' with e | ⟨v, e⟩ <;> rw [e] <;> rfl)
  rw [h1] at h2
  exact Option.some.inj h2

/-- **C39** No deadlock and no endless run: with at least one worker, every run can be continued until all trees are finished, and no
run has more than a fixed number of steps. -/
theorem C39_terminates {workers n : Nat} (hw : 0 < workers) {upd : Nat → List (Cell × F)} {l : List AStep} {s : AState F}
    (h : AState.Run true workers n upd l s) :
    l.length ≤ ((List.range n).map fun i => 2 * (upd i).length + 3).sum ∧
    ∃ l' s', AState.Run true workers n upd (l ++ l') s' ∧ ∀ i, i < n → i ∈ s'.finished := by
  have hb : ∀ {l : List AStep} {s : AState F}, AState.Run true workers n upd l s → l.length ≤ ((List.range n).map fun i => 2 * (upd i).length + 3).sum := by
    intro l s h
    obtain ⟨cost, hI⟩ := h.inv
    have := hI.count
    omega
  refine ⟨hb h, ?_⟩
  generalize hm : ((List.range n).map fun i => 2 * (upd i).length + 3).sum - l.length = m
  induction m generalizing l s with
  | zero =>
    refine ⟨[], s, by simpa using h, fun i hi => ?_⟩
    by_contra hf
    obtain ⟨cost, hI⟩ := h.inv
    obtain ⟨a, s', ha⟩ := hI.progress hw hi hf
    have := hb (h.step ha)
    rw [List.length_append, List.length_singleton] at this
    omega
  | succ m ih =>
    by_cases hall : ∀ i, i < n → i ∈ s.finished
    · exact ⟨[], s, by simpa using h, hall⟩
    · push Not at hall
      obtain ⟨i, hi, hf⟩ := hall
      obtain ⟨cost, hI⟩ := h.inv
      obtain ⟨a, s', ha⟩ := hI.progress hw hi hf
      obtain ⟨l', s2, h1, h2⟩ := ih (h.step ha) (by rw [List.length_append, List.length_singleton]; omega)
      exact ⟨a :: l', s2, by simpa using h1, h2⟩

/-! ## The three uses of the accumulation -/

section
variable {workers : Nat}

omit [Num F] in
/-- Entry `i` of the predictions. -/
theorem pred_at {P : Type} {trees : List (TreeObj F P G)} {pr : TreeObj F P G → M (List P)} {preds : List (List P)}
    (hp : trees.mapM pr = .ok preds) {x : TreeObj F P G × Nat} (hx : x ∈ trees.zipIdx) :
    pr x.1 = .ok (preds.getD x.2 []) ∧ preds.getD x.2 [] ∈ preds := by
  have hF := List.forall₂_iff_get.1 (mapM_eq_ok.1 hp)
  obtain ⟨h1, h2⟩ := List.getElem?_eq_some_iff.1 (List.mem_zipIdx_iff_getElem?.1 hx)
  have h3 : x.2 < preds.length := by rw [← hF.1]; exact h1
  have h4 := hF.2 x.2 h1 h3
  have e : preds.getD x.2 [] = preds[x.2] := by simp [List.getD_eq_getElem?_getD, List.getElem?_eq_getElem h3]
  rw [e, ← h2]
  exact ⟨h4, List.getElem_mem h3⟩

omit [Num F] in
/-- The order of completion as a permutation of the list of trees. -/
theorem order_trees {P : Type} {trees : List (TreeObj F P G)} {order : List Nat} (h : order.Perm (List.range trees.length)) :
    ∃ l : List (TreeObj F P G × Nat), l.Perm trees.zipIdx ∧ order = l.map Prod.snd := by
  have e : trees.zipIdx.map Prod.snd = List.range trees.length := by rw [List.zipIdx_map_snd, List.range_eq_range']
  rw [← e] at h
  obtain ⟨l, h1, h2⟩ := (congrFun (congrFun (List.eq_map_comp_perm (Prod.snd : TreeObj F P G × Nat → Nat)) order) trees.zipIdx).mpr h
  exact ⟨l, h2, h1⟩

omit [Num F] in
theorem order_fst {P : Type} {trees : List (TreeObj F P G)} {l : List (TreeObj F P G × Nat)} (h : l.Perm trees.zipIdx) :
    (l.map Prod.fst).Perm trees := by
  have := h.map Prod.fst
  rwa [List.zipIdx_map_fst] at this

theorem seq_multinomial {trees : List (TreeObj F (List F) G)} {fba : FBA} {preds : List (List (List F))} {n : Nat}
    (hp : trees.mapM (fun o => o.predict mixV fba) = .ok preds) (hshape : ∀ p ∈ preds, p.length = fba.nSamples ∧ ∀ row ∈ p, row.length = n)
    {l : List (TreeObj F (List F) G × Nat)} (h2 : l.Perm trees.zipIdx) :
    predictProba n (l.map Prod.fst) fba = .ok ((matrix fba.nSamples n ((l.map Prod.snd).foldl
      (fun out i => applyUpd out (updAll (preds.getD i []))) fun _ => Num.zero)).map fun row => row.map fun v => Num.div v (Num.ofNat trees.length)) := by
  obtain ⟨m, e, hm⟩ := foldlM_rep (rows := fba.nSamples) (cols := n) (fun i => updAll (preds.getD i [])) l Prod.snd
    (fun out x => do
      let p ← TreeObj.predict mixV x.1 fba
      addMat out p)
    (fun x hx m f hm => by
      obtain ⟨e1, e2⟩ := pred_at hp (h2.subset hx)
      obtain ⟨m', e3, e4⟩ := hm.addMat (hshape _ e2)
      exact ⟨m', by rw [e1, bind_ok, e3], e4⟩) _ _ (Rep.zeros fba.nSamples n)
  unfold predictProba accumulateProba
  rw [List.foldlM_map, e, bind_ok, ← hm.eq, (order_fst h2).length_eq]
  rfl

theorem seq_regression {trees : List (TreeObj F F G)} {fba : FBA} {preds : List (List F)}
    (hp : trees.mapM (fun o => o.predict mixF fba) = .ok preds) (hshape : ∀ p ∈ preds, p.length = fba.nSamples)
    {l : List (TreeObj F F G × Nat)} (h2 : l.Perm trees.zipIdx) :
    forestPredict (l.map Prod.fst) fba = .ok ((vector fba.nSamples ((l.map Prod.snd).foldl
      (fun out i => applyUpd out (updVec (preds.getD i []))) fun _ => Num.zero)).map fun v => Num.div v (Num.ofNat trees.length)) := by
  have key : ∀ (l : List (TreeObj F F G × Nat)) (f : Cell → F), (∀ x ∈ l, x ∈ trees.zipIdx) → l.foldlM (fun out x => do
      let p ← TreeObj.predict mixF x.1 fba
      addRows Num.add out p) (vector fba.nSamples f) =
        .ok (vector fba.nSamples ((l.map Prod.snd).foldl (fun out i => applyUpd out (updVec (preds.getD i []))) f)) := by
    intro l
    induction l with
    | nil => intro f _; rfl
    | cons x l ih =>
      intro f hx
      obtain ⟨e1, e2⟩ := pred_at hp (hx x (by simp))
      rw [List.foldlM_cons, e1, bind_ok, addRows_vec (hshape _ e2), bind_ok, ih _ fun y hy => hx y (by simp [hy])]
      rfl
  have hz : List.replicate fba.nSamples (Num.zero : F) = vector fba.nSamples fun _ => Num.zero := by
    simp [vector]
  unfold forestPredict
  rw [List.foldlM_map, hz, key l _ fun x hx => h2.subset hx, bind_ok, (order_fst h2).length_eq]
  rfl

theorem seq_ovr {trees : List (TreeObj F (List F) G)} {fba : FBA} {preds : List (List (List F))} {n E : Nat}
    (hE : trees.length = E * n) (hp : trees.mapM (fun o => o.predict mixV fba) = .ok preds)
    (hshape : ∀ p ∈ preds, p.length = fba.nSamples ∧ ∀ row ∈ p, row.length = 2) {l : List (TreeObj F (List F) G × Nat)} (h2 : l.Perm trees.zipIdx) :
    l.foldlM (fun out (x : TreeObj F (List F) G × Nat) => do
        let p ← x.1.predict mixV fba
        if out.length = p.length then (out.zip p).mapM fun (y : List F × List F) => addCol (x.2 / E) y.1 y.2
        else .error .valueError) (List.replicate fba.nSamples (List.replicate n Num.zero)) =
      .ok (matrix fba.nSamples n ((l.map Prod.snd).foldl (fun out i => applyUpd out (updCol (i / E) (preds.getD i []))) fun _ => Num.zero)) := by
  obtain ⟨m, e, hm⟩ := foldlM_rep (rows := fba.nSamples) (cols := n) (fun i => updCol (i / E) (preds.getD i [])) l Prod.snd
    (fun out (x : TreeObj F (List F) G × Nat) => do
      let p ← TreeObj.predict mixV x.1 fba
      if out.length = p.length then (out.zip p).mapM fun (y : List F × List F) => addCol (x.2 / E) y.1 y.2
      else .error .valueError)
    (fun x hx m f hm => by
      obtain ⟨e1, e2⟩ := pred_at hp (h2.subset hx)
      have hx2 : x.2 < trees.length := (List.getElem?_eq_some_iff.1 (List.mem_zipIdx_iff_getElem?.1 (h2.subset hx))).1
      obtain ⟨m', e3, e4⟩ := hm.addCol (col := x.2 / E) (hshape _ e2) (Nat.div_lt_of_lt_mul (by rw [← hE]; exact hx2))
      exact ⟨m', by rw [e1, bind_ok]; exact e3, e4⟩) _ _ (Rep.zeros fba.nSamples n)
  rw [← hm.eq]
  exact e

/-- **C39** `predict_proba` in multinomial mode, for all floats: what the threads compute is what the sequential program computes on
some permutation of the trees. -/
theorem C39_multinomial {trees : List (TreeObj F (List F) G)} {fba : FBA} {preds : List (List (List F))} {n : Nat} {out : Cell → F}
    (hp : trees.mapM (fun o => o.predict mixV fba) = .ok preds) (hshape : ∀ p ∈ preds, p.length = fba.nSamples ∧ ∀ row ∈ p, row.length = n)
    (h : Ends true workers trees.length (fun i => updAll (preds.getD i [])) out) :
    ∃ trees' : List (TreeObj F (List F) G), trees'.Perm trees ∧
      predictProba n trees' fba = .ok ((matrix fba.nSamples n out).map fun row => row.map fun v => Num.div v (Num.ofNat trees.length)) := by
  obtain ⟨order, h1, rfl⟩ := C39_exactly_once h
  obtain ⟨l, h2, rfl⟩ := order_trees h1
  exact ⟨l.map Prod.fst, order_fst h2, seq_multinomial hp hshape h2⟩

/-- **C39** `predict` of the regressor, for all floats. -/
theorem C39_regression {trees : List (TreeObj F F G)} {fba : FBA} {preds : List (List F)} {out : Cell → F}
    (hp : trees.mapM (fun o => o.predict mixF fba) = .ok preds) (hshape : ∀ p ∈ preds, p.length = fba.nSamples)
    (h : Ends true workers trees.length (fun i => updVec (preds.getD i [])) out) :
    ∃ trees' : List (TreeObj F F G), trees'.Perm trees ∧
      forestPredict trees' fba = .ok ((vector fba.nSamples out).map fun v => Num.div v (Num.ofNat trees.length)) := by
  obtain ⟨order, h1, rfl⟩ := C39_exactly_once h
  obtain ⟨l, h2, rfl⟩ := order_trees h1
  exact ⟨l.map Prod.fst, order_fst h2, seq_regression hp hshape h2⟩

/-- **C39** `predict_proba` in one-versus-rest mode, for all floats: tree number `i` is added to column `i // n_estimators`. -/
theorem C39_ovr {trees : List (TreeObj F (List F) G)} {fba : FBA} {preds : List (List (List F))} {n E : Nat} {out : Cell → F}
    (hE : trees.length = E * n) (hp : trees.mapM (fun o => o.predict mixV fba) = .ok preds)
    (hshape : ∀ p ∈ preds, p.length = fba.nSamples ∧ ∀ row ∈ p, row.length = 2)
    (h : Ends true workers trees.length (fun i => updCol (i / E) (preds.getD i [])) out) :
    ∃ order : List (TreeObj F (List F) G × Nat), order.Perm trees.zipIdx ∧
      order.foldlM (fun out (x : TreeObj F (List F) G × Nat) => do
        let p ← x.1.predict mixV fba
        if out.length = p.length then (out.zip p).mapM fun (y : List F × List F) => addCol (x.2 / E) y.1 y.2
        else .error .valueError) (List.replicate fba.nSamples (List.replicate n Num.zero)) = .ok (matrix fba.nSamples n out) := by
  obtain ⟨order, h1, rfl⟩ := C39_exactly_once h
  obtain ⟨l, h2, rfl⟩ := order_trees h1
  exact ⟨l, h2, seq_ovr hE hp hshape h2⟩

end

/-! ## Over the real numbers: the schedule does not matter -/

section
variable {workers : Nat}

/-- **C39** Over the real numbers the contents of the shared array is the sum over all trees, whatever the interleaving. -/
theorem C39_sum {n : Nat} {upd : Nat → List (Cell × ℝ)} {out : Cell → ℝ} (h : Ends true workers n upd out) (a : Cell) :
    out a = ((List.range n).map fun i => (((upd i).filter fun x => decide (x.1 = a)).map Prod.snd).sum).sum := by
  obtain ⟨order, h1, rfl⟩ := C39_exactly_once h
  rw [foldl_perm_real upd h1, foldl_sum_real]
  have : (Num.zero : ℝ) = 0 := rfl
  rw [this, zero_add]
  congr 1
  refine List.map_congr_left fun i _ => ?_
  rw [applyUpd_real, zero_add]

/-- **C39** Two complete runs, with any numbers of workers and any interleavings, end with the same array. -/
theorem C39_schedule_independent {workers' n : Nat} {upd : Nat → List (Cell × ℝ)} {out out' : Cell → ℝ} (h : Ends true workers n upd out)
    (h' : Ends true workers' n upd out') : out = out' := by
  funext a
  rw [C39_sum h, C39_sum h']

/-- **C39** `predict_proba` in multinomial mode, over the real numbers: the threads compute what the sequential program computes. -/
theorem C39_multinomial_real {trees : List (TreeObj ℝ (List ℝ) G)} {fba : FBA} {preds : List (List (List ℝ))} {n : Nat} {out : Cell → ℝ}
    (hp : trees.mapM (fun o => o.predict mixV fba) = .ok preds) (hshape : ∀ p ∈ preds, p.length = fba.nSamples ∧ ∀ row ∈ p, row.length = n)
    (h : Ends true workers trees.length (fun i => updAll (preds.getD i [])) out) :
    predictProba n trees fba = .ok ((matrix fba.nSamples n out).map fun row => row.map fun v => v / trees.length) := by
  obtain ⟨order, h1, rfl⟩ := C39_exactly_once h
  have := seq_multinomial hp hshape (List.Perm.refl trees.zipIdx)
  rwa [List.zipIdx_map_fst, List.zipIdx_map_snd, ← List.range_eq_range', ← foldl_perm_real _ h1] at this

/-- **C39** `predict` of the regressor, over the real numbers. -/
theorem C39_regression_real {trees : List (TreeObj ℝ ℝ G)} {fba : FBA} {preds : List (List ℝ)} {out : Cell → ℝ}
    (hp : trees.mapM (fun o => o.predict mixF fba) = .ok preds) (hshape : ∀ p ∈ preds, p.length = fba.nSamples)
    (h : Ends true workers trees.length (fun i => updVec (preds.getD i [])) out) :
    forestPredict trees fba = .ok ((vector fba.nSamples out).map fun v => v / trees.length) := by
  obtain ⟨order, h1, rfl⟩ := C39_exactly_once h
  have := seq_regression hp hshape (List.Perm.refl trees.zipIdx)
  rwa [List.zipIdx_map_fst, List.zipIdx_map_snd, ← List.range_eq_range', ← foldl_perm_real _ h1] at this

/-- **C39** `predict_proba` in one-versus-rest mode, over the real numbers. -/
theorem C39_ovr_real {trees : List (TreeObj ℝ (List ℝ) G)} {fba : FBA} {preds : List (List (List ℝ))} {n E : Nat} {eps : ℝ} {out : Cell → ℝ}
    (hE : trees.length = E * n) (hp : trees.mapM (fun o => o.predict mixV fba) = .ok preds)
    (hshape : ∀ p ∈ preds, p.length = fba.nSamples ∧ ∀ row ∈ p, row.length = 2)
    (h : Ends true workers trees.length (fun i => updCol (i / E) (preds.getD i [])) out) :
    predictProbaOvr eps n E trees fba = .ok ((matrix fba.nSamples n out).map (normRow eps n)) := by
  obtain ⟨order, h1, rfl⟩ := C39_exactly_once h
  have := seq_ovr hE hp hshape (List.Perm.refl trees.zipIdx)
  rw [List.zipIdx_map_snd, ← List.range_eq_range', ← foldl_perm_real _ h1] at this
  unfold predictProbaOvr
  have e := congrArg (fun r => r >>= fun (out : List (List ℝ)) => (pure (out.map (normRow eps n)) : M (List (List ℝ)))) this
  exact e

end

/-! ## Fitted forests -/

section
variable {R : Rng G} {argsort : List ℝ → List Nat} {c : Ctx ℝ} {D : Data ℝ} {draw : Nat → List Nat} {depth : Nat} {gb : Nat → Garbage ℝ}
  {d : ℝ} {seeds : List Nat} {fba : FBA}

/-- **C39** Every fitted multinomial forest: the trees predict without failure, some run of the threads completes, and every run of any
number of threads that completes gives the result of the sequential program. -/
theorem C39_fitted_multinomial (ha : ArgsortPerm argsort) {n : Nat} {cr : Criterion} {s : CatStrategy} (hS : StrategyOK n s)
    (h : ForestInput c D (ClassLabel n)) (hlen : c.w.length = D.n) (hdraw : DrawsOK D.n draw) (hd : 0 ≤ d)
    (hw : ∀ i, i < D.n → 0 ≤ D.w i) (hpos : 0 < d ∨ ∀ i, i < D.n → 0 < D.w i) {trees : List (TreeObj ℝ (List ℝ) G)}
    (hf : fitForest R (fun d => classifierTask R argsort n d cr s) draw depth c gb d seeds = .ok trees) (hx : RowsOK fba D.d) :
    ∃ preds, trees.mapM (fun o => o.predict mixV fba) = .ok preds ∧ ∀ workers, 0 < workers →
      (∃ out, Ends true workers trees.length (fun i => updAll (preds.getD i [])) out) ∧
      ∀ out, Ends true workers trees.length (fun i => updAll (preds.getD i [])) out →
        predictProba n trees fba = .ok ((matrix fba.nSamples n out).map fun row => row.map fun v => v / trees.length) := by
  obtain ⟨hl, ht⟩ := fitForest_inv hf
  have hall : ∀ o ∈ trees, ∃ p, o.predict mixV fba = .ok p ∧ p.length = fba.nSamples ∧ ∀ v ∈ p, Distribution n v := by
    intro o ho
    obtain ⟨s, i, _, hb⟩ := ht o ho
    obtain ⟨b, w, hB⟩ := buildTree_inv hdraw h hlen hb
    exact hB.predict_class ha hS hd hw hpos hx
  obtain ⟨preds, hp⟩ := mapM_total (f := fun o => TreeObj.predict mixV o fba) fun o ho => by
    obtain ⟨p, h1, _⟩ := hall o ho; exact ⟨p, h1⟩
  refine ⟨preds, hp, fun workers hwk => ⟨?_, fun out ho => C39_multinomial_real hp (fun p hpm => ?_) ho⟩⟩
  · obtain ⟨_, l, s, h1, h2⟩ := C39_terminates hwk (AState.Run.nil (useLock := true) (n := trees.length) (upd := fun i => updAll (preds.getD i [])))
    exact ⟨_, _, s, h1, h2, rfl⟩
  · obtain ⟨o, ho, e⟩ := mapM_mem_inv hp hpm
    obtain ⟨p', h1, h2, h3⟩ := hall o ho
    rw [h1] at e
    injection e with e
    subst e
    exact ⟨h2, fun r hr => (h3 r hr).1⟩

/-- **C39** Every fitted regression forest. -/
theorem C39_fitted_regression (ha : ArgsortPerm argsort) (h : ForestInput c D (fun _ => True)) (hlen : c.w.length = D.n)
    (hdraw : DrawsOK D.n draw) {trees : List (TreeObj ℝ ℝ G)}
    (hf : fitForest R (fun _ => regressorTask argsort) draw depth c gb d seeds = .ok trees) (hx : RowsOK fba D.d) :
    ∃ preds, trees.mapM (fun o => o.predict mixF fba) = .ok preds ∧ ∀ workers, 0 < workers →
      (∃ out, Ends true workers trees.length (fun i => updVec (preds.getD i [])) out) ∧
      ∀ out, Ends true workers trees.length (fun i => updVec (preds.getD i [])) out →
        forestPredict trees fba = .ok ((vector fba.nSamples out).map fun v => v / trees.length) := by
  obtain ⟨hl, ht⟩ := fitForest_inv hf
  have hall : ∀ o ∈ trees, ∃ p, o.predict mixF fba = .ok p ∧ p.length = fba.nSamples := by
    intro o ho
    obtain ⟨s, i, _, hb⟩ := ht o ho
    obtain ⟨b, w, hB⟩ := buildTree_inv hdraw h hlen hb
    obtain ⟨t, hF⟩ := fitted_of (regressor_safe ha) hB.input hB.fit
    obtain ⟨p, h1, h2, _⟩ := mapM_range (n := fba.nSamples) (f := fun i => predictRow mixF o.arr fba o.aggregation o.step i) (Q := fun _ => True)
      fun i hi => by
        rw [hB.agg, hB.step]
        exact predictRow_inv hF mixF (fun _ => True) (fun _ _ => trivial) (fun _ _ _ => trivial) (hx i hi)
    exact ⟨p, h1, h2⟩
  obtain ⟨preds, hp⟩ := mapM_total (f := fun o => TreeObj.predict mixF o fba) fun o ho => by
    obtain ⟨p, h1, _⟩ := hall o ho; exact ⟨p, h1⟩
  refine ⟨preds, hp, fun workers hwk => ⟨?_, fun out ho => C39_regression_real hp (fun p hpm => ?_) ho⟩⟩
  · obtain ⟨_, l, s, h1, h2⟩ := C39_terminates hwk (AState.Run.nil (useLock := true) (n := trees.length) (upd := fun i => updVec (preds.getD i [])))
    exact ⟨_, _, s, h1, h2, rfl⟩
  · obtain ⟨o, ho, e⟩ := mapM_mem_inv hp hpm
    obtain ⟨p', h1, h2⟩ := hall o ho
    rw [h1] at e
    injection e with e
    exact e ▸ h2

/-- **C39** Every fitted one-versus-rest forest. -/
theorem C39_fitted_ovr (ha : ArgsortPerm argsort) {n E : Nat} {cr : Criterion} {s : CatStrategy} (hS : StrategyOK 2 s)
    {Dk : Nat → Data ℝ} {N m : Nat} {ys ws : List (List ℝ)} (hseeds : seeds.length = E * n)
    (h : ∀ k y w, ys[k]? = some y → ws[k]? = some w → ForestInput { c with y := y, w := w } (Dk k) (ClassLabel 2) ∧
      w.length = N ∧ (Dk k).n = N ∧ (Dk k).d = m ∧ (∀ i, i < N → 0 ≤ (Dk k).w i) ∧ (0 < d ∨ ∀ i, i < N → 0 < (Dk k).w i))
    (hdraw : DrawsOK N draw) (hd : 0 ≤ d) {eps : ℝ} {trees : List (TreeObj ℝ (List ℝ) G)}
    (hf : fitOvr R (fun d => classifierTask R argsort 2 d cr s) draw depth c gb d E ys ws seeds = .ok trees)
    (hx : RowsOK fba m) :
    ∃ preds, trees.mapM (fun o => o.predict mixV fba) = .ok preds ∧ ∀ workers, 0 < workers →
      (∃ out, Ends true workers trees.length (fun i => updCol (i / E) (preds.getD i [])) out) ∧
      ∀ out, Ends true workers trees.length (fun i => updCol (i / E) (preds.getD i [])) out →
        predictProbaOvr eps n E trees fba = .ok ((matrix fba.nSamples n out).map (normRow eps n)) := by
  unfold fitOvr at hf
  have hl : trees.length = E * n := by rw [← (mapM_eq_ok.1 hf).length_eq]; simp [hseeds]
  have hall : ∀ o ∈ trees, ∃ p, o.predict mixV fba = .ok p ∧ p.length = fba.nSamples ∧ ∀ v ∈ p, Distribution 2 v := by
    intro o ho
    obtain ⟨⟨sd, i⟩, hi, hb⟩ := mapM_mem_inv hf ho
    rw [bind_eq_ok] at hb
    obtain ⟨y, hy, hb⟩ := hb
    rw [bind_eq_ok] at hb
    obtain ⟨w, hw, hb⟩ := hb
    obtain ⟨q1, q2, q3, q4, q5, q6⟩ := h _ y w (rd_ok.1 hy) (rd_ok.1 hw)
    obtain ⟨b, w', hB⟩ := buildTree_inv (D := Dk (i / E)) (by rw [q3]; exact hdraw) q1 (by rw [q3]; exact q2) hb
    exact hB.predict_class ha hS hd (by rw [q3]; exact q5) (by rw [q3]; exact q6) (by rw [q4]; exact hx)
  obtain ⟨preds, hp⟩ := mapM_total (f := fun o => TreeObj.predict mixV o fba) fun o ho => by
    obtain ⟨p, h1, _⟩ := hall o ho; exact ⟨p, h1⟩
  refine ⟨preds, hp, fun workers hwk => ⟨?_, fun out ho => C39_ovr_real hl hp (fun p hpm => ?_) ho⟩⟩
  · obtain ⟨_, l, s, h1, h2⟩ := C39_terminates hwk (AState.Run.nil (useLock := true) (n := trees.length) (upd := fun i => updCol (i / E) (preds.getD i [])))
    exact ⟨_, _, s, h1, h2, rfl⟩
  · obtain ⟨o, ho, e⟩ := mapM_mem_inv hp hpm
    obtain ⟨p', h1, h2, h3⟩ := hall o ho
    rw [h1] at e
    injection e with e
    subst e
    exact ⟨h2, fun r hr => (h3 r hr).1⟩

end

/-- The hypotheses of `C39_fitted_multinomial` and with it those of `C39_multinomial`, `C39_multinomial_real`, `C39_exactly_once`,
`C39_sum` and `C39_schedule_independent`: two trees of which the trees and their predictions are those of a fitted forest. -/
example : ∃ (fba : FBA) (trees : List (TreeObj ℝ (List ℝ) Nat)) (preds : List (List (List ℝ))) (out : Cell → ℝ), trees.length = 2 ∧
    fitForest toyRng (fun d => classifierTask toyRng realArgsort 2 d .gini .all) realDraw 1 (realCtx fba) (fun _ => realGarbage) (1 / 2) [3, 8] = .ok trees ∧
    trees.mapM (fun o => o.predict mixV fba) = .ok preds ∧ Ends true 3 trees.length (fun i => updAll (preds.getD i [])) out := by
  have hS : StrategyOK 2 .all := by unfold StrategyOK; decide
  obtain ⟨fba, h, hr⟩ := real_forest_input (ClassLabel 2) (fun _ h => h)
  obtain ⟨trees, ht⟩ := fitForest_ok (R := toyRng) (T := fun d => classifierTask toyRng realArgsort 2 d .gini .all) (d := 1 / 2)
    (depth := 1) (classifier_safe toyRng realArgsort_sorts.1 2 (1 / 2) .gini hS) h rfl realDraw_ok (fun _ => realGarbage)
    (seeds := [3, 8]) (fun s _ => realDraw_tv s)
  obtain ⟨preds, hp, h1⟩ := C39_fitted_multinomial realArgsort_sorts.1 hS h rfl realDraw_ok (by norm_num) (fun i hi => (real_weight i hi).le)
    (.inl (by norm_num)) ht hr
  obtain ⟨out, ho⟩ := (h1 3 (by decide)).1
  exact ⟨fba, trees, preds, out, (fitForest_inv ht).1, ht, hp, ho⟩

/-- The same for regression. -/
example : ∃ (fba : FBA) (trees : List (TreeObj ℝ ℝ Nat)) (preds : List (List ℝ)) (out : Cell → ℝ), trees.length = 2 ∧
    fitForest toyRng (fun _ => regressorTask realArgsort) realDraw 1 (realCtx fba) (fun _ => realGarbage) 0 [3, 8] = .ok trees ∧
    trees.mapM (fun o => o.predict mixF fba) = .ok preds ∧ Ends true 3 trees.length (fun i => updVec (preds.getD i [])) out := by
  obtain ⟨fba, h, hr⟩ := real_forest_input (fun _ => True) (fun _ _ => trivial)
  obtain ⟨trees, ht⟩ := fitForest_ok (R := toyRng) (T := fun _ => regressorTask realArgsort) (d := 0) (depth := 1)
    (regressor_safe realArgsort_sorts.1) h rfl realDraw_ok (fun _ => realGarbage) (seeds := [3, 8]) (fun s _ => realDraw_tv s)
  obtain ⟨preds, hp, h1⟩ := C39_fitted_regression realArgsort_sorts.1 h rfl realDraw_ok ht hr
  obtain ⟨out, ho⟩ := (h1 3 (by decide)).1
  exact ⟨fba, trees, preds, out, (fitForest_inv ht).1, ht, hp, ho⟩

/-- The same in one-versus-rest mode: three classes and two estimators. -/
example : ∃ (c : Ctx ℝ) (trees : List (TreeObj ℝ (List ℝ) Nat)) (preds : List (List (List ℝ))) (out : Cell → ℝ), trees.length = 2 * 3 ∧
    fitOvr toyRng (fun d => classifierTask toyRng realArgsort 2 d .gini .all) realDraw 1 c (fun _ => realGarbage) (1 / 2) 2 hotY
      [realW, realW, realW] [5, 5, 5, 9, 9, 9] = .ok trees ∧
    trees.mapM (fun o => o.predict mixV c.fba) = .ok preds ∧ Ends true 4 trees.length (fun i => updCol (i / 2) (preds.getD i [])) out := by
  have hS : StrategyOK 2 .all := by unfold StrategyOK; decide
  obtain ⟨fba, hr, hin⟩ := hot_input 1 true
  obtain ⟨trees, ht⟩ := hot_fit _ _ (1 / 2) hin
  obtain ⟨preds, hp, h1⟩ := C39_fitted_ovr (n := 3) (eps := 0) (N := 6) (m := 2) (Dk := hotData) realArgsort_sorts.1 hS rfl (fun k y w hy hw => by
    obtain ⟨q1, q2⟩ := hin k y w hy hw
    exact ⟨q1, q2, rfl, rfl, fun i hi => (real_weight i hi).le, .inl (by norm_num)⟩) realDraw_ok (by norm_num) ht hr
  obtain ⟨out, ho⟩ := (h1 4 (by decide)).1
  refine ⟨_, trees, preds, out, ?_, ht, hp, ho⟩
  unfold fitOvr at ht
  rw [← (mapM_eq_ok.1 ht).length_eq]
  rfl

/-! ## The lock is needed -/

/-- A trace of steps from the initial state. -/
def trace (useLock : Bool) (workers n : Nat) (upd : Nat → List (Cell × F)) (l : List AStep) : Option (AState F) :=
  l.foldlM (fun s a => s.act useLock workers n upd a) AState.init

theorem trace_run {useLock : Bool} {workers n : Nat} {upd : Nat → List (Cell × F)} {l : List AStep} {s : AState F}
    (h : trace useLock workers n upd l = some s) : AState.Run useLock workers n upd l s := by
  induction l using List.reverseRecOn generalizing s with
  | nil => simp only [trace, List.foldlM_nil] at h; injection h with h; exact h ▸ .nil
  | append_singleton l a ih =>
    unfold trace at h ih
    rw [List.foldlM_append] at h
    simp only [List.foldlM_cons, List.foldlM_nil, Option.bind_eq_bind, Option.bind_eq_some_iff] at h
    obtain ⟨s1, h1, s2, h2, h3⟩ := h
    injection h3 with h3
    exact (ih h1).step (h3 ▸ h2)

/-- **C39** Without the lock there is an interleaving of two workers that loses the first of two trees, whatever the predictions: both
read the old value before one of them writes. -/
theorem C39_lock_needed (a b : F) : ∃ out, Ends false 2 2 (fun i => updVec [if i = 0 then a else b]) out ∧ out (0, 0) = Num.add Num.zero b := by
  refine ⟨_, ⟨[.start 0 0, .start 1 1, .acquire 0, .acquire 1, .read 0, .read 1, .write 0, .write 1, .release 0, .release 1], _,
    trace_run rfl, ?_, rfl⟩, ?_⟩
  · intro i hi
    interval_cases i <;> simp
  · simp [AState.init]

/-- An interleaving with the lock in which the second tree is added first while the other worker waits. -/
example : Ends true 2 2 (fun i => updVec [if i = 0 then (3 : ℝ) else 5]) (fun a => if a = (0, 0) then 8 else 0) := by
  refine ⟨[.start 0 0, .start 1 1, .acquire 1, .read 1, .write 1, .release 1, .acquire 0, .read 0, .write 0, .release 0], _,
    trace_run rfl, ?_, ?_⟩
  · intro i hi
    interval_cases i <;> simp
  · funext a
    by_cases h : a = (0, 0)
    · subst h; norm_num [AState.init, Num.add, Num.zero]
    · simp [AState.init, Num.zero, h]

end Verif
