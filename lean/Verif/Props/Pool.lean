import Verif.Proofs.Pool
import Verif.Proofs.Scratch
import Verif.Props.Setters

/-! # Independence of the fit from uninitialised memory and from the schedule of the worker threads -/
namespace Verif

open Spec

variable {F Y P G : Type} [Num F]

/-- **C53** The fit of a forest does not depend on the contents of the arrays created by `np.empty`: two fits with different
contents fail in the same way, or give trees that agree on everything but the scratch buffers and the unused end of
`bin_partitions`, and that predict the same on all data. For all floats, data (valid or not), parameters and draws. -/
theorem C53_uninitialised_memory (R : Rng G) (T : F → Task F Y P G) (draw : Nat → List Nat) (depth : Nat) (c : Ctx F) (gb gb' : Nat → Garbage F)
    (d : F) (seeds : List Nat) :
    SameResult (List.Forall₂ fun o o' => SameButScratch o o' ∧ ∀ mix fba, o.predict mix fba = o'.predict mix fba)
      (fitForest R T draw depth c gb d seeds) (fitForest R T draw depth c gb' d seeds) := by
  unfold fitForest
  refine SameResult.mapM fun x _ => ?_
  exact (buildTree_same R T draw depth c (gb x.2) (gb' x.2) d x.1).mono fun o o' h => ⟨h.1, fun mix fba => predict_same h.1 h.2 mix fba⟩

/-- **C53** The same in one-versus-rest mode. -/
theorem C53_uninitialised_memory_ovr (R : Rng G) (T : F → Task F Y P G) (draw : Nat → List Nat) (depth : Nat) (c : Ctx F)
    (gb gb' : Nat → Garbage F) (d : F) (E : Nat) (ys ws : List (List F)) (seeds : List Nat) :
    SameResult (List.Forall₂ fun o o' => SameButScratch o o' ∧ ∀ mix fba, o.predict mix fba = o'.predict mix fba)
      (fitOvr R T draw depth c gb d E ys ws seeds) (fitOvr R T draw depth c gb' d E ys ws seeds) := by
  unfold fitOvr
  refine SameResult.mapM fun x _ => ?_
  refine SameResult.same.bind fun y _ hb => ?_
  subst hb
  refine SameResult.same.bind fun w _ hb => ?_
  subst hb
  exact (buildTree_same R T draw depth _ (gb x.2) (gb' x.2) d x.1).mono fun o o' h => ⟨h.1, fun mix fba => predict_same h.1 h.2 mix fba⟩

/-- What the pool guarantees, for the trees of a sequential fit. -/
structure PoolGuarantee (act : Pool F P G → Action → Option (M (Pool F P G))) (run : List Action → Pool F P G → Prop) (workers bound : Nat)
    (trees : List (TreeObj F P G)) (same : TreeObj F P G → TreeObj F P G → Prop) : Prop where
  /-- no action fails -/
  noFailure : ∀ l s, run l s → ∀ a r, act s a = some r → ∃ s', r = .ok s'
  /-- with at least one worker some action is possible until all trees are fitted -/
  progress : ∀ l s, run l s → 0 < workers → (∃ i, i < trees.length ∧ s.done i = none) → ∃ a r, act s a = some r
  /-- the number of actions is bounded -/
  bounded : ∀ l s, run l s → l.length ≤ bound
  /-- a finished tree is the tree of the sequential fit -/
  result : ∀ l s, run l s → ∀ i o, s.done i = some o → ∃ o', trees[i]? = some o' ∧ same o o'

theorem pool_guarantee {R : Rng G} {T : F → Task F Y P G} {d : F} {prep : Nat → M (Prep F)} {trees trees' : List (TreeObj F P G)}
    {same : TreeObj F P G → TreeObj F P G → Prop}
    (hok : ∀ (i : Nat) o, trees'[i]? = some o → ∃ p, prep i = .ok p ∧ TreeObj.fit R T p.c p.gb p.seed d p.train p.valid = .ok o)
    (hs : List.Forall₂ same trees' trees) (workers : Nat) (gen : Nat → G) :
    PoolGuarantee (fun s => s.act R T d workers trees.length prep) (Pool.Run R T d workers trees.length prep (Pool.init gen)) workers
      ((List.range trees.length).map (costOf prep)).sum trees same := by
  have hl := hs.length_eq
  by_cases hz : trees.length = 0
  · have hrun : ∀ l s, Pool.Run R T d workers trees.length prep (Pool.init gen) l s → l = [] ∧ s = Pool.init gen := by
      intro l s h
      induction h with
      | nil => exact ⟨rfl, rfl⟩
      | @step _ _ a _ _ ha ih =>
        obtain ⟨rfl, rfl⟩ := ih
        cases a with
        | start w i =>
          simp only [Pool.act] at ha
          split at ha
          · omega
          · exact absurd ha (by simp)
        | advance w => simp [Pool.act, Pool.init] at ha
    refine ⟨?_, ?_, ?_, ?_⟩
    · intro l s h a r ha
      obtain ⟨rfl, rfl⟩ := hrun l s h
      cases a with
      | start w i =>
        simp only [Pool.act] at ha
        split at ha
        · omega
        · exact absurd ha (by simp)
      | advance w => simp [Pool.act, Pool.init] at ha
    · rintro l s h _ ⟨i, hi, _⟩
      omega
    · intro l s h
      obtain ⟨rfl, rfl⟩ := hrun l s h
      simp
    · intro l s h i o ho
      obtain ⟨rfl, rfl⟩ := hrun l s h
      simp [Pool.init] at ho
  · have hpos : 0 < trees'.length := by omega
    set target : Nat → TreeObj F P G := fun i => trees'.getD i trees'[0] with htarget
    have hok' : ∀ i, i < trees.length → ∃ p, prep i = .ok p ∧ TreeObj.fit R T p.c p.gb p.seed d p.train p.valid = .ok (target i) := by
      intro i hi
      refine hok i _ ?_
      simp only [htarget, List.getD_eq_getElem?_getD]
      rw [List.getElem?_eq_getElem (by omega)]
      rfl
    have hinv := fun l s h => Run.inv (l := l) (s := s) hok' (gen := gen) (workers := workers) h
    refine ⟨?_, ?_, ?_, ?_⟩
    · intro l s h a r ha
      obtain ⟨cost, hI⟩ := hinv l s h
      obtain ⟨s', _, e, _⟩ := hI.step hok' ha
      exact ⟨s', e⟩
    · rintro l s h hw ⟨i, hi, hd⟩
      obtain ⟨cost, hI⟩ := hinv l s h
      have hadv : ∀ w x, s.job w = some x → ∃ a r, s.act R T d workers trees.length prep a = some r := by
        intro w x hx
        obtain ⟨j, p, st⟩ := x
        exact ⟨.advance w, _, by simp only [Pool.act, hx]; rfl⟩
      by_cases hst : i ∈ s.started
      · rcases hI.somewhere i hst with ⟨o, ho⟩ | ⟨w, p, st, hj⟩
        · rw [hd] at ho; exact absurd ho (by simp)
        · exact hadv w _ hj
      · cases hj : s.job 0 with
        | some x => exact hadv 0 x hj
        | none => exact ⟨.start 0 i, _, by simp only [Pool.act, if_pos (show 0 < workers ∧ i < trees.length ∧ (s.job 0).isNone = true ∧ i ∉ s.started from ⟨hw, hi, by simp [hj], hst⟩)]; rfl⟩
    · intro l s h
      obtain ⟨cost, hI⟩ := hinv l s h
      have := hI.count
      omega
    · intro l s h i o ho
      obtain ⟨cost, hI⟩ := hinv l s h
      obtain ⟨h1, rfl⟩ := hI.done i o ho
      have hi := hI.lt i h1
      refine ⟨trees[i], List.getElem?_eq_getElem hi, ?_⟩
      have := List.forall₂_iff_get.1 hs
      have h2 := this.2 i (by omega) hi
      have h3 : target i = trees'[i] := by
        simp only [htarget, List.getD_eq_getElem?_getD]
        rw [List.getElem?_eq_getElem (by omega)]
        rfl
      rw [h3]
      simpa using h2

/-- **C38** Fitting in worker threads: whatever the number of workers, the assignment of trees to workers, the interleaving of
the iterations of the workers, the state of the generators of the threads at the beginning and the contents of uninitialised
memory (`gb` in the threads, `gb'` in the sequential fit), if the sequential fit succeeds then no worker fails, the pool does not
get stuck before all trees are fitted, the number of actions has a bound that does not depend on the schedule, and tree `i` is
tree `i` of the sequential fit, up to scratch memory. -/
theorem C38_schedule (R : Rng G) (T : F → Task F Y P G) (draw : Nat → List Nat) (depth : Nat) (c : Ctx F) (gb gb' : Nat → Garbage F)
    (d : F) (seeds : List Nat) {trees : List (TreeObj F P G)} (hf : fitForest R T draw depth c gb' d seeds = .ok trees)
    (prep : Nat → M (Prep F)) (hp : ∀ i, prep i = (rd seeds i >>= fun s => prepare draw depth c (gb i) s)) :
    trees.length = seeds.length ∧ ∃ bound, ∀ workers gen,
      PoolGuarantee (fun s => s.act R T d workers trees.length prep) (Pool.Run R T d workers trees.length prep (Pool.init gen)) workers bound trees
        fun o o' => SameButScratch o o' ∧ ∀ mix fba, o.predict mix fba = o'.predict mix fba := by
  have h := C53_uninitialised_memory R T draw depth c gb gb' d seeds
  rw [hf] at h
  cases hf' : fitForest R T draw depth c gb d seeds with
  | error e => rw [hf'] at h; exact h.elim
  | ok trees' =>
    rw [hf'] at h
    refine ⟨(fitForest_inv hf).1, _, fun workers gen => pool_guarantee (fun i o hi => ?_) h workers gen⟩
    have hm := List.forall₂_iff_get.1 (mapM_eq_ok.1 hf')
    obtain ⟨hlt, e⟩ := List.getElem?_eq_some_iff.1 hi
    have h2 := hm.2 i (by rw [hm.1]; exact hlt) hlt
    simp only [List.get_eq_getElem, List.getElem_zipIdx, Nat.zero_add] at h2
    have hls : i < seeds.length := by have := hm.1; simp at this; omega
    rw [buildTree_prepare, bind_eq_ok] at h2
    obtain ⟨p, h3, h4⟩ := h2
    refine ⟨p, ?_, by rw [h4, e]⟩
    rw [hp, rd_of_lt hls, bind_ok, h3]

/-- **C38** The same in one-versus-rest mode. -/
theorem C38_schedule_ovr (R : Rng G) (T : F → Task F Y P G) (draw : Nat → List Nat) (depth : Nat) (c : Ctx F) (gb gb' : Nat → Garbage F)
    (d : F) (E : Nat) (ys ws : List (List F)) (seeds : List Nat) {trees : List (TreeObj F P G)}
    (hf : fitOvr R T draw depth c gb' d E ys ws seeds = .ok trees)
    (prep : Nat → M (Prep F)) (hp : ∀ i, prep i = (rd seeds i >>= fun s => prepareOvr draw depth c (gb i) E ys ws i s)) :
    trees.length = seeds.length ∧ ∃ bound, ∀ workers gen,
      PoolGuarantee (fun s => s.act R T d workers trees.length prep) (Pool.Run R T d workers trees.length prep (Pool.init gen)) workers bound trees
        fun o o' => SameButScratch o o' ∧ ∀ mix fba, o.predict mix fba = o'.predict mix fba := by
  have h := C53_uninitialised_memory_ovr R T draw depth c gb gb' d E ys ws seeds
  rw [hf] at h
  cases hf' : fitOvr R T draw depth c gb d E ys ws seeds with
  | error e => rw [hf'] at h; exact h.elim
  | ok trees' =>
    rw [hf'] at h
    have hm := List.forall₂_iff_get.1 (mapM_eq_ok.1 hf')
    refine ⟨by rw [← h.length_eq, ← hm.1]; simp, _, fun workers gen => pool_guarantee (fun i o hi => ?_) h workers gen⟩
    obtain ⟨hlt, e⟩ := List.getElem?_eq_some_iff.1 hi
    have h2 := hm.2 i (by rw [hm.1]; exact hlt) hlt
    simp only [List.get_eq_getElem, List.getElem_zipIdx, Nat.zero_add] at h2
    have hls : i < seeds.length := by have := hm.1; simp at this; omega
    rw [bind_eq_ok] at h2
    obtain ⟨y, e1, h2⟩ := h2
    rw [bind_eq_ok] at h2
    obtain ⟨w, e2, h2⟩ := h2
    rw [buildTree_prepare, bind_eq_ok] at h2
    obtain ⟨p, h3, h4⟩ := h2
    refine ⟨p, ?_, by rw [h4, e]⟩
    rw [hp, rd_of_lt hls, bind_ok]
    unfold prepareOvr
    rw [e1, bind_ok, e2, bind_ok, h3]

/-- **C38** In a complete run the list of the finished trees is the list of the trees of the sequential fit; with the same
contents of uninitialised memory it is exactly the same list. -/
theorem C38_trees (R : Rng G) (T : F → Task F Y P G) (draw : Nat → List Nat) (depth : Nat) (c : Ctx F) (gb : Nat → Garbage F)
    (d : F) (seeds : List Nat) {trees : List (TreeObj F P G)} (hf : fitForest R T draw depth c gb d seeds = .ok trees)
    {workers : Nat} {gen : Nat → G} {l : List Action} {s : Pool F P G}
    (hr : Pool.Run R T d workers seeds.length (fun i => rd seeds i >>= fun s => prepare draw depth c (gb i) s) (Pool.init gen) l s)
    (hall : ∀ i, i < seeds.length → s.done i ≠ none) : (List.range seeds.length).map s.done = trees.map some := by
  have hm := List.forall₂_iff_get.1 (mapM_eq_ok.1 hf)
  have hlen : trees.length = seeds.length := by rw [← hm.1]; simp
  have hg := pool_guarantee (same := Eq) (trees := trees) (trees' := trees) (T := T) (R := R) (d := d)
    (prep := fun i => rd seeds i >>= fun s => prepare draw depth c (gb i) s) (fun i o hi => by
      obtain ⟨hlt, e⟩ := List.getElem?_eq_some_iff.1 hi
      have h2 := hm.2 i (by rw [hm.1]; exact hlt) hlt
      simp only [List.get_eq_getElem, List.getElem_zipIdx, Nat.zero_add] at h2
      rw [buildTree_prepare, bind_eq_ok] at h2
      obtain ⟨p, h3, h4⟩ := h2
      refine ⟨p, ?_, by rw [h4, e]⟩
      rw [rd_of_lt (by omega), bind_ok, h3]) (List.forall₂_refl trees) workers gen
  rw [hlen] at hg
  refine List.ext_getElem (by simp [hlen]) fun i h1 h2 => ?_
  have hi : i < seeds.length := by simpa using h1
  have h2 : i < trees.length := by omega
  simp only [List.getElem_map, List.getElem_range]
  cases ho : s.done i with
  | none => exact absurd ho (hall i hi)
  | some o =>
    obtain ⟨o', h3, rfl⟩ := hg.result l s hr i o ho
    rw [List.getElem?_eq_getElem h2] at h3
    exact h3.symm

/-- Progress and the bound give complete runs. -/
theorem PoolGuarantee.complete {R : Rng G} {T : F → Task F Y P G} {d : F} {prep : Nat → M (Prep F)} {workers bound n : Nat} {s0 : Pool F P G}
    {trees : List (TreeObj F P G)} {same : TreeObj F P G → TreeObj F P G → Prop}
    (h : PoolGuarantee (fun s => s.act R T d workers n prep) (Pool.Run R T d workers n prep s0) workers bound trees same) (hw : 0 < workers)
    {l : List Action} {s : Pool F P G} (hr : Pool.Run R T d workers n prep s0 l s) :
    ∃ l' s', Pool.Run R T d workers n prep s0 (l ++ l') s' ∧ ∀ i, i < trees.length → s'.done i ≠ none := by
  generalize hm : bound - l.length = m
  induction m generalizing l s with
  | zero =>
    refine ⟨[], s, by simpa using hr, fun i hi hn => ?_⟩
    obtain ⟨a, r, ha⟩ := h.progress l s hr hw ⟨i, hi, hn⟩
    obtain ⟨s', rfl⟩ := h.noFailure l s hr a r ha
    have := h.bounded _ _ (hr.step ha)
    simp at this
    omega
  | succ m ih =>
    by_cases hall : ∀ i, i < trees.length → s.done i ≠ none
    · exact ⟨[], s, by simpa using hr, hall⟩
    · push Not at hall
      obtain ⟨a, r, ha⟩ := h.progress l s hr hw hall
      obtain ⟨s', rfl⟩ := h.noFailure l s hr a r ha
      obtain ⟨l', s2, h1, h2⟩ := ih (hr.step ha) (by rw [List.length_append, List.length_singleton]; omega)
      exact ⟨a :: l', s2, by simpa using h1, h2⟩

/-- **C38** Any run of at least one worker, for example a run in which several workers are in the middle of their trees, can be
continued until all trees are fitted. -/
theorem C38_completes (R : Rng G) (T : F → Task F Y P G) (draw : Nat → List Nat) (depth : Nat) (c : Ctx F) (gb : Nat → Garbage F)
    (d : F) (seeds : List Nat) {trees : List (TreeObj F P G)} (hf : fitForest R T draw depth c gb d seeds = .ok trees)
    {workers : Nat} (hw : 0 < workers) {gen : Nat → G} {l : List Action} {s : Pool F P G}
    (hr : Pool.Run R T d workers seeds.length (fun i => rd seeds i >>= fun s => prepare draw depth c (gb i) s) (Pool.init gen) l s) :
    ∃ l' s', Pool.Run R T d workers seeds.length (fun i => rd seeds i >>= fun s => prepare draw depth c (gb i) s) (Pool.init gen) (l ++ l') s' ∧
      (List.range seeds.length).map s'.done = trees.map some := by
  obtain ⟨hl, bound, hg⟩ := C38_schedule R T draw depth c gb gb d seeds hf _ fun _ => rfl
  have hg := hg workers gen
  rw [hl] at hg
  obtain ⟨l', s', h1, h2⟩ := hg.complete hw hr
  exact ⟨l', s', h1, C38_trees R T draw depth c gb d seeds hf h1 (by rw [← hl]; exact h2)⟩

/-! ## The hypotheses can be met -/

/-- An idle worker can start a tree. -/
theorem PoolGuarantee.start {R : Rng G} {T : F → Task F Y P G} {d : F} {prep : Nat → M (Prep F)} {workers bound n : Nat} {s0 : Pool F P G}
    {trees : List (TreeObj F P G)} {same : TreeObj F P G → TreeObj F P G → Prop}
    (h : PoolGuarantee (fun s => s.act R T d workers n prep) (Pool.Run R T d workers n prep s0) workers bound trees same)
    {l : List Action} {s : Pool F P G} (hr : Pool.Run R T d workers n prep s0 l s) {w i : Nat} (hw : w < workers) (hi : i < n)
    (hj : s.job w = none) (hs : i ∉ s.started) :
    ∃ s', Pool.Run R T d workers n prep s0 (l ++ [.start w i]) s' ∧ (s'.job w).isSome = true ∧ (∀ v, v ≠ w → s'.job v = s.job v) ∧
      s'.started = i :: s.started := by
  have hc : w < workers ∧ i < n ∧ (s.job w).isNone = true ∧ i ∉ s.started := ⟨hw, hi, by simp [hj], hs⟩
  obtain ⟨s', e⟩ := h.noFailure l s hr (.start w i) _ (by simp only [Pool.act]; rw [if_pos hc])
  refine ⟨s', hr.step (by simp only [Pool.act]; rw [if_pos hc]; exact congrArg some e), ?_⟩
  rw [bind_eq_ok] at e
  obtain ⟨p, _, e⟩ := e
  rw [bind_eq_ok] at e
  obtain ⟨st, _, e⟩ := e
  injection e with e
  subst e
  exact ⟨by simp, fun v hv => by simp [Function.update_of_ne hv], rfl⟩

/-- Three workers and two trees: both trees are in progress at the same time, and the run can be completed. -/
example : ∃ (c : Ctx ℝ) (trees : List (TreeObj ℝ (List ℝ) Nat)) (s s' : Pool ℝ (List ℝ) Nat) (l' : List Action),
    fitForest toyRng (fun d => classifierTask toyRng realArgsort 2 d .gini .all) realDraw 1 c (fun _ => realGarbage) (1 / 2) [3, 8] = .ok trees ∧
    Pool.Run toyRng (fun d => classifierTask toyRng realArgsort 2 d .gini .all) (1 / 2) 3 2
      (fun i => rd [3, 8] i >>= fun s => prepare realDraw 1 c realGarbage s) (Pool.init fun w => w) [.start 2 1, .start 0 0] s ∧
    (s.job 0).isSome = true ∧ (s.job 2).isSome = true ∧
    Pool.Run toyRng (fun d => classifierTask toyRng realArgsort 2 d .gini .all) (1 / 2) 3 2
      (fun i => rd [3, 8] i >>= fun s => prepare realDraw 1 c realGarbage s) (Pool.init fun w => w) ([.start 2 1, .start 0 0] ++ l') s' ∧
    (List.range 2).map s'.done = trees.map some := by
  obtain ⟨c, f, h1, h2, h3, h4⟩ := real_forest_fit ⟨1, 1 / 2, true, none⟩ (fun _ => by norm_num)
  obtain ⟨trees, hf⟩ : ∃ trees, fitForest toyRng (fun d => classifierTask toyRng realArgsort 2 d .gini .all) realDraw 1
      { c with step := 1, aggregation := true } (fun _ => realGarbage) (1 / 2) [3, 8] = .ok trees := by
    unfold ForestObj.fit at h4
    split at h4
    · exact absurd h4 (by simp)
    · rw [bind_eq_ok] at h4
      obtain ⟨ts, h5, _⟩ := h4
      exact ⟨ts, h5⟩
  obtain ⟨hl, bound, hg⟩ := C38_schedule _ _ _ _ _ (fun _ => realGarbage) (fun _ => realGarbage) _ _ hf _ fun _ => rfl
  have hg := hg 3 fun w => w
  rw [hl] at hg
  obtain ⟨s1, r1, j1, o1, t1⟩ := hg.start .nil (w := 2) (i := 1) (by decide) (by decide) rfl (by simp [Pool.init])
  obtain ⟨s2, r2, j2, o2, t2⟩ := hg.start r1 (w := 0) (i := 0) (by decide) (by decide) (by rw [o1 0 (by decide)]; rfl)
    (by rw [t1]; simp [Pool.init])
  obtain ⟨l', s', h5, h6⟩ := C38_completes _ _ _ _ _ _ _ _ hf (by decide) r2
  exact ⟨_, trees, s2, s', l', hf, r2, j2, by rw [o2 2 (by decide)]; exact j1, h5, h6⟩

/-- A one-versus-rest forest, for `C38_schedule_ovr` and `C53_uninitialised_memory_ovr`. -/
example : ∃ (c : Ctx ℝ) (trees : List (TreeObj ℝ (List ℝ) Nat)),
    fitOvr toyRng (fun d => classifierTask toyRng realArgsort 2 d .gini .all) realDraw 1 c (fun _ => realGarbage) (1 / 2) 2 hotY
      [realW, realW, realW] [5, 5, 5, 9, 9, 9] = .ok trees := by
  obtain ⟨fba, hr, hin⟩ := hot_input 1 true
  obtain ⟨trees, ht⟩ := hot_fit _ _ (1 / 2) hin
  exact ⟨_, trees, ht⟩

end Verif
