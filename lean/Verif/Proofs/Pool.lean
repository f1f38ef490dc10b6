import Verif.Model.Pool
import Verif.Proofs.StepSetter
import Mathlib.Algebra.BigOperators.Group.List.Basic

set_option linter.unusedSectionVars false

/-! Fitting in worker threads gives the trees of the sequential fit. -/
namespace Verif

open Spec

variable {F Y P G : Type} [Num F]

theorem buildTree_prepare (R : Rng G) (T : F → Task F Y P G) (draw : Nat → List Nat) (depth : Nat) (c : Ctx F) (gb : Garbage F)
    (d : F) (seed : Nat) : buildTree R T draw depth c gb d seed =
      prepare draw depth c gb seed >>= fun p => TreeObj.fit R T p.c p.gb p.seed d p.train p.valid := by
  unfold buildTree prepare
  simp only [bind_assoc]
  rfl

theorem fit_phases (R : Rng G) (T : F → Task F Y P G) (d : F) (p : Prep F) :
    TreeObj.fit R T p.c p.gb p.seed d p.train p.valid =
      startTree R (T d) p >>= fun s => growLoop R (T d) p.c p.gb (2 * p.train.length + 1) s >>= finishTree p d := by
  unfold TreeObj.fit
  rw [fitTree_eq]
  unfold growRaw startTree
  simp only [bind_assoc]
  congr 1
  funext t
  congr 1
  funext recs
  simp only [pure_eq_ok, bind_ok]
  have : (initWork R p.c p.gb p.seed p.train p.valid).partTrain.length = p.train.length := rfl
  rw [this]
  congr 1
  funext s
  unfold growEnd finishTree
  cases p.c.aggregation with
  | false => rfl
  | true => simp only [if_true, bind_assoc]; rfl

theorem growLoop_nonEmpty {R : Rng G} {T : Task F Y P G} {c : Ctx F} {gb : Garbage F} {m : Nat} {s e : GState F P G}
    (h : growLoop R T c gb m s = .ok e) (hn : s.recs.nonEmpty = true) :
    ∃ k s', m = k + 1 ∧ growStep R T c gb s = .ok s' ∧ growLoop R T c gb k s' = .ok e := by
  cases m with
  | zero => simp [growLoop, hn] at h
  | succ k =>
    simp only [growLoop, hn, if_true] at h
    rw [bind_eq_ok] at h
    obtain ⟨s', h1, h2⟩ := h
    exact ⟨k, s', rfl, h1, h2⟩

theorem growLoop_empty {R : Rng G} {T : Task F Y P G} {c : Ctx F} {gb : Garbage F} {m : Nat} {s e : GState F P G}
    (h : growLoop R T c gb m s = .ok e) (hn : s.recs.nonEmpty = false) : s = e := by
  cases m <;> simpa [growLoop, hn] using h

theorem withRng_self (s : GState F P G) : s.withRng s.work.rng = s := rfl

section
variable {R : Rng G} {T : F → Task F Y P G} {d : F} {workers n : Nat} {prep : Nat → M (Prep F)} {target : Nat → TreeObj F P G}

/-- Number of actions that tree `i` may take. -/
def costOf (prep : Nat → M (Prep F)) (i : Nat) : Nat :=
  match prep i with
  | .ok p => 2 * p.train.length + 3
  | .error _ => 0

/-- The invariant of the pool. -/
structure PInv (R : Rng G) (T : F → Task F Y P G) (d : F) (workers n : Nat) (prep : Nat → M (Prep F)) (target : Nat → TreeObj F P G)
    (l : List Action) (s : Pool F P G) (cost : Nat → Nat) : Prop where
  lt : ∀ i ∈ s.started, i < n
  job : ∀ w i p st, s.job w = some (i, p, st) → w < workers ∧ i ∈ s.started ∧ s.done i = none ∧ ∃ m e, cost i = m + 1 ∧
    growLoop R (T d) p.c p.gb m (st.withRng (s.gen w)) = .ok e ∧ finishTree p d e = .ok (target i)
  inj : ∀ w w' i p st p' st', s.job w = some (i, p, st) → s.job w' = some (i, p', st') → w = w'
  done : ∀ i o, s.done i = some o → i ∈ s.started ∧ o = target i
  somewhere : ∀ i ∈ s.started, (∃ o, s.done i = some o) ∨ ∃ w p st, s.job w = some (i, p, st)
  fresh : ∀ i, i ∉ s.started → cost i = costOf prep i
  count : l.length + ((List.range n).map cost).sum ≤ ((List.range n).map (costOf prep)).sum

theorem sum_update_lt {f : Nat → Nat} {i n v : Nat} (hi : i < n) (hv : v < f i) :
    ((List.range n).map (Function.update f i v)).sum + 1 ≤ ((List.range n).map f).sum := by
  induction n with
  | zero => omega
  | succ n ih =>
    rw [List.range_succ, List.map_append, List.map_append, List.sum_append, List.sum_append]
    simp only [List.map_cons, List.map_nil, List.sum_cons, List.sum_nil, Nat.add_zero]
    by_cases h : i = n
    · subst h
      rw [Function.update_self]
      have : (List.range i).map (Function.update f i v) = (List.range i).map f := by
        apply List.map_congr_left
        intro a ha
        rw [Function.update_of_ne]
        have := List.mem_range.1 ha
        omega
      rw [this]; omega
    · rw [Function.update_of_ne (Ne.symm h)]
      have := ih (by omega)
      omega

theorem PInv.init (gen : Nat → G) : PInv R T d workers n prep target [] (Pool.init gen) (costOf prep) :=
  ⟨by simp [Pool.init], by simp [Pool.init], by simp [Pool.init], by simp [Pool.init], by simp [Pool.init], fun _ _ => rfl, by simp⟩

/-- Every possible action succeeds and preserves the invariant. -/
theorem PInv.step (hok : ∀ i, i < n → ∃ p, prep i = .ok p ∧ TreeObj.fit R T p.c p.gb p.seed d p.train p.valid = .ok (target i))
    {l : List Action} {s : Pool F P G} {cost : Nat → Nat} (h : PInv R T d workers n prep target l s cost) {a : Action} {r : M (Pool F P G)}
    (ha : s.act R T d workers n prep a = some r) :
    ∃ s' cost', r = .ok s' ∧ PInv R T d workers n prep target (l ++ [a]) s' cost' := by
  cases a with
  | start w i =>
    simp only [Pool.act] at ha
    split at ha
    · next hc =>
      obtain ⟨hw, hi, hj, hns⟩ := hc
      injection ha with ha
      subst ha
      obtain ⟨p, hp, hf⟩ := hok i hi
      rw [fit_phases, bind_eq_ok] at hf
      obtain ⟨st, h1, hf⟩ := hf
      rw [bind_eq_ok] at hf
      obtain ⟨e, h2, h3⟩ := hf
      have hjw : s.job w = none := by simpa using hj
      have hdone : s.done i = none := by
        cases hd : s.done i with
        | none => rfl
        | some o => exact absurd (h.done i o hd).1 hns
      refine ⟨{ s with gen := Function.update s.gen w st.work.rng, job := Function.update s.job w (some (i, p, st)), started := i :: s.started },
        Function.update cost i (2 * p.train.length + 2), by rw [hp, bind_ok, h1, bind_ok]; rfl, ?_⟩
      have hcost : cost i = 2 * p.train.length + 3 := by rw [h.fresh i hns, costOf, hp]
      refine ⟨?_, ?_, ?_, ?_, ?_, ?_, ?_⟩
      · intro j hj
        rcases List.mem_cons.1 hj with rfl | hj
        · exact hi
        · exact h.lt j hj
      · intro w' j p' st' hj
        simp only at hj ⊢
        by_cases hww : w' = w
        · subst hww
          rw [Function.update_self] at hj
          simp only [Option.some.injEq, Prod.mk.injEq] at hj
          obtain ⟨rfl, rfl, rfl⟩ := hj
          refine ⟨hw, by simp, hdone, _, e, by rw [Function.update_self], ?_, h3⟩
          rw [Function.update_self, withRng_self]
          exact h2
        · rw [Function.update_of_ne hww] at hj
          obtain ⟨q1, q2, q3, m, e', q4, q5, q6⟩ := h.job w' j p' st' hj
          have hji : j ≠ i := by rintro rfl; exact hns q2
          refine ⟨q1, by simp [q2], q3, m, e', by rw [Function.update_of_ne hji]; exact q4, ?_, q6⟩
          rw [Function.update_of_ne hww]
          exact q5
      · intro w1 w2 j p1 s1 p2 s2 e1 e2
        simp only at e1 e2
        by_cases h1w : w1 = w
        · by_cases h2w : w2 = w
          · rw [h1w, h2w]
          · subst h1w
            rw [Function.update_self] at e1
            rw [Function.update_of_ne h2w] at e2
            injection e1 with e1
            obtain ⟨rfl, _⟩ := Prod.mk.inj e1
            exact absurd (h.job _ _ _ _ e2).2.1 hns
        · rw [Function.update_of_ne h1w] at e1
          by_cases h2w : w2 = w
          · subst h2w
            rw [Function.update_self] at e2
            injection e2 with e2
            obtain ⟨rfl, _⟩ := Prod.mk.inj e2
            exact absurd (h.job _ _ _ _ e1).2.1 hns
          · rw [Function.update_of_ne h2w] at e2
            exact h.inj _ _ _ _ _ _ _ e1 e2
      · intro j o hj
        obtain ⟨q1, q2⟩ := h.done j o hj
        exact ⟨by simp [q1], q2⟩
      · intro j hj
        simp only
        rcases List.mem_cons.1 hj with rfl | hj
        · exact .inr ⟨w, p, st, Function.update_self ..⟩
        · rcases h.somewhere j hj with q | ⟨w', p', st', q⟩
          · exact .inl q
          · refine .inr ⟨w', p', st', ?_⟩
            rw [Function.update_of_ne]
            · exact q
            · rintro rfl; rw [hjw] at q; exact absurd q (by simp)
      · intro j hj
        have hji : j ≠ i := by rintro rfl; exact hj (by simp)
        rw [Function.update_of_ne hji]
        exact h.fresh j fun h0 => hj (by simp [h0])
      · have := sum_update_lt (f := cost) (v := 2 * p.train.length + 2) hi (by omega)
        have := h.count
        rw [List.length_append, List.length_singleton]
        omega
    · exact absurd ha (by simp)
  | advance w =>
    simp only [Pool.act] at ha
    cases hj : s.job w with
    | none => rw [hj] at ha; exact absurd ha (by simp)
    | some x =>
      obtain ⟨i, p, st⟩ := x
      rw [hj] at ha
      simp only at ha
      injection ha with ha
      subst ha
      obtain ⟨q1, q2, q3, m, e, q4, q5, q6⟩ := h.job w i p st hj
      have hi := h.lt i q2
      cases hn : st.recs.nonEmpty with
      | true =>
        obtain ⟨k, s', rfl, e1, e2⟩ := growLoop_nonEmpty q5 hn
        refine ⟨{ s with gen := Function.update s.gen w s'.work.rng, job := Function.update s.job w (some (i, p, s')) },
          Function.update cost i (k + 1), by rw [if_pos rfl, e1, bind_ok]; rfl, ?_⟩
        refine ⟨h.lt, ?_, ?_, h.done, ?_, ?_, ?_⟩
        · intro w' j p' st' hj'
          simp only at hj' ⊢
          by_cases hww : w' = w
          · subst hww
            rw [Function.update_self] at hj'
            simp only [Option.some.injEq, Prod.mk.injEq] at hj'
            obtain ⟨rfl, rfl, rfl⟩ := hj'
            refine ⟨q1, q2, q3, k, e, by rw [Function.update_self], ?_, q6⟩
            rw [Function.update_self, withRng_self]
            exact e2
          · rw [Function.update_of_ne hww] at hj'
            obtain ⟨r1, r2, r3, m', e', r4, r5, r6⟩ := h.job w' j p' st' hj'
            have hji : j ≠ i := by rintro rfl; exact hww (h.inj _ _ _ _ _ _ _ hj' hj)
            refine ⟨r1, r2, r3, m', e', by rw [Function.update_of_ne hji]; exact r4, ?_, r6⟩
            rw [Function.update_of_ne hww]
            exact r5
        · intro w1 w2 j p1 s1 p2 s2 e1 e2
          simp only at e1 e2
          by_cases h1w : w1 = w
          · by_cases h2w : w2 = w
            · rw [h1w, h2w]
            · subst h1w
              rw [Function.update_self] at e1
              rw [Function.update_of_ne h2w] at e2
              injection e1 with e1
              obtain ⟨rfl, _⟩ := Prod.mk.inj e1
              exact (h.inj _ _ _ _ _ _ _ hj e2)
          · rw [Function.update_of_ne h1w] at e1
            by_cases h2w : w2 = w
            · subst h2w
              rw [Function.update_self] at e2
              injection e2 with e2
              obtain ⟨rfl, _⟩ := Prod.mk.inj e2
              exact (h.inj _ _ _ _ _ _ _ e1 hj)
            · rw [Function.update_of_ne h2w] at e2
              exact h.inj _ _ _ _ _ _ _ e1 e2
        · intro j hjs
          simp only
          rcases h.somewhere j hjs with q | ⟨w', p', st', q⟩
          · exact .inl q
          · by_cases hww : w' = w
            · subst hww
              rw [hj] at q
              injection q with q
              obtain ⟨rfl, _⟩ := Prod.mk.inj q
              exact .inr ⟨w', p, s', Function.update_self ..⟩
            · exact .inr ⟨w', p', st', by rw [Function.update_of_ne hww]; exact q⟩
        · intro j hjs
          have hji : j ≠ i := by rintro rfl; exact hjs q2
          rw [Function.update_of_ne hji]
          exact h.fresh j hjs
        · have := sum_update_lt (f := cost) (v := k + 1) hi (by omega)
          have := h.count
          rw [List.length_append, List.length_singleton]
          omega
      | false =>
        obtain rfl := growLoop_empty q5 hn
        refine ⟨{ s with job := Function.update s.job w none, done := Function.update s.done i (some (target i)) },
          Function.update cost i 0, by simp only [Bool.false_eq_true, if_false]; rw [q6, bind_ok]; rfl, ?_⟩
        refine ⟨h.lt, ?_, ?_, ?_, ?_, ?_, ?_⟩
        · intro w' j p' st' hj'
          simp only at hj' ⊢
          by_cases hww : w' = w
          · subst hww
            rw [Function.update_self] at hj'
            exact absurd hj' (by simp)
          · rw [Function.update_of_ne hww] at hj'
            obtain ⟨r1, r2, r3, m', e', r4, r5, r6⟩ := h.job w' j p' st' hj'
            have hji : j ≠ i := by rintro rfl; exact hww (h.inj _ _ _ _ _ _ _ hj' hj)
            exact ⟨r1, r2, by rw [Function.update_of_ne hji]; exact r3, m', e', by rw [Function.update_of_ne hji]; exact r4, r5, r6⟩
        · intro w1 w2 j p1 s1 p2 s2 e1 e2
          simp only at e1 e2
          have h1w : w1 ≠ w := by rintro rfl; rw [Function.update_self] at e1; exact absurd e1 (by simp)
          have h2w : w2 ≠ w := by rintro rfl; rw [Function.update_self] at e2; exact absurd e2 (by simp)
          rw [Function.update_of_ne h1w] at e1
          rw [Function.update_of_ne h2w] at e2
          exact h.inj _ _ _ _ _ _ _ e1 e2
        · intro j o hj'
          simp only at hj' ⊢
          by_cases hji : j = i
          · subst hji
            rw [Function.update_self] at hj'
            injection hj' with hj'
            exact ⟨q2, hj'.symm⟩
          · rw [Function.update_of_ne hji] at hj'
            exact h.done j o hj'
        · intro j hjs
          simp only
          by_cases hji : j = i
          · subst hji
            exact .inl ⟨_, Function.update_self ..⟩
          · rcases h.somewhere j hjs with ⟨o, q⟩ | ⟨w', p', st', q⟩
            · exact .inl ⟨o, by rw [Function.update_of_ne hji]; exact q⟩
            · refine .inr ⟨w', p', st', ?_⟩
              rw [Function.update_of_ne]
              · exact q
              · rintro rfl
                rw [hj] at q
                injection q with q
                exact hji (Prod.mk.inj q).1.symm
        · intro j hjs
          have hji : j ≠ i := by rintro rfl; exact hjs q2
          rw [Function.update_of_ne hji]
          exact h.fresh j hjs
        · have := sum_update_lt (f := cost) (v := 0) hi (by omega)
          have := h.count
          rw [List.length_append, List.length_singleton]
          omega

theorem Run.inv (hok : ∀ i, i < n → ∃ p, prep i = .ok p ∧ TreeObj.fit R T p.c p.gb p.seed d p.train p.valid = .ok (target i))
    {gen : Nat → G} {l : List Action} {s : Pool F P G} (h : Pool.Run R T d workers n prep (Pool.init gen) l s) :
    ∃ cost, PInv R T d workers n prep target l s cost := by
  induction h with
  | nil => exact ⟨_, PInv.init gen⟩
  | step _ ha ih =>
    obtain ⟨cost, hI⟩ := ih
    obtain ⟨s', cost', e, h'⟩ := hI.step hok ha
    injection e with e
    exact ⟨cost', e ▸ h'⟩

end

end Verif
