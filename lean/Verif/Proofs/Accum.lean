import Verif.Spec.Accum
import Verif.Proofs.Pool
import Verif.Proofs.RealSplit

set_option linter.unusedSectionVars false

/-! The lock makes the accumulation of predictions sequential. -/
namespace Verif

open Spec

variable {F : Type} [Num F]

/-- Add the predictions of the trees of the list (last one first). -/
def applyAll (upd : Nat → List (Cell × F)) (l : List Nat) : Cell → F :=
  l.foldr (fun i out => applyUpd out (upd i)) fun _ => Num.zero

theorem applyUpd_take_succ (out : Cell → F) {l : List (Cell × F)} {j : Nat} {a : Cell} {v : F} (h : l[j]? = some (a, v)) :
    applyUpd out (l.take (j + 1)) =
      Function.update (applyUpd out (l.take j)) a (Num.add (applyUpd out (l.take j) a) v) := by
  obtain ⟨hj, e⟩ := List.getElem?_eq_some_iff.1 h
  rw [List.take_succ_eq_append_getElem hj, e]
  unfold applyUpd
  rw [List.foldl_append]
  rfl

/-- The tree a worker is dealing with. -/
def WState.task : WState F → Option Nat
  | .idle => none
  | .ready i => some i
  | .adding i _ => some i
  | .loaded i _ _ => some i

/-- The worker is inside the critical section. -/
def WState.inside : WState F → Bool
  | .adding _ _ => true
  | .loaded _ _ _ => true
  | _ => false

variable {workers n : Nat} {upd : Nat → List (Cell × F)}

/-- What the state of the worker says about the shared array. -/
def insideOK (upd : Nat → List (Cell × F)) (finished : List Nat) (out : Cell → F) : WState F → Prop
  | .adding i j => j ≤ (upd i).length ∧ out = applyUpd (applyAll upd finished) ((upd i).take j)
  | .loaded i j x => ∃ a v, (upd i)[j]? = some (a, v) ∧ out = applyUpd (applyAll upd finished) ((upd i).take j) ∧ x = out a
  | _ => False

/-- Remaining steps of a tree. -/
def costA (upd : Nat → List (Cell × F)) : WState F → Nat
  | .idle => 0
  | .ready i => 2 * (upd i).length + 2
  | .adding i j => 2 * ((upd i).length - j) + 1
  | .loaded i j _ => 2 * ((upd i).length - j)

/-- The invariant. -/
structure AInv (workers n : Nat) (upd : Nat → List (Cell × F)) (l : List AStep) (s : AState F) (cost : Nat → Nat) : Prop where
  lt : ∀ i ∈ s.started, i < n
  nodup : s.finished.Nodup
  fin : ∀ i ∈ s.finished, i ∈ s.started
  task : ∀ w i, (s.ws w).task = some i → w < workers ∧ i ∈ s.started ∧ i ∉ s.finished ∧ cost i = costA upd (s.ws w)
  inj : ∀ w w' i, (s.ws w).task = some i → (s.ws w').task = some i → w = w'
  somewhere : ∀ i ∈ s.started, i ∈ s.finished ∨ ∃ w, (s.ws w).task = some i
  out : ∀ w, (s.ws w).inside = true → s.lock = some w
  free : s.lock = none → s.out = applyAll upd s.finished
  held : ∀ w, s.lock = some w → insideOK upd s.finished s.out (s.ws w)
  fresh : ∀ i, i ∉ s.started → cost i = 2 * (upd i).length + 3
  count : l.length + ((List.range n).map cost).sum ≤ ((List.range n).map fun i => 2 * (upd i).length + 3).sum

theorem AInv.init : AInv workers n upd [] AState.init fun i => 2 * (upd i).length + 3 := by
  refine ⟨?_, List.nodup_nil, ?_, ?_, ?_, ?_, ?_, fun _ => rfl, ?_, fun _ _ => rfl, by simp⟩ <;> simp [AState.init, WState.task, WState.inside]

theorem inside_task {x : WState F} (h : x.inside = true) : ∃ i, x.task = some i := by
  cases x <;> simp_all [WState.inside, WState.task]

/-- A step of worker `w` that stays with its tree `i`. -/
theorem AInv.move {l : List AStep} {s : AState F} {cost : Nat → Nat} (h : AInv workers n upd l s cost) {w i : Nat}
    (ht : (s.ws w).task = some i) {x : WState F} (hx : x.task = some i) (hc : costA upd x < costA upd (s.ws w)) (a : AStep) (out : Cell → F)
    (lock : Option Nat) (hl : lock = some w) (hother : ∀ v, v ≠ w → s.lock ≠ some v) (hin : insideOK upd s.finished out x) :
    AInv workers n upd (l ++ [a]) { s with out := out, ws := Function.update s.ws w x, lock := lock } (Function.update cost i (costA upd x)) := by
  obtain ⟨t1, t2, t3, t4⟩ := h.task w i ht
  have htask : ∀ v j, ((Function.update s.ws w x) v).task = some j → (s.ws v).task = some j := by
    intro v j hv
    by_cases hvw : v = w
    · subst hvw
      rw [Function.update_self, hx] at hv
      rw [ht, hv]
    · rwa [Function.update_of_ne hvw] at hv
  refine ⟨h.lt, h.nodup, h.fin, ?_, ?_, ?_, ?_, ?_, ?_, ?_, ?_⟩
  · intro v j hv
    obtain ⟨q1, q2, q3, q4⟩ := h.task v j (htask v j hv)
    refine ⟨q1, q2, q3, ?_⟩
    by_cases hvw : v = w
    · subst hvw
      have : j = i := by have := htask v j hv; rw [ht] at this; injection this with this; exact this.symm
      subst this
      simp only [Function.update_self]
    · have hji : j ≠ i := by rintro rfl; exact hvw (h.inj _ _ _ (htask v j hv) ht)
      simp only [Function.update_of_ne hvw, Function.update_of_ne hji]
      exact q4
  · intro v v' j h1 h2
    exact h.inj v v' j (htask v j h1) (htask v' j h2)
  · intro j hj
    rcases h.somewhere j hj with q | ⟨v, q⟩
    · exact .inl q
    · refine .inr ⟨v, ?_⟩
      simp only
      by_cases hvw : v = w
      · subst hvw
        rw [Function.update_self, hx, ← ht, q]
      · rwa [Function.update_of_ne hvw]
  · intro v hv
    simp only at hv ⊢
    by_cases hvw : v = w
    · rw [hvw]; exact hl
    · rw [Function.update_of_ne hvw] at hv
      exact absurd (h.out v hv) (hother v hvw)
  · intro h0
    simp only at h0
    rw [hl] at h0
    exact absurd h0 (by simp)
  · intro v hv
    simp only at hv ⊢
    rw [hl] at hv
    injection hv with hv
    subst hv
    rw [Function.update_self]
    exact hin
  · intro j hj
    have hji : j ≠ i := by rintro rfl; exact hj t2
    rw [Function.update_of_ne hji]
    exact h.fresh j hj
  · have := sum_update_lt (f := cost) (v := costA upd x) (h.lt i t2) (by omega)
    have := h.count
    rw [List.length_append, List.length_singleton]
    omega

theorem AInv.step {l : List AStep} {s s' : AState F} {cost : Nat → Nat} (h : AInv workers n upd l s cost) {a : AStep}
    (ha : s.act true workers n upd a = some s') : ∃ cost', AInv workers n upd (l ++ [a]) s' cost' := by
  cases a with
  | start w i =>
    simp only [AState.act] at ha
    split at ha
    · next hw =>
      split at ha
      · next hc =>
        obtain ⟨h1, h2, h3⟩ := hc
        injection ha with ha
        subst ha
        have hfin : i ∉ s.finished := fun h0 => h3 (h.fin i h0)
        have hc := h.fresh i h3
        refine ⟨Function.update cost i (2 * (upd i).length + 2), ?_, h.nodup, ?_, ?_, ?_, ?_, ?_, h.free, ?_, ?_, ?_⟩
        · intro j hj
          rcases List.mem_cons.1 hj with rfl | hj
          · exact h2
          · exact h.lt j hj
        · intro j hj
          exact List.mem_cons_of_mem _ (h.fin j hj)
        · intro v j hv
          simp only at hv ⊢
          by_cases hvw : v = w
          · subst hvw
            rw [Function.update_self] at hv ⊢
            simp only [WState.task, Option.some.injEq] at hv
            subst hv
            exact ⟨h1, by simp, hfin, by rw [Function.update_self]; rfl⟩
          · rw [Function.update_of_ne hvw] at hv ⊢
            obtain ⟨q1, q2, q3, q4⟩ := h.task v j hv
            have hji : j ≠ i := by rintro rfl; exact h3 q2
            exact ⟨q1, by simp [q2], q3, by rw [Function.update_of_ne hji]; exact q4⟩
        · intro v v' j hv hv'
          simp only at hv hv'
          by_cases h5 : v = w
          · by_cases h6 : v' = w
            · rw [h5, h6]
            · subst h5
              rw [Function.update_self] at hv
              rw [Function.update_of_ne h6] at hv'
              simp only [WState.task, Option.some.injEq] at hv
              subst hv
              exact absurd (h.task v' _ hv').2.1 h3
          · rw [Function.update_of_ne h5] at hv
            by_cases h6 : v' = w
            · subst h6
              rw [Function.update_self] at hv'
              simp only [WState.task, Option.some.injEq] at hv'
              subst hv'
              exact absurd (h.task v _ hv).2.1 h3
            · rw [Function.update_of_ne h6] at hv'
              exact h.inj v v' j hv hv'
        · intro j hj
          simp only
          rcases List.mem_cons.1 hj with rfl | hj
          · exact .inr ⟨w, by rw [Function.update_self]; rfl⟩
          · rcases h.somewhere j hj with q | ⟨v, q⟩
            · exact .inl q
            · refine .inr ⟨v, ?_⟩
              rw [Function.update_of_ne]
              · exact q
              · rintro rfl
                rw [hw] at q
                exact absurd q (by simp [WState.task])
        · intro v hv
          simp only at hv ⊢
          by_cases hvw : v = w
          · subst hvw
            rw [Function.update_self] at hv
            exact absurd hv (by simp [WState.inside])
          · rw [Function.update_of_ne hvw] at hv
            exact h.out v hv
        · intro v hv
          simp only at hv ⊢
          have := h.held v hv
          rw [Function.update_of_ne]
          · exact this
          · rintro rfl
            rw [hw] at this
            exact this
        · intro j hj
          have hji : j ≠ i := by rintro rfl; exact hj (by simp)
          rw [Function.update_of_ne hji]
          exact h.fresh j fun h0 => hj (by simp [h0])
        · have := sum_update_lt (f := cost) (v := 2 * (upd i).length + 2) h2 (by omega)
          have := h.count
          rw [List.length_append, List.length_singleton]
          omega
      · exact absurd ha (by simp)
    · exact absurd ha (by simp)
  | acquire w =>
    simp only [AState.act] at ha
    split at ha
    · next i hw =>
      split at ha
      · exact absurd ha (by simp)
      · next hc =>
        injection ha with ha
        subst ha
        have hfree : s.lock = none := by
          by_contra h0
          exact hc ⟨trivial, h0⟩
        refine ⟨_, h.move (i := i) (x := .adding i 0) (by rw [hw]; rfl) rfl ?_ _ s.out (some w) rfl ?_ ?_⟩
        · rw [hw]
          simp only [costA]
          omega
        · intro v _
          rw [hfree]
          simp
        · exact ⟨Nat.zero_le _, by rw [List.take_zero]; exact h.free hfree⟩
    · exact absurd ha (by simp)
  | read w =>
    simp only [AState.act] at ha
    split at ha
    · next i j hw =>
      split at ha
      · next a v hu =>
        injection ha with ha
        subst ha
        have hlock := h.out w (by rw [hw]; rfl)
        have hin := h.held w hlock
        rw [hw] at hin
        obtain ⟨hj, e⟩ := List.getElem?_eq_some_iff.1 hu
        refine ⟨_, h.move (i := i) (x := .loaded i j (s.out a)) (by rw [hw]; rfl) rfl ?_ _ s.out s.lock hlock ?_ ?_⟩
        · rw [hw]
          simp only [costA]
          omega
        · intro v hv
          rw [hlock]
          simp [Ne.symm hv]
        · exact ⟨a, v, hu, hin.2, rfl⟩
      · exact absurd ha (by simp)
    · exact absurd ha (by simp)
  | write w =>
    simp only [AState.act] at ha
    split at ha
    · next i j x hw =>
      split at ha
      · next a v hu =>
        injection ha with ha
        subst ha
        have hlock := h.out w (by rw [hw]; rfl)
        have hin := h.held w hlock
        rw [hw] at hin
        obtain ⟨a', v', hu', hout, rfl⟩ := hin
        rw [hu] at hu'
        obtain ⟨rfl, rfl⟩ := Prod.mk.inj (Option.some.inj hu')
        obtain ⟨hj, e⟩ := List.getElem?_eq_some_iff.1 hu
        refine ⟨_, h.move (i := i) (x := .adding i (j + 1)) (by rw [hw]; rfl) rfl ?_ _ _ s.lock hlock ?_ ?_⟩
        · rw [hw]
          simp only [costA]
          omega
        · intro v hv
          rw [hlock]
          simp [Ne.symm hv]
        · refine ⟨hj, ?_⟩
          rw [applyUpd_take_succ _ hu, ← hout]
      · exact absurd ha (by simp)
    · exact absurd ha (by simp)
  | release w =>
    simp only [AState.act] at ha
    split at ha
    · next i j hw =>
      split at ha
      · next hj =>
        injection ha with ha
        subst ha
        have hlock := h.out w (by rw [hw]; rfl)
        have hin := h.held w hlock
        rw [hw] at hin
        obtain ⟨_, hout⟩ := hin
        have htw : (s.ws w).task = some i := by rw [hw]; rfl
        obtain ⟨t1, t2, t3, t4⟩ := h.task w i htw
        refine ⟨Function.update cost i 0, h.lt, List.nodup_cons.2 ⟨t3, h.nodup⟩, ?_, ?_, ?_, ?_, ?_, ?_, ?_, ?_, ?_⟩
        · intro k hk
          rcases List.mem_cons.1 hk with rfl | hk
          · exact t2
          · exact h.fin k hk
        · intro v k hv
          simp only at hv ⊢
          by_cases hvw : v = w
          · subst hvw
            rw [Function.update_self] at hv
            exact absurd hv (by simp [WState.task])
          · rw [Function.update_of_ne hvw] at hv ⊢
            obtain ⟨q1, q2, q3, q4⟩ := h.task v k hv
            have hki : k ≠ i := by rintro rfl; exact hvw (h.inj _ _ _ hv htw)
            exact ⟨q1, q2, by simp [hki, q3], by rw [Function.update_of_ne hki]; exact q4⟩
        · intro v v' k hv hv'
          simp only at hv hv'
          have h5 : v ≠ w := by rintro rfl; rw [Function.update_self] at hv; exact absurd hv (by simp [WState.task])
          have h6 : v' ≠ w := by rintro rfl; rw [Function.update_self] at hv'; exact absurd hv' (by simp [WState.task])
          rw [Function.update_of_ne h5] at hv
          rw [Function.update_of_ne h6] at hv'
          exact h.inj v v' k hv hv'
        · intro k hk
          simp only
          by_cases hki : k = i
          · exact .inl (by simp [hki])
          · rcases h.somewhere k hk with q | ⟨v, q⟩
            · exact .inl (by simp [q])
            · refine .inr ⟨v, ?_⟩
              rw [Function.update_of_ne]
              · exact q
              · rintro rfl
                rw [htw] at q
                injection q with q
                exact hki q.symm
        · intro v hv
          simp only at hv
          by_cases hvw : v = w
          · subst hvw
            rw [Function.update_self] at hv
            exact absurd hv (by simp [WState.inside])
          · rw [Function.update_of_ne hvw] at hv
            have := h.out v hv
            rw [hlock] at this
            injection this with this
            exact absurd this.symm hvw
        · intro _
          simp only
          rw [hout, hj, List.take_length]
          rfl
        · intro v hv
          exact absurd hv (by simp)
        · intro k hk
          have hki : k ≠ i := by rintro rfl; exact hk t2
          rw [Function.update_of_ne hki]
          exact h.fresh k hk
        · have hc : cost i = 1 := by rw [t4, hw]; simp [costA, hj]
          have := sum_update_lt (f := cost) (v := 0) (h.lt i t2) (by omega)
          have := h.count
          rw [List.length_append, List.length_singleton]
          omega
      · exact absurd ha (by simp)
    · exact absurd ha (by simp)

theorem AState.Run.inv {l : List AStep} {s : AState F} (h : AState.Run true workers n upd l s) : ∃ cost, AInv workers n upd l s cost := by
  induction h with
  | nil => exact ⟨_, AInv.init⟩
  | step _ ha ih =>
    obtain ⟨cost, hI⟩ := ih
    exact hI.step ha

/-- Everything finished: the array is the result of adding all predictions in the order of completion. -/
theorem AInv.final {l : List AStep} {s : AState F} {cost : Nat → Nat} (h : AInv workers n upd l s cost) (hall : ∀ i, i < n → i ∈ s.finished) :
    s.finished.Perm (List.range n) ∧ s.out = applyAll upd s.finished := by
  refine ⟨(List.perm_ext_iff_of_nodup h.nodup List.nodup_range).2 fun i => ⟨fun hi => List.mem_range.2 (h.lt i (h.fin i hi)), fun hi => hall i (List.mem_range.1 hi)⟩, ?_⟩
  cases hl : s.lock with
  | none => exact h.free hl
  | some w =>
    have hin := h.held w hl
    obtain ⟨i, hi⟩ : ∃ i, (s.ws w).task = some i := by
      cases hw : s.ws w <;> rw [hw] at hin <;> first | exact hin.elim | exact ⟨_, rfl⟩
    obtain ⟨_, q2, q3, _⟩ := h.task w i hi
    exact absurd (hall i (h.lt i q2)) q3

/-- As long as a tree is missing some worker can do something. -/
theorem AInv.progress {l : List AStep} {s : AState F} {cost : Nat → Nat} (h : AInv workers n upd l s cost) (hw : 0 < workers)
    {i : Nat} (hi : i < n) (hf : i ∉ s.finished) : ∃ a s', s.act true workers n upd a = some s' := by
  have hhold : ∀ w, s.lock = some w → ∃ a s', s.act true workers n upd a = some s' := by
    intro w hl
    have hin := h.held w hl
    cases hx : s.ws w with
    | idle => rw [hx] at hin; exact hin.elim
    | ready k => rw [hx] at hin; exact hin.elim
    | adding k j =>
      rw [hx] at hin
      by_cases hj : j = (upd k).length
      · exact ⟨.release w, _, by simp only [AState.act, hx, if_pos hj]; rfl⟩
      · have hlt : j < (upd k).length := by have := hin.1; omega
        exact ⟨.read w, _, by simp only [AState.act, hx, List.getElem?_eq_getElem hlt]; rfl⟩
    | loaded k j v =>
      rw [hx] at hin
      obtain ⟨a, v', hu, _⟩ := hin
      exact ⟨.write w, _, by simp only [AState.act, hx, hu]; rfl⟩
  have hbusy : ∀ w k, (s.ws w).task = some k → ∃ a s', s.act true workers n upd a = some s' := by
    intro w k hk
    cases hl : s.lock with
    | some v => exact hhold v hl
    | none =>
      cases hx : s.ws w with
      | idle => rw [hx] at hk; exact absurd hk (by simp [WState.task])
      | ready k => exact ⟨.acquire w, _, by simp only [AState.act, hx, hl]; rw [if_neg (by simp)]⟩
      | adding k j =>
        have := h.out w (by rw [hx]; rfl)
        rw [hl] at this
        exact absurd this (by simp)
      | loaded k j v =>
        have := h.out w (by rw [hx]; rfl)
        rw [hl] at this
        exact absurd this (by simp)
  by_cases hs : i ∈ s.started
  · rcases h.somewhere i hs with q | ⟨w, q⟩
    · exact absurd q hf
    · exact hbusy w i q
  · cases hx : (s.ws 0).task with
    | some k => exact hbusy 0 k hx
    | none =>
      have : s.ws 0 = .idle := by cases hy : s.ws 0 <;> rw [hy] at hx <;> simp_all [WState.task]
      exact ⟨.start 0 i, _, by simp only [AState.act, this]; rw [if_pos ⟨hw, hi, hs⟩]⟩

/-! ## From cells to arrays -/

theorem applyUpd_not_mem (l : List (Cell × F)) (out : Cell → F) {a : Cell} (h : ∀ v, (a, v) ∉ l) : applyUpd out l a = out a := by
  induction l generalizing out with
  | nil => rfl
  | cons x l ih =>
    unfold applyUpd at ih ⊢
    rw [List.foldl_cons, ih _ fun v hv => h v (by simp [hv])]
    rw [Function.update_of_ne]
    rintro rfl
    exact h x.2 (by simp)

theorem applyUpd_mem (l : List (Cell × F)) (out : Cell → F) (hn : (l.map Prod.fst).Nodup) {a : Cell} {v : F} (h : (a, v) ∈ l) :
    applyUpd out l a = Num.add (out a) v := by
  induction l generalizing out with
  | nil => simp at h
  | cons x l ih =>
    rw [List.map_cons, List.nodup_cons] at hn
    have e : applyUpd out (x :: l) = applyUpd (Function.update out x.1 (Num.add (out x.1) x.2)) l := rfl
    rw [e]
    rcases List.mem_cons.1 h with rfl | h
    · rw [applyUpd_not_mem, Function.update_self]
      intro v' hv'
      exact hn.1 (List.mem_map.2 ⟨_, hv', rfl⟩)
    · rw [ih _ hn.2 h, Function.update_of_ne]
      rintro rfl
      exact hn.1 (List.mem_map.2 ⟨_, h, rfl⟩)

/-- The array `m` holds the values `f`. -/
structure Rep (rows cols : Nat) (m : List (List F)) (f : Cell → F) : Prop where
  rows : m.length = rows
  row : ∀ (r : Nat) row, m[r]? = some row → row.length = cols
  get : ∀ (r : Nat) row, m[r]? = some row → ∀ (c : Nat) v, row[c]? = some v → f (r, c) = v

/-- All rows have length `cols` and there are `rows` rows. -/
def MatShape (rows cols : Nat) (m : List (List F)) : Prop := m.length = rows ∧ ∀ row ∈ m, row.length = cols

theorem mem_updAll {p : List (List F)} {r c : Nat} {v : F} : ((r, c), v) ∈ updAll p ↔ ∃ row, p[r]? = some row ∧ row[c]? = some v := by
  unfold updAll
  simp only [List.mem_flatMap, List.mem_map, Prod.exists, List.mem_zipIdx_iff_getElem?, Prod.mk.injEq]
  constructor
  · rintro ⟨row, r', h1, v', c', h2, ⟨rfl, rfl⟩, rfl⟩
    exact ⟨row, h1, h2⟩
  · rintro ⟨row, h1, h2⟩
    exact ⟨row, r, h1, v, c, h2, ⟨rfl, rfl⟩, rfl⟩

theorem nodup_updAll (p : List (List F)) : ((updAll p).map Prod.fst).Nodup := by
  unfold updAll
  rw [List.map_flatMap]
  rw [List.nodup_flatMap]
  constructor
  · intro x _
    rw [List.map_map]
    have : (Prod.fst ∘ fun (y : F × Nat) => ((x.2, y.2), y.1)) = (fun k => (x.2, k)) ∘ (Prod.snd : F × Nat → Nat) := rfl
    have h2 : List.map (Prod.fst ∘ fun (y : F × Nat) => (((x.2, y.2), y.1) : Cell × F)) x.1.zipIdx = (List.range x.1.length).map fun k => (x.2, k) := by
      rw [this, ← List.map_map, List.zipIdx_map_snd, List.range_eq_range']
    rw [h2]
    exact List.Nodup.map (fun a b h => (Prod.mk.inj h).2) List.nodup_range
  · have hnd : (p.zipIdx.map Prod.snd).Nodup := by
      rw [List.zipIdx_map_snd]
      exact List.nodup_range'
    rw [List.Nodup, List.pairwise_map] at hnd
    refine hnd.imp ?_
    rintro ⟨a, i⟩ ⟨b, j⟩ hij
    intro x hx hy
    simp only [List.map_map, List.mem_map, Function.comp] at hx hy
    obtain ⟨u, _, rfl⟩ := hx
    obtain ⟨v, _, hv⟩ := hy
    exact hij (Prod.mk.inj hv).1.symm

theorem mem_updVec {p : List F} {r c : Nat} {v : F} : ((r, c), v) ∈ updVec p ↔ c = 0 ∧ p[r]? = some v := by
  unfold updVec
  simp only [List.mem_map, Prod.exists, List.mem_zipIdx_iff_getElem?, Prod.mk.injEq]
  constructor
  · rintro ⟨v', r', h1, ⟨rfl, rfl⟩, rfl⟩
    exact ⟨rfl, h1⟩
  · rintro ⟨rfl, h1⟩
    exact ⟨v, r, h1, ⟨rfl, rfl⟩, rfl⟩

theorem nodup_map_zipIdx {α : Type} (p : List α) (f : α × Nat → Cell × F) (col : Nat) (hf : ∀ x, (f x).1 = (x.2, col)) :
    ((p.zipIdx.map f).map Prod.fst).Nodup := by
  rw [List.map_map]
  have : (Prod.fst ∘ f) = (fun k => (k, col)) ∘ (Prod.snd : α × Nat → Nat) := funext hf
  rw [this, ← List.map_map, List.zipIdx_map_snd]
  exact List.Nodup.map (fun a b h => (Prod.mk.inj h).1) List.nodup_range'

theorem mem_updCol {p : List (List F)} {col r c : Nat} {v : F} : ((r, c), v) ∈ updCol col p ↔ c = col ∧ ∃ row, p[r]? = some row ∧ v = row.getD 1 Num.zero := by
  unfold updCol
  simp only [List.mem_map, Prod.exists, List.mem_zipIdx_iff_getElem?, Prod.mk.injEq]
  constructor
  · rintro ⟨row, r', h1, ⟨rfl, rfl⟩, rfl⟩
    exact ⟨rfl, row, h1, rfl⟩
  · rintro ⟨rfl, row, h1, rfl⟩
    exact ⟨row, r, h1, ⟨rfl, rfl⟩, rfl⟩

/-- `out += prediction` on arrays and on cells. -/
theorem Rep.addMat {rows cols : Nat} {m p : List (List F)} {f : Cell → F} (h : Rep rows cols m f) (hp : MatShape rows cols p) :
    ∃ m', Verif.addMat m p = .ok m' ∧ Rep rows cols m' (applyUpd f (updAll p)) := by
  refine ⟨_, addMat_eq (n := cols) (by rw [h.rows, hp.1]) (fun v hv => ?_) hp.2, ⟨by simp [h.rows, hp.1], ?_, ?_⟩⟩
  · obtain ⟨r, hr⟩ := List.getElem?_of_mem hv
    exact h.row r v hr
  · intro r row hr
    rw [List.getElem?_zipWith] at hr
    cases h1 : m[r]? with
    | none => simp [h1] at hr
    | some a =>
      cases h2 : p[r]? with
      | none => simp [h1, h2] at hr
      | some b =>
        simp only [h1, h2, Option.some.injEq] at hr
        rw [← hr, List.length_zipWith, h.row r a h1, hp.2 b (List.mem_of_getElem? h2), Nat.min_self]
  · intro r row hr c v hv
    rw [List.getElem?_zipWith] at hr
    cases h1 : m[r]? with
    | none => simp [h1] at hr
    | some a =>
      cases h2 : p[r]? with
      | none => simp [h1, h2] at hr
      | some b =>
        simp only [h1, h2, Option.some.injEq] at hr
        rw [← hr, List.getElem?_zipWith] at hv
        cases h3 : a[c]? with
        | none => simp [h3] at hv
        | some x =>
          cases h4 : b[c]? with
          | none => simp [h3, h4] at hv
          | some y =>
            simp only [h3, h4, Option.some.injEq] at hv
            rw [applyUpd_mem _ _ (nodup_updAll p) (mem_updAll.2 ⟨b, h2, h4⟩), h.get r a h1 c x h3, hv]

/-- `out[:, col] += prediction[:, 1]` on arrays and on cells. -/
theorem Rep.addCol {rows cols col : Nat} {m p : List (List F)} {f : Cell → F} (h : Rep rows cols m f) (hp : MatShape rows 2 p) (hc : col < cols) :
    ∃ m', (if m.length = p.length then (m.zip p).mapM fun (row, q) => addCol col row q else .error .valueError : M (List (List F))) = .ok m' ∧
      Rep rows cols m' (applyUpd f (updCol col p)) := by
  have hl : m.length = p.length := by rw [h.rows, hp.1]
  rw [if_pos hl]
  have hrow : ∀ (r : Nat) row q, m[r]? = some row → p[r]? = some q → ∃ v x, q[1]? = some v ∧ q.getD 1 Num.zero = v ∧ row[col]? = some x ∧
      Verif.addCol col row q = .ok (row.set col (Num.add x v)) := by
    intro r row q h1 h2
    have hq := hp.2 q (List.mem_of_getElem? h2)
    have hr := h.row r row h1
    have e1 : q[1]? = some q[1] := List.getElem?_eq_getElem (by omega)
    have e2 : row[col]? = some row[col] := List.getElem?_eq_getElem (by omega)
    refine ⟨q[1], row[col], e1, by simp [List.getD_eq_getElem?_getD, e1], e2, ?_⟩
    unfold Verif.addCol
    rw [rd_of_lt (by omega), bind_ok, rd_of_lt (by omega), bind_ok, wr_of_lt _ (by omega)]
  obtain ⟨m', hm⟩ := mapM_total (l := m.zip p) (f := fun (x : List F × List F) => Verif.addCol col x.1 x.2) (fun x hx => by
    obtain ⟨r, hr⟩ := List.mem_iff_getElem?.1 hx
    obtain ⟨a, b⟩ := x
    rw [List.getElem?_zip_eq_some] at hr
    obtain ⟨v, x, _, _, _, e⟩ := hrow r a b hr.1 hr.2
    exact ⟨_, e⟩)
  refine ⟨m', hm, ?_⟩
  have hF := List.forall₂_iff_get.1 (mapM_eq_ok.1 hm)
  have hlen : m'.length = rows := by rw [← hF.1, List.length_zip, ← hl, Nat.min_self, h.rows]
  have key : ∀ (r : Nat) row', m'[r]? = some row' → ∃ row q v x, m[r]? = some row ∧ p[r]? = some q ∧ q.getD 1 Num.zero = v ∧ row[col]? = some x ∧
      row' = row.set col (Num.add x v) := by
    intro r row' hr
    obtain ⟨hlt, e⟩ := List.getElem?_eq_some_iff.1 hr
    have h1 : r < m.length := by rw [h.rows]; omega
    have h2 : r < p.length := by omega
    have h3 := hF.2 r (by rw [hF.1]; exact hlt) hlt
    simp only [List.get_eq_getElem, List.getElem_zip] at h3
    obtain ⟨v, x, _, e2, e3, e4⟩ := hrow r m[r] p[r] (List.getElem?_eq_getElem h1) (List.getElem?_eq_getElem h2)
    rw [e4] at h3
    injection h3 with h3
    exact ⟨_, _, v, x, List.getElem?_eq_getElem h1, List.getElem?_eq_getElem h2, e2, e3, by rw [h3, e]⟩
  refine ⟨hlen, ?_, ?_⟩
  · intro r row' hr
    obtain ⟨row, q, v, x, h1, h2, h3, h4, rfl⟩ := key r row' hr
    rw [List.length_set, h.row r row h1]
  · intro r row' hr c y hy
    obtain ⟨row, q, v, x, h1, h2, h3, h4, rfl⟩ := key r row' hr
    by_cases hcc : c = col
    · subst hcc
      rw [List.getElem?_set_self (by rw [h.row r row h1]; exact hc)] at hy
      injection hy with hy
      rw [applyUpd_mem (updCol c p) f (nodup_map_zipIdx p _ c fun _ => rfl) (mem_updCol.2 ⟨rfl, q, h2, h3.symm⟩), h.get r row h1 c x h4, hy]
    · rw [List.getElem?_set_ne (Ne.symm hcc)] at hy
      rw [applyUpd_not_mem, h.get r row h1 c y hy]
      intro v' hv'
      exact hcc (mem_updCol.1 hv').1

theorem Rep.zeros (rows cols : Nat) : Rep rows cols (List.replicate rows (List.replicate cols (Num.zero : F))) fun _ => Num.zero := by
  refine ⟨by simp, ?_, ?_⟩
  · intro r row hr
    have := List.eq_of_mem_replicate (List.mem_of_getElem? hr)
    rw [this]; simp
  · intro r row hr c v hv
    have := List.eq_of_mem_replicate (List.mem_of_getElem? hr)
    rw [this] at hv
    exact (List.eq_of_mem_replicate (List.mem_of_getElem? hv)).symm

/-- Adding the predictions of trees in the order `order`. -/
theorem foldlM_rep {α : Type} {rows cols : Nat} (upd : Nat → List (Cell × F)) (order : List α) (ix : α → Nat) (body : List (List F) → α → M (List (List F)))
    (hb : ∀ x ∈ order, ∀ m f, Rep rows cols m f → ∃ m', body m x = .ok m' ∧ Rep rows cols m' (applyUpd f (upd (ix x))))
    (m : List (List F)) (f : Cell → F) (hm : Rep rows cols m f) :
    ∃ m', order.foldlM body m = .ok m' ∧ Rep rows cols m' ((order.map ix).foldl (fun out i => applyUpd out (upd i)) f) := by
  induction order generalizing m f with
  | nil => exact ⟨m, rfl, hm⟩
  | cons x l ih =>
    obtain ⟨m1, e1, h1⟩ := hb x (by simp) m f hm
    obtain ⟨m2, e2, h2⟩ := ih (fun y hy => hb y (by simp [hy])) m1 _ h1
    exact ⟨m2, by rw [List.foldlM_cons, e1, bind_ok, e2], h2⟩

theorem Rep.eq {rows cols : Nat} {m : List (List F)} {f : Cell → F} (h : Rep rows cols m f) : m = matrix rows cols f := by
  refine List.ext_getElem (by simp [matrix, h.rows]) fun r h1 h2 => ?_
  have e := List.getElem?_eq_getElem h1
  refine List.ext_getElem (by simp [matrix, h.row r _ e]) fun c h3 h4 => ?_
  have := h.get r _ e c _ (List.getElem?_eq_getElem h3)
  simp [matrix, this]

theorem addRows_vec {rows : Nat} {f : Cell → F} {p : List F} (hp : p.length = rows) :
    addRows Num.add (vector rows f) p = .ok (vector rows (applyUpd f (updVec p))) := by
  unfold addRows
  rw [if_pos (by simp [vector, hp])]
  congr 1
  refine List.ext_getElem (by simp [vector, hp]) fun r h1 h2 => ?_
  have hr : r < p.length := by simp [vector] at h2; omega
  simp only [vector, List.getElem_zipWith, List.getElem_map, List.getElem_range]
  rw [applyUpd_mem (updVec p) f (nodup_map_zipIdx p _ 0 fun _ => rfl) (mem_updVec.2 ⟨rfl, List.getElem?_eq_getElem hr⟩)]

theorem applyAll_reverse (upd : Nat → List (Cell × F)) (l : List Nat) :
    applyAll upd l = l.reverse.foldl (fun out i => applyUpd out (upd i)) fun _ => Num.zero := by
  unfold applyAll
  rw [List.foldl_reverse]

/-! ## Over the real numbers -/

open Classical in
theorem applyUpd_real (l : List (Cell × ℝ)) (out : Cell → ℝ) (a : Cell) :
    applyUpd out l a = out a + ((l.filter fun x => x.1 = a).map Prod.snd).sum := by
  induction l generalizing out with
  | nil => simp [applyUpd]
  | cons x l ih =>
    have e : applyUpd out (x :: l) = applyUpd (Function.update out x.1 (Num.add (out x.1) x.2)) l := rfl
    rw [e, ih]
    by_cases h : x.1 = a
    · subst h
      rw [Function.update_self, List.filter_cons_of_pos (by simp)]
      simp only [List.map_cons, List.sum_cons]
      change out x.1 + x.2 + _ = _
      ring
    · rw [Function.update_of_ne (Ne.symm h), List.filter_cons_of_neg (by simpa using h)]

theorem applyUpd_comm (f : Cell → ℝ) (l l' : List (Cell × ℝ)) : applyUpd (applyUpd f l) l' = applyUpd (applyUpd f l') l := by
  funext a
  simp only [applyUpd_real]
  ring

theorem foldl_perm_real (upd : Nat → List (Cell × ℝ)) {l l' : List Nat} (h : l.Perm l') (f : Cell → ℝ) :
    l.foldl (fun out i => applyUpd out (upd i)) f = l'.foldl (fun out i => applyUpd out (upd i)) f := by
  have : RightCommutative (fun (out : Cell → ℝ) (i : Nat) => applyUpd out (upd i)) := ⟨fun f a b => applyUpd_comm f _ _⟩
  exact h.foldl_eq f

theorem foldl_sum_real (upd : Nat → List (Cell × ℝ)) (l : List Nat) (f : Cell → ℝ) (a : Cell) :
    l.foldl (fun out i => applyUpd out (upd i)) f a = f a + (l.map fun i => applyUpd (fun _ => 0) (upd i) a).sum := by
  induction l generalizing f with
  | nil => simp
  | cons i l ih =>
    rw [List.foldl_cons, ih, List.map_cons, List.sum_cons, applyUpd_real, applyUpd_real]
    ring

end Verif
