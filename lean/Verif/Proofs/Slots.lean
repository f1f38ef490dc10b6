import Verif.Spec.Slots
import Mathlib.Algebra.BigOperators.Group.Finset.Basic
import Mathlib.Algebra.Order.BigOperators.Group.Finset

/-! Threads that store the results of the trees. -/
namespace Verif

open Spec

variable {α : Type} {workers trees : Nat} {vals : Nat → List (Slot × α)} {ini : Nat → Slot → α}

/-- Invariant: the stored elements are right, the others are as they were, and the lock is held by the task that stores. -/
structure SInv (trees : Nat) (vals : Nat → List (Slot × α)) (ini : Nat → Slot → α) (s : Slots α) : Prop where
  stored : ∀ i w j, s.phase i = .storing w j → ∀ (k : Nat) c v, k < j → (vals i)[k]? = some (c, v) → s.out i c = v
  done : ∀ i, s.phase i = .done → ∀ (k : Nat) c v, (vals i)[k]? = some (c, v) → s.out i c = v
  other : ∀ i c, (∀ v, (c, v) ∉ vals i) → s.out i c = ini i c
  before : ∀ i, s.phase i = .waiting ∨ (∃ w, s.phase i = .ready w) → ∀ c, s.out i c = ini i c
  lock : ∀ i, s.lock = some i ↔ ∃ w j, s.phase i = .storing w j
  range : ∀ i, s.phase i ≠ .waiting → i < trees

theorem SInv.init : SInv trees vals ini (Slots.init ini) where
  stored i w j h := by cases h
  done i h := by cases h
  other i c _ := rfl
  before i _ c := rfl
  lock i := ⟨fun h => (by cases h), fun h => (by obtain ⟨w, j, h⟩ := h; cases h)⟩
  range i h := absurd rfl h

theorem to_phase (s : Slots α) (i : Nat) (p : Phase) (k : Nat) : (s.to i p).phase k = if k = i then p else s.phase k := rfl

theorem SInv.step (hd : ∀ i, ((vals i).map Prod.fst).Nodup) {s s' : Slots α} (h : SInv trees vals ini s) (st : SStep workers trees vals s s') : SInv trees vals ini s' := by
  cases st with
  | @start w i hw hi hp _ =>
    refine ⟨fun k w' j hk => ?_, fun k hk => ?_, h.other, fun k hk c => ?_, fun k => ?_, fun k hk => ?_⟩
    · rw [to_phase] at hk; split at hk
      · cases hk
      · exact h.stored k w' j hk
    · rw [to_phase] at hk; split at hk
      · cases hk
      · exact h.done k hk
    · by_cases e : k = i
      · subst e; exact h.before k (.inl hp) c
      · simp only [to_phase, if_neg e] at hk; exact h.before k hk c
    · rw [show (s.to i (.ready w)).lock = s.lock from rfl, h.lock k]
      by_cases e : k = i
      · subst e; simp only [to_phase, if_pos, hp]; simp
      · simp only [to_phase, if_neg e]
    · by_cases e : k = i
      · rw [e]; exact hi
      · rw [to_phase, if_neg e] at hk; exact h.range k hk
  | @acquire w i hp hl =>
    refine ⟨fun k w' j hk => ?_, fun k hk => ?_, h.other, fun k hk c => ?_, fun k => ?_, fun k hk => ?_⟩
    · simp only [to_phase] at hk; split at hk
      · cases hk; intro _ _ _ h0; cases h0
      · exact h.stored k w' j hk
    · simp only [to_phase] at hk; split at hk
      · cases hk
      · exact h.done k hk
    · simp only [to_phase] at hk
      split at hk
      · rcases hk with hk | ⟨_, hk⟩ <;> cases hk
      · exact h.before k hk c
    · have := h.lock k
      rw [hl] at this
      by_cases e : k = i
      · subst e; simp [to_phase]
      · simp only [to_phase, if_neg e, Option.some.injEq]
        rw [← this]; simp; exact fun x => e x.symm
    · by_cases e : k = i
      · subst e; exact h.range k (by rw [hp]; simp)
      · simp only [to_phase, if_neg e] at hk; exact h.range k hk
  | @store w i j c v hp hv =>
    have hu : ∀ (k : Nat) c' v', (vals i)[k]? = some (c', v') → c' = c → v' = v := by
      intro k c' v' hk e
      subst e
      have h1 : ((vals i).map Prod.fst)[k]? = some c' := by rw [List.getElem?_map, hk]; rfl
      have h2 : ((vals i).map Prod.fst)[j]? = some c' := by rw [List.getElem?_map, hv]; rfl
      have hkl : k < ((vals i).map Prod.fst).length := by
        by_contra hn; rw [List.getElem?_eq_none (by omega)] at h1; cases h1
      have : k = j := (List.getElem?_inj hkl (hd i)).1 (h1.trans h2.symm)
      subst this
      rw [hk] at hv
      simpa using hv
    refine ⟨fun k w' j' hk => ?_, fun k hk => ?_, fun k c' hn => ?_, fun k hk c' => ?_, fun k => ?_, fun k hk => ?_⟩
    · simp only [to_phase] at hk; split at hk
      · rename_i e; subst e
        cases hk
        intro l c' v' hlj hl
        simp only [true_and]
        split
        · rename_i e; exact (hu l c' v' hl e).symm
        · rename_i e
          refine h.stored k w j hp l c' v' ?_ hl
          rcases Nat.lt_succ_iff_lt_or_eq.1 hlj with hlj | rfl
          · exact hlj
          · rw [hl] at hv; cases hv; exact absurd rfl e
      · rename_i e
        intro l c' v' hlj hl
        simp only [e, false_and, if_false]
        exact h.stored k w' j' hk l c' v' hlj hl
    · simp only [to_phase] at hk; split at hk
      · cases hk
      · rename_i e
        intro l c' v' hl
        simp only [e, false_and, if_false]
        exact h.done k hk l c' v' hl
    · show (if k = i ∧ c' = c then v else s.out k c') = _
      split
      · rename_i e
        obtain ⟨rfl, rfl⟩ := e
        exact absurd (List.mem_of_getElem? hv) (hn v)
      · exact h.other k c' hn
    · simp only [to_phase] at hk
      split at hk
      · rcases hk with hk | ⟨_, hk⟩ <;> cases hk
      · rename_i e
        simp only [e, false_and, if_false]
        exact h.before k hk c'
    · have := h.lock k
      by_cases e : k = i
      · subst e
        simp only [to_phase, if_pos]
        exact ⟨fun _ => ⟨_, _, rfl⟩, fun _ => this.2 ⟨_, _, hp⟩⟩
      · simp only [to_phase, if_neg e]; exact this
    · by_cases e : k = i
      · subst e; exact h.range k (by rw [hp]; simp)
      · simp only [to_phase, if_neg e] at hk; exact h.range k hk
  | @release w i j hp hl =>
    refine ⟨fun k w' j' hk => ?_, fun k hk => ?_, h.other, fun k hk c => ?_, fun k => ?_, fun k hk => ?_⟩
    · simp only [to_phase] at hk; split at hk
      · cases hk
      · exact h.stored k w' j' hk
    · simp only [to_phase] at hk; split at hk
      · rename_i e; subst e
        intro l c v hc
        refine h.stored k w j hp l c v ?_ hc
        by_contra hn
        rw [List.getElem?_eq_none (by omega)] at hc
        cases hc
      · exact h.done k hk
    · simp only [to_phase] at hk
      split at hk
      · rcases hk with hk | ⟨_, hk⟩ <;> cases hk
      · exact h.before k hk c
    · by_cases e : k = i
      · subst e; simp [to_phase]
      · have h1 := (h.lock i).2 ⟨_, _, hp⟩
        have h2 := h.lock k
        rw [h1] at h2
        simp only [to_phase, if_neg e]
        rw [← h2]
        simp; exact fun x => e x.symm
    · by_cases e : k = i
      · subst e; exact h.range k (by rw [hp]; simp)
      · simp only [to_phase, if_neg e] at hk; exact h.range k hk

theorem SInv.run (hd : ∀ i, ((vals i).map Prod.fst).Nodup) {n : Nat} {s : Slots α} (r : SRun workers trees vals (Slots.init ini) n s) : SInv trees vals ini s := by
  induction r with
  | nil => exact .init
  | cons _ st ih => exact ih.step hd st

/-! ### Every run ends -/

/-- Steps that are left for a task. -/
def Phase.left (len : Nat) : Phase → Nat
  | .waiting => len + 3
  | .ready _ => len + 2
  | .storing _ j => len - j + 1
  | .done => 0

/-- Steps that are left. -/
def Slots.left (trees : Nat) (vals : Nat → List (Slot × α)) (s : Slots α) : Nat := ∑ i ∈ Finset.range trees, (s.phase i).left (vals i).length

theorem left_to {s s' : Slots α} {i : Nat} {p : Phase} (hi : i < trees) (hs : s'.phase = (s.to i p).phase)
    (hp : p.left (vals i).length + 1 = (s.phase i).left (vals i).length) : s'.left trees vals + 1 = s.left trees vals := by
  unfold Slots.left
  rw [← Finset.add_sum_erase _ _ (Finset.mem_range.2 hi), ← Finset.add_sum_erase (Finset.range trees) (fun i => (s.phase i).left (vals i).length) (Finset.mem_range.2 hi)]
  have : ∑ k ∈ (Finset.range trees).erase i, (s'.phase k).left (vals k).length = ∑ k ∈ (Finset.range trees).erase i, (s.phase k).left (vals k).length :=
    Finset.sum_congr rfl fun k hk => by rw [hs, to_phase, if_neg (Finset.ne_of_mem_erase hk)]
  rw [this, hs, to_phase, if_pos rfl, ← hp]
  omega

theorem SStep.left {s s' : Slots α} (h : SInv trees vals ini s) (st : SStep workers trees vals s s') : s'.left trees vals + 1 = s.left trees vals := by
  cases st with
  | start hw hi hp _ => exact left_to hi rfl (by rw [hp]; simp [Phase.left])
  | acquire hp hl => exact left_to (h.range _ (by rw [hp]; simp)) rfl (by rw [hp]; simp [Phase.left])
  | @store w i j c v hp hv =>
    have : j < (vals i).length := by
      by_contra hn; rw [List.getElem?_eq_none (by omega)] at hv; cases hv
    exact left_to (h.range _ (by rw [hp]; simp)) rfl (by rw [hp]; simp only [Phase.left]; omega)
  | release hp hl => exact left_to (h.range _ (by rw [hp]; simp)) rfl (by rw [hp]; simp only [Phase.left]; omega)

theorem SRun.left (hd : ∀ i, ((vals i).map Prod.fst).Nodup) {n : Nat} {s : Slots α} (r : SRun workers trees vals (Slots.init ini) n s) :
    n + s.left trees vals = ∑ i ∈ Finset.range trees, ((vals i).length + 3) := by
  induction r with
  | nil => rw [Nat.zero_add]; rfl
  | cons r st ih =>
    have := st.left (SInv.run hd r)
    omega

theorem SInv.progress (hw : 0 < workers) {s : Slots α} (h : SInv trees vals ini s) (hn : ¬AllDone trees s) : ∃ s', SStep workers trees vals s s' := by
  cases hl : s.lock with
  | some i =>
    obtain ⟨w, j, hp⟩ := (h.lock i).1 hl
    cases hv : (vals i)[j]? with
    | some cv => exact ⟨_, .store (c := cv.1) (v := cv.2) hp hv⟩
    | none => exact ⟨_, .release hp (by simpa using hv)⟩
  | none =>
    by_cases hr : ∃ i w, s.phase i = .ready w
    · obtain ⟨i, w, hp⟩ := hr
      exact ⟨_, .acquire hp hl⟩
    · unfold AllDone at hn
      push Not at hn hr
      obtain ⟨i, hi, hne⟩ := hn
      have hfree : ∀ k, (s.phase k).thread = none := by
        intro k
        cases hk : s.phase k with
        | ready w => exact absurd hk (hr k w)
        | storing w j => have := (h.lock k).2 ⟨w, j, hk⟩; rw [hl] at this; cases this
        | _ => rfl
      have hwait : s.phase i = .waiting := by
        have := hfree i
        cases hk : s.phase i with
        | waiting => rfl
        | done => exact absurd hk hne
        | ready w => rw [hk] at this; cases this
        | storing w j => rw [hk] at this; cases this
      exact ⟨_, .start hw hi hwait fun k => by rw [hfree k]; simp⟩

/-! ### Elements of vectors and matrices -/

theorem vecSlots_getElem? (v : List α) (j : Nat) : (vecSlots v)[j]? = (v[j]?).map fun x => ((j, 0), x) := by
  unfold vecSlots
  rw [List.getElem?_map, List.getElem?_zipIdx]
  cases v[j]? <;> simp

theorem vecSlots_nodup (v : List α) : ((vecSlots v).map Prod.fst).Nodup := by
  have : (vecSlots v).map Prod.fst = (List.range v.length).map fun j => (j, 0) := by
    apply List.ext_getElem?
    intro j
    rw [List.getElem?_map, vecSlots_getElem?, List.getElem?_map]
    by_cases h : j < v.length
    · rw [List.getElem?_eq_getElem h, List.getElem?_range h]; rfl
    · rw [List.getElem?_eq_none (by omega), List.getElem?_eq_none (by simpa using h)]; rfl
  rw [this]
  exact List.Nodup.map (fun a b h => (Prod.mk.inj h).1) List.nodup_range

theorem mem_matSlots {m : List (List α)} {c : Slot} {v : α} : (c, v) ∈ matSlots m ↔ (m[c.1]?.bind fun r => r[c.2]?) = some v := by
  unfold matSlots
  simp only [List.mem_flatten, List.mem_map]
  constructor
  · rintro ⟨l, ⟨⟨r, i⟩, hr, rfl⟩, hv⟩
    simp only [List.mem_map] at hv
    obtain ⟨⟨x, j⟩, hx, e⟩ := hv
    obtain ⟨rfl, rfl⟩ := Prod.mk.inj e
    rw [List.mem_zipIdx_iff_getElem?] at hr hx
    simp only at hr hx ⊢
    rw [hr]; exact hx
  · intro h
    cases hr : m[c.1]? with
    | none => rw [hr] at h; cases h
    | some r =>
      rw [hr] at h
      refine ⟨_, ⟨(r, c.1), List.mem_zipIdx_iff_getElem?.2 hr, rfl⟩, List.mem_map.2 ⟨(v, c.2), List.mem_zipIdx_iff_getElem?.2 h, rfl⟩⟩

theorem matSlots_nodup (m : List (List α)) : ((matSlots m).map Prod.fst).Nodup := by
  unfold matSlots
  rw [List.map_flatten, List.nodup_flatten, List.map_map]
  constructor
  · intro l hl
    obtain ⟨⟨r, i⟩, _, rfl⟩ := List.mem_map.1 hl
    simp only [Function.comp_apply, List.map_map]
    have := vecSlots_nodup r
    unfold vecSlots at this
    rw [List.map_map] at this
    have h2 : (fun c : Slot => (i, c.1)) ∘ (Prod.fst ∘ fun p : α × Nat => (((p.2, 0) : Slot), p.1)) = (Prod.fst ∘ fun p : α × Nat => (((i, p.2) : Slot), p.1)) := rfl
    rw [← h2, ← List.map_map]
    refine List.Nodup.map_on ?_ this
    intro a ha b hb h
    obtain ⟨p, _, rfl⟩ := List.mem_map.1 ha
    obtain ⟨q, _, rfl⟩ := List.mem_map.1 hb
    have := (Prod.mk.inj h).2
    simp only [Function.comp_apply] at this ⊢
    rw [this]
  · rw [List.pairwise_map]
    have hz : (m.zipIdx.map Prod.snd).Nodup := by rw [List.zipIdx_map_snd]; exact List.nodup_range'
    rw [List.Nodup, List.pairwise_map] at hz
    refine hz.imp fun {a b} hab => ?_
    rw [Function.comp_apply, Function.comp_apply, List.disjoint_left]
    intro x hx hx'
    simp only [List.map_map, List.mem_map, Function.comp_apply] at hx hx'
    obtain ⟨p, _, rfl⟩ := hx
    obtain ⟨q, _, e⟩ := hx'
    exact hab (Prod.mk.inj e).1.symm

theorem resultsOf_nodup {β : Type} {slots : β → List (Slot × α)} (h : ∀ b, ((slots b).map Prod.fst).Nodup) (rows : List β) (i : Nat) :
    ((resultsOf slots rows i).map Prod.fst).Nodup := by
  unfold resultsOf
  cases rows[i]? with
  | none => exact List.nodup_nil
  | some r => exact h r

end Verif
