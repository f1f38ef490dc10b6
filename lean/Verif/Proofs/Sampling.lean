import Verif.Proofs.Basic
import Verif.Spec.Sampling
import Mathlib.Algebra.BigOperators.Group.List.Basic
import Mathlib.Data.List.Perm.Basic
import Mathlib.Data.List.Nodup
import Mathlib.Data.Nat.Sqrt

/-! Proofs about sampling. -/
namespace Verif

open Spec
set_option linter.unusedSectionVars false

theorem initPool (pool : List Nat) :
    (List.range pool.length).foldlM (fun (p : List Nat) i => wr p i i) pool = .ok (List.range pool.length) := by
  obtain ⟨s, h, h1, h2⟩ := foldlM_inv (f := fun (p : List Nat) i => wr p i i) (l := List.range pool.length) (s := pool)
    (fun pre p => p.length = pool.length ∧ ∀ i < pre.length, p[i]? = some i) (by simp)
    (by
      rintro pre x post p hl ⟨h1, h2⟩
      have hx : x = pre.length := by
        have := congrArg (fun l => l[pre.length]?) hl
        simp at this
        have hlen := congrArg List.length hl
        simp at hlen
        rw [List.getElem?_range (by omega)] at this
        simp at this
        exact this.symm
      have hlen := congrArg List.length hl
      simp at hlen
      refine ⟨_, wr_of_lt _ (by omega), by simp [h1], ?_⟩
      intro i hi
      simp at hi
      rw [List.getElem?_set]
      split
      · rename_i h; subst h; simp; omega
      · exact h2 i (by omega))
  rw [h]
  congr 1
  apply List.ext_getElem?
  intro i
  by_cases hi : i < pool.length
  · rw [h2 i (by simpa using hi), List.getElem?_range hi]
  · rw [List.getElem?_eq_none (by omega), List.getElem?_eq_none (by simp; omega)]

/-- One step of the sampling loop. -/
def swrStep {G : Type} (R : Rng G) (pop : Nat) (s : List Nat × List Nat × G) (i : Nat) :
    M (List Nat × List Nat × G) := do
  let (pool, out, g) := s
  let (j, g) ← R.draw g (← usub pop i)
  let out ← wr out i (← rd pool j)
  let last ← usub (← usub pop i) 1
  let pool ← wr pool j (← rd pool last)
  return (pool, out, g)

theorem swr_eq {G : Type} (R : Rng G) (g : G) (pool out : List Nat) :
    sampleWithoutReplacement R g pool out =
      (List.range out.length).foldlM (swrStep R pool.length) (List.range pool.length, out, g) := by
  simp only [sampleWithoutReplacement]
  rw [initPool]
  rfl

/-- Invariant of the sampling loop after `i` draws: the first `i` entries of `out` and the first `pop - i` entries of the
pool are together a permutation of `0, …, pop - 1`. -/
def SwrInv (pop k i : Nat) (pool out : List Nat) : Prop :=
  pool.length = pop ∧ out.length = k ∧ (out.take i ++ pool.take (pop - i)).Perm (List.range pop)

theorem swrStep_spec {G : Type} (R : Rng G) {pop k i : Nat} (hk : k ≤ pop) (hi : i < k) {pool out : List Nat} (g : G)
    (h : SwrInv pop k i pool out) :
    ∃ (hj : (R.randint g (pop - i)).1 < pool.length) (pool' : List Nat),
      swrStep R pop (pool, out, g) i =
        .ok (pool', out.set i pool[(R.randint g (pop - i)).1], (R.randint g (pop - i)).2) ∧
      SwrInv pop k (i + 1) pool' (out.set i pool[(R.randint g (pop - i)).1]) := by
  obtain ⟨h1, h2, h3⟩ := h
  have hjl := R.randint_lt g (pop - i) (by omega)
  obtain ⟨j, g', hr⟩ : ∃ j g', R.randint g (pop - i) = (j, g') := ⟨_, _, rfl⟩
  simp only [hr] at hjl ⊢
  have hj : j < pool.length := by omega
  refine ⟨hj, pool.set j pool[pop - i - 1], ?_, by simp [h1], by simp [h2], ?_⟩
  · simp only [swrStep, usub_of_le (show i ≤ pop by omega), bind_ok, Rng.draw,
      if_neg (show pop - i ≠ 0 by omega), rd_of_lt hj, wr_of_lt _ (show i < out.length by omega),
      usub_of_le (show 1 ≤ pop - i by omega), rd_of_lt (show pop - i - 1 < pool.length by omega),
      wr_of_lt _ hj, pure_eq_ok, hr]
  · refine List.Perm.trans ?_ h3
    have e1 : (out.set i pool[j]).take (i + 1) = out.take i ++ [pool[j]] := by
      apply List.ext_getElem?
      intro t
      rw [List.getElem?_take, List.getElem?_set, List.getElem?_append, List.getElem?_take]
      simp only [List.length_take]
      rw [show min i out.length = i by omega]
      by_cases ht : t < i
      · simp [ht, show t < i + 1 by omega, show ¬ i = t by omega]
      · by_cases ht2 : t = i
        · subst ht2; simp; omega
        · simp [show ¬ t < i + 1 by omega, show ¬ t < i by omega]
          omega
    rw [e1, List.append_assoc]
    refine List.Perm.append_left _ ?_
    -- the pool
    have e2 : pool.take (pop - i) = pool.take (pop - (i + 1)) ++ [pool[pop - i - 1]] := by
      have := List.take_append_getElem (l := pool) (i := pop - (i + 1)) (by omega)
      rw [show pop - (i + 1) + 1 = pop - i by omega] at this
      simp only [show pop - (i + 1) = pop - i - 1 by omega] at this ⊢
      exact this.symm
    by_cases hlast : j = pop - i - 1
    · have e3 : (pool.set j pool[pop - i - 1]) = pool := by
        subst hlast; simp
      rw [e3, e2]
      simp only [hlast]
      exact List.perm_append_comm
    · rw [e2]
      have hjt : j < (pool.take (pop - (i + 1))).length := by simp; omega
      have e4 : (pool.set j pool[pop - i - 1]).take (pop - (i + 1)) =
          (pool.take (pop - (i + 1))).set j pool[pop - i - 1] := by
        rw [List.take_set]
      rw [e4]
      have e5 : pool[j] = (pool.take (pop - (i + 1)))[j] := by simp
      rw [e5]
      generalize pool.take (pop - (i + 1)) = L at hjt ⊢
      generalize pool[pop - i - 1] = x
      clear * - hjt
      induction L generalizing j with
      | nil => simp at hjt
      | cons a L ih =>
        cases j with
        | zero =>
          simp
          exact (List.perm_append_singleton _ _).symm
        | succ j =>
          simp
          have := ih j (by simpa using hjt)
          simp at this
          exact (List.Perm.swap _ _ _).trans (List.Perm.cons _ this)

theorem swr_spec {G : Type} (R : Rng G) (g : G) {pool out : List Nat} (hk : out.length ≤ pool.length) :
    ∃ pool' out' g', sampleWithoutReplacement R g pool out = .ok (pool', out', g') ∧
      SwrInv pool.length out.length out.length pool' out' := by
  rw [swr_eq]
  obtain ⟨s, h1, h2⟩ := foldlM_inv (f := swrStep R pool.length) (l := List.range out.length)
    (s := (List.range pool.length, out, g))
    (fun pre s => SwrInv pool.length out.length pre.length s.1 s.2.1)
    (by refine ⟨by simp, rfl, ?_⟩; simp)
    (by
      rintro pre x post ⟨p, o, g⟩ hl h
      have hx : x = pre.length := by
        have := congrArg (fun l => l[pre.length]?) hl
        simp at this
        have hlen := congrArg List.length hl
        simp at hlen
        rw [List.getElem?_range (by omega)] at this
        simp at this
        exact this.symm
      have hlen := congrArg List.length hl
      simp at hlen
      obtain ⟨hj, pool', h1, h2⟩ := swrStep_spec R hk (by omega) g h
      refine ⟨_, by rw [hx]; exact h1, ?_⟩
      simpa using h2)
  obtain ⟨p, o, g'⟩ := s
  refine ⟨p, o, g', h1, by simpa using h2⟩

theorem swrInv_sample {pop k : Nat} {pool out : List Nat} (h : SwrInv pop k k pool out) :
    IsSample pop k out := by
  obtain ⟨h1, h2, h3⟩ := h
  have ht : out.take k = out := List.take_of_length_le (by omega)
  rw [ht] at h3
  have hnd := h3.nodup_iff.2 List.nodup_range
  refine ⟨h2, (List.nodup_append.1 hnd).1, ?_⟩
  intro x hx
  have := h3.mem_iff.1 (List.mem_append_left _ hx)
  simpa using this

/-- The generator that replays a list of draws. -/
def replay : Rng (List Nat) where
  seed _ := []
  randint g n := (min (g.headD 0) (n - 1), g.tail)
  randint_lt g n h := by simp; omega

/-- Any sample can come out. -/
theorem swr_reach {pool out : List Nat} (hk : out.length ≤ pool.length) {target : List Nat}
    (ht : IsSample pool.length out.length target) :
    ∃ draws pool' g', sampleWithoutReplacement replay draws pool out = .ok (pool', target, g') := by
  simp only [swr_eq]
  -- from step `i` on, with `m` steps left
  suffices H : ∀ (m i : Nat) (p o : List Nat), i + m = out.length → SwrInv pool.length out.length i p o →
      o.take i = target.take i →
      ∃ draws s, (List.range' i m).foldlM (swrStep replay pool.length) (p, o, draws) = .ok s ∧ s.2.1 = target by
    obtain ⟨draws, s, h1, h2⟩ := H out.length 0 (List.range pool.length) out (by simp)
      ⟨by simp, rfl, by simp⟩ (by simp)
    refine ⟨draws, s.1, s.2.2, ?_⟩
    rw [List.range_eq_range' (n := out.length), h1, ← h2]
  intro m
  induction m with
  | zero =>
    intro i p o hi hinv htake
    refine ⟨[], (p, o, []), rfl, ?_⟩
    have h1 : o.take i = o := List.take_of_length_le (by have := hinv.2.1; omega)
    have h2 : target.take i = target := List.take_of_length_le (by have := ht.1; omega)
    rw [h1, h2] at htake
    exact htake
  | succ m ih =>
    intro i p o hi hinv htake
    have hitl : i < target.length := by have := ht.1; omega
    -- the wanted element is in the pool
    have hmem : target[i] ∈ p.take (pool.length - i) := by
      have hr : target[i] ∈ List.range pool.length := by
        simpa using ht.2.2 _ (List.getElem_mem hitl)
      rcases List.mem_append.1 (hinv.2.2.mem_iff.2 hr) with h | h
      · exfalso
        rw [htake] at h
        obtain ⟨t, hti, hte⟩ := List.getElem_of_mem h
        simp at hti hte
        have := (List.Nodup.getElem_inj_iff ht.2.1).1 hte
        omega
      · exact h
    obtain ⟨j, hj, hje⟩ := List.getElem_of_mem hmem
    simp at hj hje
    obtain ⟨ds, hds⟩ : ∃ ds : List Nat → List Nat, ∀ l, ds l = j :: l := ⟨fun l => j :: l, fun _ => rfl⟩
    have hstep : ∀ l, (replay.randint (j :: l) (pool.length - i)) = (j, l) := by
      intro l; simp [replay]; omega
    -- the state after the step does not depend on the rest of the draws
    have key : ∀ l, ∃ p', swrStep replay pool.length (p, o, j :: l) i = .ok (p', o.set i target[i], l) ∧
        p' = p.set j (p[pool.length - i - 1]'(by have := hinv.1; omega)) ∧
        SwrInv pool.length out.length (i + 1) p' (o.set i target[i]) := by
      intro l
      obtain ⟨hjl, p', h1, h2⟩ := swrStep_spec replay hk (by omega : i < out.length) (j :: l) hinv
      simp only [hstep, hje] at h1 h2
      refine ⟨p', h1, ?_, h2⟩
      simp only [swrStep, usub_of_le (show i ≤ pool.length by omega), bind_ok, Rng.draw,
        if_neg (show pool.length - i ≠ 0 by omega), hstep, rd_of_lt (show j < p.length by have := hinv.1; omega),
        wr_of_lt _ (show i < o.length by have := hinv.2.1; omega),
        usub_of_le (show 1 ≤ pool.length - i by omega),
        rd_of_lt (show pool.length - i - 1 < p.length by have := hinv.1; omega),
        wr_of_lt _ (show j < p.length by have := hinv.1; omega), pure_eq_ok] at h1
      injection h1 with h1
      exact (Prod.ext_iff.1 h1).1.symm
    obtain ⟨p', hk1, hpe, hinv'⟩ := key []
    have htake' : (o.set i target[i]).take (i + 1) = target.take (i + 1) := by
      apply List.ext_getElem?
      intro t
      rw [List.getElem?_take, List.getElem?_take, List.getElem?_set]
      by_cases hti : t < i
      · have := congrArg (fun l => l[t]?) htake
        simp [hti] at this
        simp [show t < i + 1 by omega, show ¬ i = t by omega, this]
      · by_cases hte : t = i
        · subst hte
          have := hinv.2.1
          simp [show t < o.length by omega]
        · simp [show ¬ t < i + 1 by omega]
    obtain ⟨draws, s, h1, h2⟩ := ih (i + 1) p' _ (by omega) hinv' htake'
    refine ⟨j :: draws, s, ?_, h2⟩
    rw [List.range'_succ, List.foldlM_cons]
    obtain ⟨p'', hk2, hpe2, _⟩ := key draws
    rw [hk2, hpe2, ← hpe]
    exact h1

/-! ## bootstrap -/

theorem filterMap_zip_map {α β : Type} (l : List α) (f : α → β) (p : α → Bool) :
    ((l.map f).zip (l.map p)).filterMap (fun q => if q.2 then some q.1 else none) =
      (l.filter p).map f := by
  induction l with
  | nil => rfl
  | cons a l ih =>
    simp only [List.map_cons, List.zip_cons_cons, List.filterMap_cons, List.filter_cons, ih]
    cases p a <;> simp

theorem genTV_step (draw : Nat → List Nat) (n depth seed : Nat) :
    generateTrainValid draw n (depth + 1) seed =
      if ∀ i < n, i ∈ draw seed then generateTrainValid draw n depth ((seed + 1) % (2 ^ 32 - 1))
      else .ok { train := (List.range n).filter (fun i => decide (i ∈ draw seed))
                 valid := (List.range n).filter (fun i => decide (i ∉ draw seed))
                 trainCount := ((List.range n).filter (fun i => decide (i ∈ draw seed))).map (draw seed).count } := by
  rw [generateTrainValid]
  have hm : (((List.range n).map fun i => (draw seed).count i).map fun c => decide (c = 0)) =
      (List.range n).map fun i => decide (i ∉ draw seed) := by
    rw [List.map_map]
    apply List.map_congr_left
    intro i _
    simp [List.count_eq_zero]
  have hm2 : ((List.range n).map fun i => decide (i ∉ draw seed)).map not =
      (List.range n).map fun i => decide (i ∈ draw seed) := by
    rw [List.map_map]
    apply List.map_congr_left
    intro i _
    simp
  simp only [hm, hm2]
  have hc : (List.count true ((List.range n).map fun i => decide (i ∉ draw seed)) = 0) ↔
      ∀ i < n, i ∈ draw seed := by
    rw [List.count_eq_zero]
    simp
  have e := fun (f : Nat → Nat) p => filterMap_zip_map (List.range n) f p
  have e' := fun p => filterMap_zip_map (List.range n) id p
  simp only [List.map_id] at e'
  by_cases h : ∀ i < n, i ∈ draw seed
  · rw [if_pos (hc.2 h), if_pos h]
  · rw [if_neg (fun h' => h (hc.1 h')), if_neg h]
    simp only [e, e']

theorem sum_map_add' (l : List Nat) (f g : Nat → Nat) :
    (l.map fun i => f i + g i).sum = (l.map f).sum + (l.map g).sum := by
  induction l with
  | nil => rfl
  | cons a l ih => simp only [List.map_cons, List.sum_cons, ih]; omega

theorem sum_map_ite' (l : List Nat) (a : Nat) :
    (l.map fun i => if a = i then 1 else 0).sum = l.count a := by
  induction l with
  | nil => rfl
  | cons b l ih =>
    simp only [List.map_cons, List.sum_cons, ih, List.count_cons]
    by_cases h : a = b
    · subst h; simp; omega
    · have : ¬ b = a := fun h' => h h'.symm
      simp [h, this]

theorem count_sum {l : List Nat} {n : Nat} (h : ∀ x ∈ l, x < n) :
    ((List.range n).map l.count).sum = l.length := by
  induction l with
  | nil => simp
  | cons a l ih =>
    have ih := ih (fun x hx => h x (by simp [hx]))
    have ha := h a (by simp)
    have : ((List.range n).map (a :: l).count) =
        (List.range n).map (fun i => l.count i + if a = i then 1 else 0) := by
      apply List.map_congr_left
      intro i _
      rw [List.count_cons]
      simp
    rw [this, sum_map_add', ih]
    have h1 : ((List.range n).map fun i => if a = i then 1 else 0).sum = 1 := by
      rw [sum_map_ite', List.count_eq_one_of_mem List.nodup_range (by simpa using ha)]
    rw [h1]; simp

theorem genTV_ok {draw : Nat → List Nat} {n : Nat} (hd : DrawsOK n draw) :
    ∀ depth seed b, generateTrainValid draw n depth seed = .ok b →
      IsPartition n b ∧ ∃ s, ∀ i, (i ∈ b.train ↔ i ∈ draw s) ∧ (b.trainCount = b.train.map (draw s).count) := by
  intro depth
  induction depth with
  | zero => intro seed b h; cases h
  | succ depth ih =>
    intro seed b h
    rw [genTV_step] at h
    split at h
    · exact ih _ _ h
    · rename_i hne
      injection h with h
      push Not at hne
      obtain ⟨i0, hi0, hi0n⟩ := hne
      obtain ⟨hlen, hlt⟩ := hd seed
      have hdne : draw seed ≠ [] := by
        intro h0; rw [h0] at hlen; simp at hlen; omega
      refine ⟨?_, seed, ?_⟩
      · subst h
        refine ⟨?_, ?_, ?_, by simp, ?_, ?_⟩
        · have := List.filter_append_perm (fun i => decide (i ∈ draw seed)) (List.range n)
          simpa using this
        · obtain ⟨x, hx⟩ := List.exists_mem_of_ne_nil _ hdne
          apply List.ne_nil_of_mem (a := x)
          simp [hx, hlt x hx]
        · apply List.ne_nil_of_mem (a := i0)
          simp [hi0, hi0n]
        · intro c hc
          simp at hc
          obtain ⟨x, hx, rfl⟩ := hc
          exact List.count_pos_iff.2 hx.2
        · show (((List.range n).filter (fun i => decide (i ∈ draw seed))).map (draw seed).count).sum = n
          rw [← hlen]
          conv_rhs => rw [← count_sum (n := n) hlt]
          rw [hlen]
          clear * -
          induction List.range n with
          | nil => rfl
          | cons a l ih =>
            rw [List.filter_cons]
            split
            · simp [ih]
            · rename_i h
              simp at h
              simp [ih, List.count_eq_zero.2 h]
      · intro i
        subst h
        refine ⟨?_, rfl⟩
        simp
        intro h; exact hlt i h

end Verif
