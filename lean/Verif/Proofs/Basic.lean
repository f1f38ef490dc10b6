import Verif.Model.Basic
import Mathlib.Data.List.Forall2
import Mathlib.Tactic.NormNum
import Mathlib.Tactic.Ring
import Mathlib.Tactic.Linarith
import Mathlib.Tactic.Positivity

/-! General lemmas about the checked arrays and monadic loops of the model. -/
namespace Verif

@[simp] theorem bind_ok {α β : Type _} (a : α) (f : α → M β) :
    ((Except.ok a : M α) >>= f) = f a := rfl

@[simp] theorem bind_error {α β : Type _} (e : Err) (f : α → M β) :
    ((Except.error e : M α) >>= f) = .error e := rfl

@[simp] theorem pure_eq_ok {α : Type _} (a : α) : (pure a : M α) = .ok a := rfl

@[simp] theorem map_ok {α β : Type _} (a : α) (f : α → β) :
    (f <$> (Except.ok a : M α)) = .ok (f a) := rfl

theorem bind_eq_ok {α β : Type _} {m : M α} {f : α → M β} {b : β} :
    (m >>= f) = .ok b ↔ ∃ a, m = .ok a ∧ f a = .ok b := by
  cases m <;> simp

theorem rd_ok {α : Type _} {a : List α} {i : Nat} {x : α} : rd a i = .ok x ↔ a[i]? = some x := by
  unfold rd; split <;> simp_all

theorem rd_of_lt {α : Type _} {a : List α} {i : Nat} (h : i < a.length) : rd a i = .ok a[i] := by
  simp [rd_ok, h]

theorem rd_eq_ok_iff_lt {α : Type _} {a : List α} {i : Nat} :
    (∃ x, rd a i = .ok x) ↔ i < a.length := by
  constructor
  · rintro ⟨x, hx⟩
    rw [rd_ok] at hx
    exact (List.getElem?_eq_some_iff.1 hx).1
  · intro h; exact ⟨_, rd_of_lt h⟩

theorem wr_of_lt {α : Type _} {a : List α} {i : Nat} (x : α) (h : i < a.length) :
    wr a i x = .ok (a.set i x) := by
  simp [wr, h]

theorem wr_ok {α : Type _} {a b : List α} {i : Nat} {x : α} :
    wr a i x = .ok b ↔ i < a.length ∧ b = a.set i x := by
  unfold wr
  split
  · simp_all [eq_comm]
  · simp; omega

theorem usub_of_le {a b : Nat} (h : b ≤ a) : usub a b = .ok (a - b) := by simp [usub, h]

theorem usub_ok {a b c : Nat} : usub a b = .ok c ↔ b ≤ a ∧ c = a - b := by
  unfold usub
  split
  · simp_all [eq_comm]
  · simp; omega

theorem wrSlice_of {α : Type _} {a v : List α} {s e : Nat} (h1 : s ≤ e) (h2 : e ≤ a.length)
    (h3 : v.length = e - s) : wrSlice a s e v = .ok (a.take s ++ v ++ a.drop e) := by
  simp [wrSlice, h1, h2, h3]

theorem wrSlice_ok {α : Type _} {a v b : List α} {s e : Nat} :
    wrSlice a s e v = .ok b ↔
      (s ≤ e ∧ e ≤ a.length ∧ v.length = e - s) ∧ b = a.take s ++ v ++ a.drop e := by
  unfold wrSlice; split <;> simp_all [eq_comm]

theorem slice_length {α : Type _} {a : List α} {s e : Nat} (h : e ≤ a.length) :
    (slice a s e).length = e - s := by
  simp only [slice, List.length_take, List.length_drop]; omega

theorem slice_length_le {α : Type _} (a : List α) (s e : Nat) : (slice a s e).length ≤ e - s := by
  simp only [slice, List.length_take]; omega

theorem slice_getElem? {α : Type _} (a : List α) (s e i : Nat) :
    (slice a s e)[i]? = if i < e - s then a[s + i]? else none := by
  simp only [slice, List.getElem?_take, List.getElem?_drop]

theorem slice_zero_length {α : Type _} (a : List α) : slice a 0 a.length = a := by
  simp [slice]

/-- Loop invariant rule for `foldlM` in `M`: the invariant sees the elements already processed. -/
theorem foldlM_inv {α σ : Type _} {f : σ → α → M σ} {l : List α} {s : σ} (I : List α → σ → Prop)
    (h0 : I [] s)
    (hs : ∀ pre x post s, l = pre ++ x :: post → I pre s → ∃ s', f s x = .ok s' ∧ I (pre ++ [x]) s') :
    ∃ s', l.foldlM f s = .ok s' ∧ I l s' := by
  suffices H : ∀ (post pre : List α) (s : σ), l = pre ++ post → I pre s →
      ∃ s', post.foldlM f s = .ok s' ∧ I l s' from H l [] s rfl h0
  intro post
  induction post with
  | nil => intro pre s hl hI; simp at hl; subst hl; exact ⟨s, rfl, hI⟩
  | cons x post ih =>
    intro pre s hl hI
    obtain ⟨s1, h1, hI1⟩ := hs pre x post s hl hI
    obtain ⟨s2, h2, hI2⟩ := ih (pre ++ [x]) s1 (by simp [hl]) hI1
    exact ⟨s2, by simp [List.foldlM_cons, h1, h2], hI2⟩

/-- Partial-correctness version: whatever the loop returns satisfies the invariant. -/
theorem foldlM_inv_of_ok {α σ : Type _} {f : σ → α → M σ} {l : List α} {s s' : σ}
    (I : List α → σ → Prop) (h0 : I [] s) (h : l.foldlM f s = .ok s')
    (hs : ∀ pre x post s s1, l = pre ++ x :: post → I pre s → f s x = .ok s1 → I (pre ++ [x]) s1) :
    I l s' := by
  suffices H : ∀ (post pre : List α) (s : σ), l = pre ++ post → I pre s →
      post.foldlM f s = .ok s' → I l s' from H l [] s rfl h0 h
  intro post
  induction post with
  | nil => intro pre s hl hI hf; simp at hl; subst hl; simp at hf; subst hf; exact hI
  | cons x post ih =>
    intro pre s hl hI hf
    rw [List.foldlM_cons, bind_eq_ok] at hf
    obtain ⟨s1, h1, h2⟩ := hf
    exact ih (pre ++ [x]) s1 (by simp [hl]) (hs pre x post s s1 hl hI h1) h2

theorem mapM_ok_of {α β : Type _} {f : α → M β} {l : List α} {g : α → β}
    (h : ∀ x ∈ l, f x = .ok (g x)) : l.mapM f = .ok (l.map g) := by
  induction l with
  | nil => simp
  | cons x l ih =>
    rw [List.mapM_cons, h x (by simp), ih (fun y hy => h y (by simp [hy]))]
    simp

/-- Characterisation of a successful `mapM`. -/
theorem mapM_eq_ok {α β : Type _} {f : α → M β} {l : List α} {r : List β} :
    l.mapM f = .ok r ↔ List.Forall₂ (fun x y => f x = .ok y) l r := by
  induction l generalizing r with
  | nil => cases r <;> simp
  | cons x l ih =>
    rw [List.mapM_cons, bind_eq_ok]
    constructor
    · rintro ⟨y, hy, h⟩
      rw [bind_eq_ok] at h
      obtain ⟨ys, hys, h⟩ := h
      simp at h; subst h
      exact .cons hy (ih.1 hys)
    · intro h
      cases h with
      | cons hy hys => exact ⟨_, hy, by rw [ih.2 hys]; simp⟩

end Verif
