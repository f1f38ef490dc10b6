import Verif.Proofs.Estimator

/-! Two programs that do the same on states related by a function. -/
set_option linter.unusedSectionVars false
namespace Verif

open Spec

namespace Py
variable {S S' α β : Type}

/-- `m'` does on `r s` what `m` does on `s`. -/
def Comm (r : S → S') (m : Py S α) (m' : Py S' α) : Prop := ∀ s, m' (r s) = ((m s).1, r (m s).2)

variable {r : S → S'}

theorem Comm.bind {m : Py S α} {m' : Py S' α} {f : α → Py S β} {f' : α → Py S' β} (hm : Comm r m m') (hf : ∀ a, Comm r (f a) (f' a)) :
    Comm r (m >>= f) (m' >>= f') := by
  intro s
  have h := hm s
  cases hs : m s with
  | mk x t =>
    rw [hs] at h
    cases x with
    | ok a => rw [bind_of_ok h, bind_of_ok hs]; exact hf a t
    | error e => rw [bind_of_error h, bind_of_error hs]

/-- The value read may be another one, when the programs that use it agree. -/
theorem Comm.bindRead {γ γ' : Type} {g : S → γ} {g' : S' → γ'} {f : γ → Py S β} {f' : γ' → Py S' β}
    (hf : ∀ s, f' (g' (r s)) (r s) = ((f (g s) s).1, r (f (g s) s).2)) : Comm r (Py.read g >>= f) (Py.read g' >>= f') := by
  intro s
  rw [bind_of_ok (read_apply g' (r s)), bind_of_ok (read_apply g s)]
  exact hf s

theorem Comm.pure (a : α) : Comm r (Py.pure a) (Py.pure a) := fun _ => rfl
theorem Comm.lift (m : M α) : Comm r (Py.lift m) (Py.lift m) := fun _ => rfl
theorem Comm.read {g : S → α} {g' : S' → α} (h : ∀ s, g' (r s) = g s) : Comm r (Py.read g) (Py.read g') := by
  intro s; rw [read_apply, read_apply, h]
theorem Comm.modify {g : S → S} {g' : S' → S'} (h : ∀ s, g' (r s) = r (g s)) : Comm r (Py.modify g) (Py.modify g') := by
  intro s; rw [modify_apply, modify_apply, h]
theorem Comm.raiseIf (b : Bool) (e : Err) : Comm r (Py.raiseIf b e) (Py.raiseIf b e) := by cases b <;> exact fun _ => rfl

theorem Comm.ite {c c' : Prop} [Decidable c] [Decidable c'] (h : c' ↔ c) {m n : Py S α} {m' n' : Py S' α} (h1 : Comm r m m') (h2 : Comm r n n') :
    Comm r (if c then m else n) (if c' then m' else n') := by
  by_cases hc : c
  · rw [if_pos hc, if_pos (h.2 hc)]; exact h1
  · rw [if_neg hc, if_neg (fun h' => hc (h.1 h'))]; exact h2

end Py

end Verif
