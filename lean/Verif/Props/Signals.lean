import Verif.Proofs.Signals

/-! Properties of the signals. -/
namespace Verif
open Spec

/-- C76 (partial): the result of `get_signal` is the signal in units such that its least value is 0 and its greatest value is 1, if the signal takes two values
on the inputs. Missing: inputs on which the signal is constant, where the result is NaN (`C76_constant_violates`). -/
theorem C76_signal_rescaled_partial {x : List ℝ} {s : String} (hv : Varies (donoho s) x) :
    ∃ y, getSignal x s = .ok y ∧ Rescaled (donoho s) x y := by
  rw [← signalOf_donoho] at *
  have hx : x ≠ [] := by
    obtain ⟨p, hp, _⟩ := hv
    exact List.ne_nil_of_mem hp
  obtain ⟨y, hy⟩ := getSignal_total hx s
  exact ⟨y, hy, getSignal_rescaled hy hv⟩

example : Varies (donoho "blocks") [0, 0.12, 0.14] := by
  rw [← signalOf_donoho]
  refine ⟨0, by simp, 0.12, by simp, ?_⟩
  rw [signalOf_blocks, blocks_zero, blocks_low]
  norm_num

/-- C76 is violated: with one input the result is NaN for every signal. -/
theorem C76_constant_violates (t : ℝ) (s : String) : ∃ y, getSignal [t] s = .ok y ∧ ¬ Rescaled (donoho s) [t] y := by
  refine ⟨_, getSignal_single t s, fun h => ?_⟩
  obtain ⟨z, hz, _⟩ := h.range none (by simp)
  cases hz

/-- C77 is violated: the docstring says that the result is the value of the signal at the inputs, but the value at an input depends on the other inputs. -/
theorem C77_pointwise_violated : ¬ Pointwise fun x => getSignal x "blocks" := by
  intro h
  have := h [0, 0.12] [0, 0.14] _ _ 0 0 0 blocks_first blocks_second rfl rfl
  simp at this

/-- C77 (partial): within one call, equal values of the signal give equal results and greater values greater results. Missing: two calls
(`C77_pointwise_violated`). -/
theorem C77_one_call_partial {x : List ℝ} {s : String} {y : List NanR} (h : getSignal x s = .ok y) (hv : Varies (donoho s) x) {i i' : Nat} {t t' : ℝ}
    (hi : x[i]? = some t) (hi' : x[i']? = some t') :
    ∃ z z', y[i]? = some (some z) ∧ y[i']? = some (some z') ∧ (z < z' ↔ donoho s t < donoho s t') ∧ (z = z' ↔ donoho s t = donoho s t') := by
  rw [← signalOf_donoho] at *
  obtain ⟨a, b, ha, e⟩ := (getSignal_rescaled h hv).affine
  refine ⟨a * signalOf s t + b, a * signalOf s t' + b, ?_, ?_, ?_, ?_⟩
  · rw [e, List.getElem?_map, hi]; rfl
  · rw [e, List.getElem?_map, hi']; rfl
  · constructor
    · intro h; exact lt_of_mul_lt_mul_left (by linarith) ha.le
    · intro h; have := mul_lt_mul_of_pos_left h ha; linarith
  · constructor
    · intro h; exact mul_left_cancel₀ ha.ne' (by linarith)
    · intro h; rw [h]

example : ∃ y, getSignal [0, 0.12] "blocks" = .ok y ∧ Varies (donoho "blocks") [0, 0.12] :=
  ⟨_, blocks_first, 0, by simp, 0.12, by simp, by rw [← signalOf_donoho, signalOf_blocks, blocks_zero, blocks_low]; norm_num⟩

/-- C78: with a seed, `make_regression` returns a sample that depends only on its arguments, not on the state of the global generator; it leaves that generator
in a state that depends only on the arguments. -/
theorem C78_regression_seeded {G : Type} (R : GlobalRng G) (n : Nat) (s : String) (noise : ℝ) (seed : Int) (g : G) :
    (∀ g', makeRegression R n s noise (some seed) g' = makeRegression R n s noise (some seed) g) ∧
    ∀ X y gEnd, makeRegression R n s noise (some seed) g = .ok ((X, y), gEnd) → NoisySample R n (donoho s) noise (R.seed seed) X y gEnd :=
  ⟨fun _ => rfl, fun _ _ _ h => signalOf_donoho ▸ makeRegression_sample h⟩

/-- C78 without a seed: the sample comes from the state of the global generator. -/
theorem C78_regression_unseeded {G : Type} {R : GlobalRng G} {n : Nat} {s : String} {noise : ℝ} {g g' : G} {X : List ℝ} {y : List NanR}
    (h : makeRegression R n s noise none g = .ok ((X, y), g')) : NoisySample R n (donoho s) noise g X y g' :=
  signalOf_donoho ▸ makeRegression_sample h

/-- A generator for the examples: its state is the next draw. -/
noncomputable def sigRng : GlobalRng ℝ where
  seed k := k
  uniform n g := ((List.range n).map fun i => g / (i + 1), g + 1)
  randn n g := (List.replicate n g, g + 1)

example : ∃ X y g', makeRegression sigRng 3 "blocks" 0.5 (some 1) 7 = .ok ((X, y), g') ∧ X.length = 3 ∧ g' = 3 := by
  obtain ⟨w, hw⟩ := getSignal_total (x := ((sigRng.uniform 3 (sigRng.seed 1)).1.mergeSort fun a b => decide (a ≤ b))) (by
    intro h
    have := congrArg List.length h
    rw [List.length_mergeSort] at this
    simp [sigRng] at this) "blocks"
  refine ⟨_, _, _, by unfold makeRegression; simp only [Option.elim_some, hw]; rfl, ?_, ?_⟩
  · rw [List.length_mergeSort]; simp [sigRng]
  · simp only [sigRng]; norm_num

end Verif
