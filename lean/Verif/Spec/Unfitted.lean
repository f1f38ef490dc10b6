import Verif.Model.Unfitted
import Verif.Spec.Params

/-! Specification of the two lives of an estimator: before and after the first successful `fit`. -/
namespace Verif.Spec

section
variable {L V K F P G W A D : Type} [LinearOrder L] [LinearOrder K] [Field K] [FloorSemiring K] [Num F]

/-- What can happen to a new estimator without a successful `fit`: assignments (accepted or refused), calls of `lighten`, and calls of `fit` that fail. `set` and `fit`: the assignments
and the calls of `fit` of this kind of estimator. Between the calls the array of weights and the global generator may change. -/
inductive NeverFitted (set : A → Py (Est L V K F P G) Unit) (fit : D → Py (World L V K F P G W) Unit) : World L V K F P G W → Prop
  | new {s} : Fresh s.self → NeverFitted set fit s
  | assign {s} (x : A) : NeverFitted set fit s → NeverFitted set fit { s with self := (set x s.self).2 }
  | lighten {s} : NeverFitted set fit s → NeverFitted set fit { s with self := (Est.callLighten s.self).2 }
  | fitFails {s} (d : D) (e : Err) : NeverFitted set fit s → (fit d s).1 = .error e → NeverFitted set fit (fit d s).2
  | elsewhere {s} (w : List F) (np : W) : NeverFitted set fit s → NeverFitted set fit { s with weights := w, np := np }

/-- What can happen to an estimator with `n_estimators ≥ 1` from a successful `fit` on; later calls of `fit` may fail or not. `kind`: what distinguishes classifiers from regressors. -/
inductive EverFitted (kind : Est L V K F P G → Prop) (set : A → Py (Est L V K F P G) Unit) (fit : D → Py (World L V K F P G W) Unit) : World L V K F P G W → Prop
  | fitSucceeds {s} (d : D) : 1 ≤ s.self.nEstimators → kind s.self → (fit d s).1 = .ok () → EverFitted kind set fit (fit d s).2
  | assign {s} (x : A) : EverFitted kind set fit s → EverFitted kind set fit { s with self := (set x s.self).2 }
  | lighten {s} : EverFitted kind set fit s → EverFitted kind set fit { s with self := (Est.callLighten s.self).2 }
  | fit {s} (d : D) : EverFitted kind set fit s → EverFitted kind set fit (fit d s).2
  | elsewhere {s} (w : List F) (np : W) : EverFitted kind set fit s → EverFitted kind set fit { s with weights := w, np := np }

end

/-- The call raises an exception. -/
def Raises {α : Type} (m : M α) : Prop := ∃ e, m = .error e

end Verif.Spec
