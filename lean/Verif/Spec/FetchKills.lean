import Verif.Spec.Fetch

/-! Histories in which failed calls left no new data file (C123, C124). -/
namespace Verif.Spec

open Fetch

/-- No call that was killed, or failed while downloading, left a new data file: after it this file is as it was before the call. -/
def NothingLeft {B T : Type} (sha : List B → String) (e : Env) (L : Loader B T) : List (LoadCall B) → Files B → Prop
  | [], _ => True
  | c :: l, f => ((c.run sha e L f).1 = .error .killed ∨ (c.run sha e L f).1 = .error .network ∨ (c.run sha e L f).1 = .error .checksum →
      (c.run sha e L f).2 (e.abs (L.path e L.target)) = f (e.abs (L.path e L.target))) ∧ NothingLeft sha e L l (c.run sha e L f).2

end Verif.Spec
