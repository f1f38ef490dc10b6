import Verif.Model.DatasetObj

/-! A `Dataset` whose attributes are changed, and whose `extract` is called, any number of times. -/
namespace Verif.Spec

/-- A call of `extract`: the parameters and the data frame of the object at this moment, and the split that is drawn. -/
structure ExtractCall (N C K : Type) where
  lib : DataLib C K
  cfg : DatasetCfg N
  df : DFrame N C
  n : Nat

section
variable {N C K : Type} [DecidableEq N] [LinearOrder C] [Field K] [DecidableEq K]

/-- What a call returns or raises, and the attributes after it, if the attributes before it are `a`. -/
def ExtractCall.run (c : ExtractCall N C K) (a : DatasetAttrs N C K) : M (List (List K) × List (List K) × Targets C × Targets C) × DatasetAttrs N C K := (extractObj c.lib c.cfg c.df c.n).run a

/-- The attributes of an object after a history of calls, some of which may have raised. -/
def afterExtracts (history : List (ExtractCall N C K)) : DatasetAttrs N C K := history.foldl (fun a c => (c.run a).2) .init

/-- There is a categorical column, and it is not one-hot encoded. -/
def ExtractCall.ordinal (c : ExtractCall N C K) : Prop := c.cfg.oneHot = false ∧ ∃ p ∈ c.df, p.1 ≠ c.cfg.label ∧ p.2.category = true

end

end Verif.Spec
