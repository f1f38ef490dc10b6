import Verif.Model.Basic

/-! # Column typing (/repo/wildwood/preprocessing/_checks.py) -/
namespace Verif

/-- What `_checks.py` looks at in a dtype: `category` is a pandas category dtype (its `kind` is "O"),
`bOSU` any other dtype with kind in "bOSU", `uif` a dtype with kind in "uif", `other` anything else. -/
inductive Kind
  | category
  | bOSU
  | uif
  | other
  deriving DecidableEq, Repr

/-- Result of `is_series_categorical`. -/
inductive ColType
  | isCategory
  | toCategory
  | numerical
  deriving DecidableEq, Repr

/-- `is_series_categorical`, _checks.py:71-158. `nunique` is `col.nunique()`. The warnings are not modelled. -/
def isSeriesCategorical (kind : Kind) (isCategorical : Option Bool) (nunique catMin : Nat) : M ColType :=
  if kind = .category ∨ kind = .bOSU then
    match isCategorical with
    | none => if kind = .category then .ok .isCategory else .ok .toCategory
    | some true => if kind = .category then .ok .isCategory else .ok .toCategory
    | some false => if kind = .category then .ok .isCategory else .ok .toCategory
  else if kind = .uif then
    match isCategorical with
    | none => if nunique ≤ catMin then .ok .toCategory else .ok .numerical
    | some true => .ok .toCategory
    | some false => .ok .numerical
  else .error .valueError

/-- One column of `get_array_dtypes`, _checks.py:219-310: `kind` is the kind of the whole array, `nunique` is
`np.unique(col).size`, `castable` tells whether `col.astype(np.float32)` works. -/
def arrayColCategorical (kind : Kind) (isCategorical : Option Bool) (nunique catMin : Nat)
    (castable : Bool) : M Bool :=
  if kind = .category ∨ kind = .bOSU then
    match isCategorical with
    | none => if nunique ≤ catMin then .ok true else if castable then .ok false else .ok true
    | some true => .ok true
    | some false => if castable then .ok false else .error .valueError
  else if kind = .uif then
    match isCategorical with
    | none => if nunique ≤ catMin then .ok true else .ok false
    | some true => .ok true
    | some false => .ok false
  else .error .valueError

/-- The `categorical_features` argument after `np.asarray`: `other n` is an array of `n` elements whose dtype kind is
neither "i" nor "b". One-dimensional arrays only. -/
inductive CatFeatures
  | none
  | ints (l : List Int)
  | bools (l : List Bool)
  | other (n : Nat)

/-- `get_is_categorical`, _checks.py:405-445. -/
def getIsCategorical (cf : CatFeatures) (nFeatures : Nat) : M (Option (List Bool)) :=
  match cf with
  | .none => .ok Option.none
  | .ints l =>
    if l.length = 0 then .ok Option.none
    else if l.any (fun i => decide ((nFeatures : Int) ≤ i)) || l.any (fun i => decide (i < 0)) then
      .error .valueError
    else do
      let mask ← l.foldlM (fun (m : List Bool) i => wr m i.toNat true) (List.replicate nFeatures false)
      return some mask
  | .bools l =>
    if l.length = 0 then .ok Option.none
    else if l.length ≠ nFeatures then .error .valueError
    else .ok (some l)
  | .other n => if n = 0 then .ok Option.none else .error .valueError

end Verif
