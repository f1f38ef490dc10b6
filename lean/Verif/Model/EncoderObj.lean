import Verif.Model.Params

/-! # The encoder as an object with hyperparameters and state (/repo/wildwood/preprocessing/encoder.py) -/
namespace Verif

/-- The attributes of an `Encoder`, encoder.py:127-144. `catMin = none`: the attribute `_cat_min_categories` does not exist. `cols`:
`_categories_`, `_binning_thresholds_`, `_is_categorical_` and `_n_bins_no_missing_values_`, which are always assigned together (lines 281-284).
Attributes that are None before `fit` are `0` or empty. Left out: `random_state` (see `EncObj.fit`), `verbose` and `_has_missing_values_`, which
is never assigned again. -/
structure EncObj (V K : Type) where
  maxBins : Nat
  subsample : Option Nat
  catMin : Option CatMin
  isCategorical : Option (List Bool)
  handleUnknownError : Bool
  fitted : Bool
  nSamples : Nat
  nFeatures : Nat
  catMin_ : Nat
  cols : List (FitCol V K)

/-- A value given for `is_categorical`: None, a one-dimensional array-like whose elements convert to these booleans, an array-like with another
number of dimensions, or something for which `np.array(val, dtype=np.bool_)` raises an exception. -/
inductive MaskArg
  | none
  | flat (l : List Bool)
  | dims
  | bad (e : Err)

/-- An assignment to a hyperparameter. -/
inductive EncSetting (K : Type)
  | maxBins (v : PyVal K)
  | subsample (v : PyVal K)
  | catMin (v : PyVal K)
  | isCategorical (v : MaskArg)
  | handleUnknown (v : PyVal K)

section
variable {V K : Type} [LinearOrder K] [Field K] [FloorSemiring K]

/-- The setters, encoder.py:610-620 (`max_bins`), 626-656 (`is_categorical`), 712-721 (`handle_unknown`), 727-735 (`subsample`) and 741-757
(`cat_min_categories`, which has no branch for a value that is neither an int nor a str). Simplification: `val in {…}` raises TypeError
for all values in `PyVal.other`, as it does for lists and arrays; it is ValueError for hashable ones. -/
def EncObj.assign : EncSetting K → Py (EncObj V K) Unit
  | .maxBins v => fun o => match v.int? with
    | some i => if i < 3 then (.error .valueError, o) else (.ok (), { o with maxBins := i.toNat })
    | none => (.error .valueError, o)
  | .subsample v => fun o => match v with
    | .none => (.ok (), { o with subsample := none })
    | .float (some x) => if 50000 ≤ x then (.ok (), { o with subsample := some ⌊x⌋₊ }) else (.error .valueError, o)
    | .float .none => (.error .valueError, o)
    | v => match v.int? with
      | some i => if 50000 ≤ i then (.ok (), { o with subsample := some i.toNat }) else (.error .valueError, o)
      | none => (.error .valueError, o)
  | .catMin v => fun o => match v with
    | .str s =>
      if s = "log" then (.ok (), { o with catMin := some .log })
      else if s = "sqrt" then (.ok (), { o with catMin := some .sqrt })
      else (.error .valueError, o)
    | v => match v.int? with
      | some i => if i ≤ 3 then (.error .valueError, o) else (.ok (), { o with catMin := some (.int i.toNat) })
      | none => (.ok (), o)
  | .isCategorical v => fun o => match v with
    | .none => (.ok (), { o with isCategorical := none })
    | .flat l => (.ok (), { o with isCategorical := some l })
    | .dims => (.error .valueError, o)
    | .bad e => (.error e, o)
  | .handleUnknown v => fun o => match v with
    | .str s =>
      if s = "error" then (.ok (), { o with handleUnknownError := true })
      else if s = "consider_missing" then (.ok (), { o with handleUnknownError := false })
      else (.error .valueError, o)
    | .other _ => (.error .typeError, o)
    | _ => (.error .valueError, o)

/-- Several assignments, up to the first exception. -/
def EncObj.assignEach : List (EncSetting K) → Py (EncObj V K) Unit
  | [] => Py.pure ()
  | s :: l => do
    EncObj.assign s
    EncObj.assignEach l

/-- The constructor, encoder.py:118-144. An exception leaves no object behind. The attributes that do not exist before their assignment have
arbitrary values here, except `cat_min_categories`. -/
def EncObj.construct (maxBins subsample catMin : PyVal K) (isCategorical : MaskArg) (handleUnknown : PyVal K) : M (EncObj V K) :=
  match EncObj.assignEach [.maxBins maxBins, .subsample subsample, .catMin catMin, .isCategorical isCategorical, .handleUnknown handleUnknown]
      ⟨0, none, none, none, false, false, 0, 0, 0, []⟩ with
  | (.ok _, o) => .ok o
  | (.error e, _) => .error e

end

section
variable {V K F G W N : Type} [DecidableEq V] [DecidableEq N] [LinearOrder K] [Field K]

/-- `check_X` without the comparison of the numbers of features, _checks.py:341-362 and 373-380: a supported dtype, and the size of the mask. -/
def EncObj.checkX (o : EncObj V K) (X : Dataset N V) : Bool :=
  (match X with
    | .frame _ => true
    | .array kind _ => decide (kind ≠ .other)) &&
  (match o.isCategorical with
    | none => true
    | some m => decide (m.length = X.nFeatures))

/-- The parameters of `fit` for one column. -/
def EncObj.cfg (lib : Lib V K F G W) (o : EncObj V K) (catMin : Nat) : EncCfg K :=
  { maxBins := o.maxBins, catMin := catMin, isCategorical := o.isCategorical, handleUnknownError := o.handleUnknownError, cap := lib.cap }

/-- The random subset, encoder.py:184-188. `choose n k`: `check_random_state(self.random_state).choice(n, k, replace=False)`, or its exception. -/
def EncObj.subset (choose : Nat → Nat → M (List Nat)) (o : EncObj V K) (n : Nat) : M (Option (List Nat)) :=
  match o.subsample with
  | none => .ok none
  | some k => if k < n then (choose n k).map some else .ok none

/-- `fit` on data with `n` rows, encoder.py:146-286, with the setters of `n_samples_in_` and `n_features_in_` (lines 590-607). The attributes
are assigned at the lines where the code does it, so an exception may leave some of them with new values. -/
def EncObj.fit (lib : Lib V K F G W) (choose : Nat → Nat → M (List Nat)) (n : Nat) (X : Dataset N V) : Py (EncObj V K) Unit := fun o =>
  if !o.checkX X then (.error .valueError, o)
  else if n < 1 then (.error .valueError, o)
  else
    let o1 := { o with nSamples := n }
    if X.nFeatures < 1 then (.error .valueError, o1)
    else
      let o2 := { o1 with nFeatures := X.nFeatures }
      match o.subset choose n with
      | .error e => (.error e, o2)
      | .ok subset =>
        match o.catMin with
        | none => (.error .attributeError, o2)
        | some c =>
          let o3 := { o2 with catMin_ := c.value lib n }
          match encoderFit lib.conv (o.cfg lib (c.value lib n)) subset X with
          | .error e => (.error e, o3)
          | .ok cols => (.ok (), { o3 with cols := cols, fitted := true })

/-- Reading `is_categorical_[col_idx]` and the other attributes of a column. -/
def fitColAt (enc : List (FitCol V K)) (j : Nat) : M (FitCol V K) :=
  match enc[j]? with
  | some fc => .ok fc
  | none => .error .indexError

/-- `transform`, encoder.py:288-497. Unlike in `encoderTransform`, the number of columns comes from the attribute `n_features_in_`, so the fitted
columns may be more or fewer. -/
def EncObj.transform (lib : Lib V K F G W) (garbage : Nat → Word) (n : Nat) (X : Dataset N V) (o : EncObj V K) : M FBA :=
  if !o.fitted then .error .valueError
  else if X.nFeatures ≠ o.nFeatures then .error .valueError
  else if !o.checkX X then .error .valueError
  else match X with
  | .frame X => do
    let maxValues ← ((List.range X.length).zip X).mapM fun p => do
      let fc ← fitColAt o.cols p.1
      colMaxValue (o.cfg lib 0) fc (p.2.2.cells.any (·.isNone)) (p.2.2.categories lib.conv)
    let xdict := X.foldl (fun d p => dictSet d p.1 p.2) []
    ((List.range xdict.length).zip xdict).foldlM
      (fun b p => do
        let fc ← fitColAt o.cols p.1
        let mv ← rd maxValues p.1
        let col ← binnedCol lib.conv.toFloat .typeError fc mv p.2.2.cells
        b.fillColumn p.1 col)
      (FBA.init garbage n maxValues)
  | .array kind X => do
    let maxValues ← ((List.range X.length).zip X).mapM fun p => do
      let fc ← fitColAt o.cols p.1
      colMaxValue (o.cfg lib 0) fc (decide (kind = .uif) && p.2.any (·.isNone)) (lib.conv.catsOf p.2)
    (List.range o.nFeatures).foldlM
      (fun b j => do
        let fc ← fitColAt o.cols j
        let mv ← rd maxValues j
        let cells ← rd X j
        let col ←
          if kind = .uif then binnedCol lib.conv.toFloat .valueError fc mv cells
          else binnedCol lib.conv.toFloat32 .valueError fc mv cells
        b.fillColumn j col)
      (FBA.init garbage n maxValues)

/-- `inverse_transform`, encoder.py:502-580; the number of columns comes from the attribute `n_features_in_` again. -/
def EncObj.inverse (b : FBA) (o : EncObj V K) : M (List (List (Decoded V K))) := do
  let (_, cols) ← b.toArray
  if !o.fitted then .error .valueError
  else
    (List.range o.nFeatures).mapM fun j => do
      let c ← rd cols j
      let fc ← fitColAt o.cols j
      inverseCol fc c

/-- `n_features_in_`, encoder.py:597-601. -/
def EncObj.nFeaturesIn (o : EncObj V K) : M Nat := if o.fitted then .ok o.nFeatures else .error .valueError

/-- `n_samples_in_`, encoder.py:582-586. -/
def EncObj.nSamplesIn (o : EncObj V K) : M Nat := if o.fitted then .ok o.nSamples else .error .valueError

end

end Verif
