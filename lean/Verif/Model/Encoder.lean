import Verif.Model.Bitarray
import Verif.Model.Binning
import Verif.Model.Checks

/-! # The feature encoder (/repo/wildwood/preprocessing/encoder.py)

Cells have values in a type `V` with decidable equality, `none` is a missing cell (NaN, None). Numbers are in `K`. -/
namespace Verif

/-- External conversions used by the encoder. `catsOf` are the categories computed by
`col.astype("category")` / `pd.Series(col, dtype="category")` (encoder.py:235, 263, 344, 401): the distinct
non-missing values of the column, in some order. `toFloat` is the conversion of a cell to a
float64 when the column is numerical, `toFloat32` the conversion of an object cell by
`col.astype(np.float32)` (encoder.py:487); `none` if the cell cannot be converted. -/
structure Conv (V K : Type) where
  catsOf : List (Option V) → List V
  toFloat : V → Option K
  toFloat32 : V → Option K
  catsOf_nodup : ∀ c, (catsOf c).Nodup
  mem_catsOf : ∀ c v, v ∈ catsOf c ↔ some v ∈ c

/-- A dataframe column: dtype, cells, and the categories of the dtype when it is a category dtype. -/
structure Series (V : Type) where
  kind : Kind
  cells : List (Option V)
  dtypeCats : List V := []

/-- The parameters of the encoder (encoder.py:118-144). `catMin` is `cat_min_categories_`
(encoder.py:190-195), already computed from the number of samples; `cap` is 1e300. -/
structure EncCfg (K : Type) where
  maxBins : Nat
  catMin : Nat
  isCategorical : Option (List Bool)
  handleUnknownError : Bool
  cap : K

/-- What `fit` stores for a column: `categories_[col_idx]` or `binning_thresholds_[col_idx]`
(encoder.py:281-284; `is_categorical_` is the constructor). -/
inductive FitCol (V K : Type)
  | cat (categories : List V)
  | num (thresholds : List K)

/-- `n_bins_no_missing_values_`, encoder.py:229, 238, 251, 266, 279. -/
def FitCol.nBins {V K : Type} : FitCol V K → Nat
  | .cat cs => cs.length
  | .num thr => thr.length + 1

section
variable {V K : Type} [DecidableEq V] [LinearOrder K] [Field K]

/-- `col.cat.categories` after the conversion to a category dtype (encoder.py:225, 236, 343-346). -/
def Series.categories (cv : Conv V K) (s : Series V) : List V :=
  if s.kind = .category then s.dtypeCats else cv.catsOf s.cells

/-- Conversion of the cells of a numerical column; `e` is the exception raised for a cell that is not a number. -/
def toFloats (f : V → Option K) (e : Err) (cells : List (Option V)) : M (List (Option K)) :=
  cells.mapM fun c => match c with
    | none => .ok none
    | some v => match f v with
      | some x => .ok (some x)
      | none => .error e

/-- `col.take(subset)`, encoder.py:242-243 and 268-269. -/
def takeSubset (subset : Option (List Nat)) (cells : List (Option V)) : M (List (Option V)) :=
  match subset with
  | none => .ok cells
  | some idx => idx.mapM (rd cells)

/-- The declaration of column `j` by the user. -/
def declared (cfg : EncCfg K) (j : Nat) : M (Option Bool) :=
  match cfg.isCategorical with
  | none => .ok none
  | some m => do return some (← rd m j)

/-- `fit`, one column of a dataframe, encoder.py:204-251. `col.nunique()` counts distinct non-missing values. -/
def fitSeries (cv : Conv V K) (cfg : EncCfg K) (subset : Option (List Nat)) (j : Nat) (s : Series V) :
    M (FitCol V K) := do
  let d ← declared cfg j
  let t ← isSeriesCategorical s.kind d ((s.cells.filterMap id).dedup.length) cfg.catMin
  match t with
  | .isCategory => return .cat s.dtypeCats
  | .toCategory => return .cat (cv.catsOf s.cells)
  | .numerical =>
    let cells ← takeSubset subset s.cells
    let xs ← toFloats cv.toFloat .typeError cells
    let thr ← findBinningThresholds cfg.cap xs cfg.maxBins
    return .num thr

/-- `fit` on a dataframe (the column names play no role), encoder.py:146-286. `subset` is the random subset of
encoder.py:184-188. The size check of `is_categorical` is `check_X` (_checks.py:370-377). -/
def fitDataFrame (cv : Conv V K) (cfg : EncCfg K) (subset : Option (List Nat)) (X : List (Series V)) :
    M (List (FitCol V K)) := do
  match cfg.isCategorical with
  | some m => if m.length ≠ X.length then .error .valueError else pure ()
  | none => pure ()
  ((List.range X.length).zip X).mapM fun p => fitSeries cv cfg subset p.1 p.2

/-- `fit`, one column of a numpy array of dtype `kind`, encoder.py:254-279. `np.unique(col).size` also counts
a missing value. -/
def fitArrayCol (cv : Conv V K) (cfg : EncCfg K) (subset : Option (List Nat)) (kind : Kind) (j : Nat)
    (cells : List (Option V)) : M (FitCol V K) := do
  let d ← declared cfg j
  let castable := cells.all fun c => match c with
    | none => true
    | some v => (cv.toFloat32 v).isSome
  let isCat ← arrayColCategorical kind d cells.dedup.length cfg.catMin castable
  if isCat then return .cat (cv.catsOf cells)
  else
    let cells ← takeSubset subset cells
    let xs ← toFloats cv.toFloat .valueError cells
    let thr ← findBinningThresholds cfg.cap xs cfg.maxBins
    return .num thr

/-- `fit` on a numpy array given by its columns, encoder.py:146-286. `kind` is never `category`. -/
def fitArray (cv : Conv V K) (cfg : EncCfg K) (subset : Option (List Nat)) (kind : Kind)
    (X : List (List (Option V))) : M (List (FitCol V K)) := do
  match cfg.isCategorical with
  | some m => if m.length ≠ X.length then .error .valueError else pure ()
  | none => pure ()
  ((List.range X.length).zip X).mapM fun p => fitArrayCol cv cfg subset kind p.1 p.2

/-- First loop of `transform` for one column: the entry of `max_values`, encoder.py:335-374 and 394-429.
`cats` are the categories of the column converted to a category dtype. -/
def colMaxValue (cfg : EncCfg K) (fc : FitCol V K) (hasMissing : Bool) (cats : List V) : M Nat := do
  match fc with
  | .cat fitCats =>
    let unknown := cats.any fun v => decide (v ∉ fitCats)
    if unknown && cfg.handleUnknownError then .error .valueError
    else
      usub (if hasMissing || unknown then fitCats.length + 1 else fitCats.length) 1
  | .num thr =>
    usub (if hasMissing then thr.length + 1 + 1 else thr.length + 1) 1

/-- `col.cat.set_categories(cats).cat.codes` with the missing code replaced by `cats.size`,
encoder.py:440-455 and 473-484. -/
def catCodes (cats : List V) (cells : List (Option V)) : List Nat :=
  cells.map fun c => match c with
    | none => cats.length
    | some v => if v ∈ cats then cats.idxOf v else cats.length

/-- Second loop of `transform` for one column: `binned_col`, encoder.py:439-464 and 472-492. -/
def binnedCol (f : V → Option K) (e : Err) (fc : FitCol V K) (maxValue : Nat) (cells : List (Option V)) :
    M (List Nat) := do
  match fc with
  | .cat cats => return catCodes cats cells
  | .num thr =>
    let xs ← toFloats f e cells
    binContinuousColumn xs thr maxValue

/-- Python dictionary assignment `d[k] = v` on the list of items in insertion order. -/
def dictSet {N β : Type} [DecidableEq N] (d : List (N × β)) (k : N) (v : β) : List (N × β) :=
  if d.any (fun p => decide (p.1 = k)) then d.map fun p => if p.1 = k then (k, v) else p
  else d ++ [(k, v)]

/-- `transform` on a dataframe with named columns, encoder.py:308-377, 434-467, 497. The second loop iterates over
`X_dict.items()`, a dictionary keyed by column name. -/
def transformDataFrame {N : Type} [DecidableEq N] (cv : Conv V K) (cfg : EncCfg K)
    (enc : List (FitCol V K)) (garbage : Nat → Word) (nSamples : Nat) (X : List (N × Series V)) : M FBA := do
  if X.length ≠ enc.length then .error .valueError
  else
    let maxValues ← (enc.zip X).mapM fun p =>
      colMaxValue cfg p.1 (p.2.2.cells.any (·.isNone)) (p.2.2.categories cv)
    let xdict := X.foldl (fun d p => dictSet d p.1 p.2) []
    ((List.range xdict.length).zip xdict).foldlM
      (fun b p => do
        let fc ← rd enc p.1
        let mv ← rd maxValues p.1
        let col ← binnedCol cv.toFloat .typeError fc mv p.2.2.cells
        b.fillColumn p.1 col)
      (FBA.init garbage nSamples maxValues)

/-- `transform` on a numpy array of dtype `kind` given by its columns, encoder.py:308-326, 379-434, 469-497. Missing values
are looked for only when the dtype is numerical (lines 384-389). -/
def transformArray (cv : Conv V K) (cfg : EncCfg K) (enc : List (FitCol V K)) (garbage : Nat → Word)
    (nSamples : Nat) (kind : Kind) (X : List (List (Option V))) : M FBA := do
  if X.length ≠ enc.length then .error .valueError
  else if kind = .other then .error .valueError
  else
    let maxValues ← (enc.zip X).mapM fun p =>
      colMaxValue cfg p.1 (decide (kind = .uif) && p.2.any (·.isNone)) (cv.catsOf p.2)
    (List.range enc.length).foldlM
      (fun b j => do
        let fc ← rd enc j
        let mv ← rd maxValues j
        let cells ← rd X j
        let col ←
          if kind = .uif then binnedCol cv.toFloat .valueError fc mv cells
          else binnedCol cv.toFloat32 .valueError fc mv cells
        b.fillColumn j col)
      (FBA.init garbage nSamples maxValues)

/-- The input `X` of `fit` and `transform`: a dataframe or a two-dimensional array (`check_X`, _checks.py:341-359). -/
inductive Dataset (N V : Type)
  | frame (X : List (N × Series V))
  | array (kind : Kind) (X : List (List (Option V)))

/-- `Encoder.fit`, encoder.py:146-286. -/
def encoderFit {N : Type} (cv : Conv V K) (cfg : EncCfg K) (subset : Option (List Nat)) :
    Dataset N V → M (List (FitCol V K))
  | .frame X => fitDataFrame cv cfg subset (X.map Prod.snd)
  | .array kind X => fitArray cv cfg subset kind X

/-- `Encoder.transform`, encoder.py:288-497. -/
def encoderTransform {N : Type} [DecidableEq N] (cv : Conv V K) (cfg : EncCfg K)
    (enc : List (FitCol V K)) (garbage : Nat → Word) (nSamples : Nat) : Dataset N V → M FBA
  | .frame X => transformDataFrame cv cfg enc garbage nSamples X
  | .array kind X => transformArray cv cfg enc garbage nSamples kind X

/-- A cell of the dataframe returned by `inverse_transform`: missing, a category, or an interval
`(lo, hi]` where `none` is an infinite bound. -/
inductive Decoded (V K : Type)
  | missing
  | category (v : V)
  | interval (lo hi : Option K)

/-- One column of `inverse_transform`, encoder.py:531-578. Indexing beyond the end of the
categories (or intervals) raises IndexError. -/
def inverseCol (fc : FitCol V K) (binned : List Nat) : M (List (Decoded V K)) :=
  let missingBin := fc.nBins
  binned.mapM fun b =>
    let b' := if b = missingBin then 0 else b
    match fc with
    | .cat cats =>
      match cats[b']? with
      | none => .error .indexError
      | some v => .ok (if b = missingBin then .missing else .category v)
    | .num thr =>
      -- np.concatenate(([-inf], thresholds, [inf])): interval b' is (ext[b'], ext[b' + 1]]
      let ext : List (Option K) := none :: (thr.map some ++ [none])
      match ext[b']?, ext[b' + 1]? with
      | some lo, some hi => .ok (if b = missingBin then .missing else .interval lo hi)
      | _, _ => .error .indexError

/-- `inverse_transform`, encoder.py:502-580: the columns of the result. -/
def inverseTransform (enc : List (FitCol V K)) (b : FBA) : M (List (List (Decoded V K))) := do
  let (_, cols) ← b.toArray
  ((List.range enc.length).zip enc).mapM fun p => do
    let c ← rd cols p.1
    inverseCol p.2 c

end

end Verif
