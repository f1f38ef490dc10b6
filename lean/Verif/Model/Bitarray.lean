import Verif.Model.Basic
import Mathlib.Data.Nat.Log

/-!
# `wildwood/preprocessing/features_bitarray.py`
-/
namespace Verif

/-- A 64-bit word (`uint64`). -/
abbrev Word := BitVec 64

/-- `FeaturesBitArray` (/repo/wildwood/preprocessing/features_bitarray.py:52-138): the jitclass fields.
`n_features` is `maxValues.length`. -/
structure FBA where
  nSamples : Nat
  maxValues : List Nat
  nBits : List Nat
  offsets : List Nat
  nValuesInWords : List Nat
  bitmasks : List Word
  bitarray : List Word
  deriving DecidableEq, Repr

/-- `n_features` (features_bitarray.py:114). -/
def FBA.nFeatures (b : FBA) : Nat := b.maxValues.length

/-- Number of bits, values per word and bit mask of one column, features_bitarray.py:124-133.
Simplification: `ceil(np.log2(max_value + 1))` is computed in float64 by the code and exactly here (they
agree whenever `max_value + 1` is below 2^48, see DESIGN.md). -/
def colLayout (maxValue : Nat) : Nat × Nat × Word :=
  if maxValue ≤ 1 then (1, 64, 1#64)
  else
    let nBits := Nat.clog 2 (maxValue + 1)
    (nBits, 64 / nBits, (1#64 <<< nBits) - 1#64)

/-- `ceil(a / b)` for positive `b`. -/
def ceilDiv (a b : Nat) : Nat := (a + b - 1) / b

/-- The cumulative offsets, features_bitarray.py:120-136 (`offset += n_words; offsets[j+1] = offset`). -/
def mkOffsets (nSamples : Nat) : Nat → List Nat → List Nat
  | offset, [] => [offset]
  | offset, m :: ms =>
    offset :: mkOffsets nSamples (offset + ceilDiv nSamples (colLayout m).2.1) ms

/-- `FeaturesBitArray.__init__`, features_bitarray.py:112-138. `garbage k` is the content of the `k`-th
word returned by `np.empty`. -/
def FBA.init (garbage : Nat → Word) (nSamples : Nat) (maxValues : List Nat) : FBA :=
  let offsets := mkOffsets nSamples 0 maxValues
  { nSamples := nSamples
    maxValues := maxValues
    nBits := maxValues.map fun m => (colLayout m).1
    offsets := offsets
    nValuesInWords := maxValues.map fun m => (colLayout m).2.1
    bitmasks := maxValues.map fun m => (colLayout m).2.2
    bitarray := (List.range (offsets.getLastD 0)).map garbage }

/-- Body of the loop of `_features_bitarray_fill_column` (features_bitarray.py:176-183). The state is
the word array and the last values of the locals `word, pos_in_word` (none before the first iteration). -/
def fillStep (nBits nv : Nat) (st : List Word × Option (Nat × Nat)) (ix : Nat × Nat) :
    M (List Word × Option (Nat × Nat)) := do
  let word := ix.1 / nv
  let pos := ix.1 % nv
  if pos = 0 then
    let a ← wr st.1 word (BitVec.ofNat 64 ix.2)
    return (a, some (word, pos))
  else
    let w ← rd st.1 word
    let a ← wr st.1 word ((w <<< nBits) ||| BitVec.ofNat 64 ix.2)
    return (a, some (word, pos))

/-- `_features_bitarray_fill_column`, features_bitarray.py:157-192. With an empty column the locals
`word`, `pos_in_word` are never assigned: `Err.unbound`. -/
def fillColumnWords (colWords : List Word) (nBits nv : Nat) (col : List Nat) : M (List Word) := do
  let st ← ((List.range col.length).zip col).foldlM (fillStep nBits nv) (colWords, none)
  match st.2 with
  | none => .error .unbound
  | some (word, pos) =>
    let w ← rd st.1 word
    wr st.1 word (w <<< ((nv - pos - 1) * nBits))

/-- `features_bitarray_fill_column`, features_bitarray.py:246-268: the numpy view
`bitarray[offsets[j]:offsets[j+1]]` is modelled by taking the slice out and writing it back. -/
def FBA.fillColumn (b : FBA) (j : Nat) (col : List Nat) : M FBA := do
  let s ← rd b.offsets j
  let e ← rd b.offsets (j + 1)
  let nv ← rd b.nValuesInWords j
  let nb ← rd b.nBits j
  let words ← fillColumnWords (slice b.bitarray s e) nb nv col
  let a ← wrSlice b.bitarray s e words
  return { b with bitarray := a }

/-- `_features_bitarray_fill_values`, features_bitarray.py:218-243. `cols` are the columns `X[:, j]`. -/
def FBA.fillValues (b : FBA) (cols : List (List Nat)) : M FBA :=
  (List.range b.nFeatures).foldlM
    (fun b j => do
      let col ← rd cols j
      b.fillColumn j col) b

/-- Column maxima, `X.max(axis=0, initial=0)`, features_bitarray.py:288. -/
def colMax (col : List Nat) : Nat := col.foldl max 0

/-- `array_to_bitarray`, features_bitarray.py:271-307, for a two-dimensional array of unsigned integers
given by its columns (the dtype/ndim checks of lines 289-301 are the typing of the model). -/
def arrayToBitarray (garbage : Nat → Word) (nSamples : Nat) (cols : List (List Nat)) : M FBA :=
  (FBA.init garbage nSamples (cols.map colMax)).fillValues cols

/-- `get_value_from_column`, features_bitarray.py:353-378. -/
def getValueFromColumn (i : Nat) (colWords : List Word) (mask : Word) (nv nBits : Nat) : M Nat := do
  let word := i / nv
  let pos := i % nv
  let b ← rd colWords word
  let nShifts := (nv - pos - 1) * nBits
  return ((b &&& (mask <<< nShifts)) >>> nShifts).toNat

/-- `get_value`, features_bitarray.py:444-451. -/
def FBA.getValue (b : FBA) (i j : Nat) : M Nat := do
  let nv ← rd b.nValuesInWords j
  let s ← rd b.offsets j
  let e ← rd b.offsets (j + 1)
  let nb ← rd b.nBits j
  let mask ← rd b.bitmasks j
  getValueFromColumn i (slice b.bitarray s e) mask nv nb

/-- Width in bits of the dtype chosen by `_get_empty_matrix`, features_bitarray.py:332-342. -/
def emptyMatrixWidth (maxValue : Nat) : M Nat :=
  if maxValue ≤ 2 ^ 8 - 1 then .ok 8
  else if maxValue ≤ 2 ^ 16 - 1 then .ok 16
  else if maxValue ≤ 2 ^ 32 - 1 then .ok 32
  else if maxValue ≤ 2 ^ 64 - 1 then .ok 64
  else .error .valueError

/-- `features_bitarray_to_array` with `_features_bitarray_to_array`, features_bitarray.py:416-433 and 454-461:
returns the integer width of the matrix and its columns. Storing a value in a matrix of width `w` keeps it
modulo `2^w`. `max_values.max()` of an empty array raises ValueError. -/
def FBA.toArray (b : FBA) : M (Nat × List (List Nat)) := do
  if b.maxValues = [] then .error .valueError
  else
    let w ← emptyMatrixWidth (colMax b.maxValues)
    let cols ← (List.range b.nFeatures).mapM fun j =>
      (List.range b.nSamples).mapM fun i => do
        let v ← b.getValue i j
        return v % 2 ^ w
    return (w, cols)

end Verif
