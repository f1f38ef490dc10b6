import Verif.Model.Encoder
import Verif.Spec.Binning

/-! Specification of the encoder: what a fitted column should do to a cell. -/
namespace Verif.Spec

variable {V K N : Type}

/-- The bin `b` is right for the cell `c` of a column fitted as `fc`. `num` converts cells to numbers.
* categorical: a known category has its own index, missing and unknown cells have the extra bin;
* numerical: the documented interval rule, missing cells have the extra bin. -/
def EncodesTo [LinearOrder K] (num : V → Option K) : FitCol V K → Option V → Nat → Prop
  | .cat cs, none, b => b = cs.length
  | .cat cs, some v, b => (v ∈ cs ∧ cs[b]? = some v) ∨ (v ∉ cs ∧ b = cs.length)
  | .num thr, none, b => b = thr.length + 1
  | .num thr, some v, b => ∃ x, num v = some x ∧ IsBin thr x b

/-- A cell that is neither missing nor an unknown category. -/
def KnownCell (fc : FitCol V K) (v : V) : Prop :=
  match fc with
  | .cat cs => v ∈ cs
  | .num _ => True

/-- The cell at row `i` of column `j`. -/
def cell (D : Dataset N V) (i j : Nat) : Option (Option V) :=
  match D with
  | .frame X => (X[j]?).bind fun p => p.2.cells[i]?
  | .array _ X => (X[j]?).bind fun c => c[i]?

/-- The number of columns. -/
def nCols : Dataset N V → Nat
  | .frame X => X.length
  | .array _ X => X.length

/-- The conversion to numbers used for the dataset: object arrays go through float32. -/
def numOf (cv : Conv V K) : Dataset N V → V → Option K
  | .frame _ => cv.toFloat
  | .array kind _ => if kind = .uif then cv.toFloat else cv.toFloat32

/-- A dataframe column that pandas can build: `n` rows; the categories of a category dtype are distinct
and contain the values of the column. -/
def GoodSeries (n : Nat) (s : Series V) : Prop :=
  s.cells.length = n ∧ (s.kind = .category → s.dtypeCats.Nodup ∧ ∀ v, some v ∈ s.cells → v ∈ s.dtypeCats)

/-- Well-formed inputs with `n` rows on which encoding is expected to be right:
a dataframe with distinct column names, or an array whose missing cells (if any) are in a numerical dtype. -/
def GoodInput (n : Nat) : Dataset N V → Prop
  | .frame X => (X.map Prod.fst).Nodup ∧ ∀ p ∈ X, GoodSeries n p.2
  | .array kind X => (∀ c ∈ X, c.length = n) ∧ (kind = .uif ∨ ∀ c ∈ X, none ∉ c)

/-- Every value in a numerical column is a number, and unknown categories occur only when they are allowed. -/
def Acceptable [DecidableEq V] [LinearOrder K] [Field K] (cv : Conv V K) (cfg : EncCfg K)
    (enc : List (FitCol V K)) (D : Dataset N V) : Prop :=
  nCols D = enc.length ∧
  (∀ i j v thr, enc[j]? = some (.num thr) → cell D i j = some (some v) → (numOf cv D v).isSome) ∧
  match D with
  | .frame X => cfg.handleUnknownError = true →
      ∀ (j : Nat) p cs, X[j]? = some p → enc[j]? = some (.cat cs) → ∀ v ∈ p.2.categories cv, v ∈ cs
  | .array kind X => kind ≠ .other ∧ (cfg.handleUnknownError = true →
      ∀ (j : Nat) c cs, X[j]? = some c → enc[j]? = some (.cat cs) → ∀ v, some v ∈ c → v ∈ cs)

/-- An encoder state that `fit` can produce on well-formed data. -/
def FittedOn [DecidableEq V] [LinearOrder K] [Field K] (cv : Conv V K) (cfg : EncCfg K)
    (D : Dataset N V) (enc : List (FitCol V K)) : Prop :=
  ∃ subset, encoderFit cv cfg subset D = .ok enc ∧
    match D with
    | .frame X => ∃ n, ∀ p ∈ X, GoodSeries n p.2
    | .array kind _ => kind ≠ .category

/-- What `inverse_transform` should show for a cell. -/
def DecodesTo [LinearOrder K] (num : V → Option K) : FitCol V K → Option V → Decoded V K → Prop
  | _, none, d => d = .missing
  | .cat cs, some v, d => (v ∈ cs ∧ d = .category v) ∨ (v ∉ cs ∧ d = .missing)
  | .num _, some v, d => ∃ x lo hi, num v = some x ∧ d = .interval lo hi ∧
      (∀ a, lo = some a → a < x) ∧ (∀ b, hi = some b → x ≤ b)

end Verif.Spec
