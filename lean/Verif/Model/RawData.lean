import Verif.Model.Datasets

/-! # The argument `raw` of the dataset loaders (/repo/wildwood/datasets) -/
namespace Verif

section
variable {N C : Type} [DecidableEq N]

/-- The frame without the given columns. -/
def DFrame.without (df : DFrame N C) (names : List N) : DFrame N C := df.filter fun p => decide (p.1 ∉ names)

/-- `df.drop(names, axis="columns", inplace=True)`: KeyError, before anything is changed, if one of the columns does not exist. Returns the frame afterwards. -/
def DFrame.drop (df : DFrame N C) (names : List N) : M Unit × DFrame N C :=
  if names.all fun n => (df.lookup n).isSome then (.ok (), df.without names) else (.error .keyError, df)

/-- `get_X_y_from_dataframe(df, label_column, drop_columns)`, dataset.py:42-49 (`drop_columns=None` and the empty list drop nothing). Returns `X` and `y`, and the frame of the caller afterwards, which is `X` itself. -/
def getXy (label : N) (dropped : List N) (df : DFrame N C) : M (DFrame N C × List C) × DFrame N C :=
  match df.drop dropped with
  | (.error e, d) => (.error e, d)
  | (.ok _, d) =>
    match d.labels label with
    | .error e => (.error e, d)
    | .ok y =>
      match d.drop [label] with
      | (.error e, d') => (.error e, d')
      | (.ok _, X) => (.ok (X, y), X)

/-- `Dataset.load_from_csv`, dataset.py:192-205: the frame that is stored in `df_raw`, where `df` is the result of `pd.read_csv`. -/
def loadFromCsv (dropped : List N) (df : DFrame N C) : M (DFrame N C) :=
  match df.drop dropped with
  | (.error e, _) => .error e
  | (.ok _, d) => .ok d

/-- `X.astype({n: "category"})`; KeyError for a column that does not exist. (The cells are the same.) -/
def DFrame.astypeCategory (df : DFrame N C) (n : N) : M (DFrame N C) :=
  if (df.lookup n).isSome then .ok (df.map fun p => if p.1 = n then (p.1, { p.2 with category := true }) else p) else .error .keyError

end

/-- Names of columns: strings, or the numbers that pandas gives to the columns of files without header. -/
inductive PName
  | str (s : String)
  | int (i : Nat)
deriving DecidableEq

/-- What a loader passes on: `label_column` and `drop_columns` of the raw branch and of the other branch, and the columns that the raw branch makes categorical afterwards. File, `dtype` and the other arguments of
`read_csv` are the same in both branches. -/
structure RawLoader where
  rawLabel : PName
  rawDrop : List PName
  rawCategory : List PName
  label : PName
  drop : List PName

/-- A loader with the same arguments in both branches. -/
def RawLoader.same (label : PName) (drop : List PName) : RawLoader := ⟨label, drop, [], label, drop⟩

/-- The loaders with an argument `raw`: loaders.py (the lines of the label and of the two branches) and _*.py. `load_epsilon` (_epsilon.py), which makes arrays, and `load_epsilon_catboost`, which ignores `raw`, are
left out. -/
def rawLoaders : List (String × RawLoader) := [
  ("breastcancer", ⟨.str "target", [], [], .str "target", []⟩), -- loaders.py:22-36
  ("boston", ⟨.str "medv", [], [.str "chas"], .str "medv", []⟩), -- loaders.py:41-76
  ("californiahousing", .same (.str "MedHouseVal") []), -- loaders.py:125-140
  ("letor", .same (.str "0") []), -- loaders.py:145-155
  ("cardio", .same (.str "CLASS") [.str "FileName", .str "Date", .str "SegFile", .str "NSP"]), -- loaders.py:196-217
  ("churn", .same (.str "Churn?") [.str "Phone"]), -- loaders.py:469-485
  ("covtype", .same (.str "Cover_Type") []), -- loaders.py:511-525
  ("diabetes", ⟨.str "target", [], [], .str "target", []⟩), -- loaders.py:533-547
  ("kddcup99", .same (.str "labels") []), -- loaders.py:600-613
  ("letter", .same (.str "y") [.str "Unnamed: 0"]), -- loaders.py:635-651
  ("satimage", .same (.str "y") [.str "Unnamed: 0"]), -- loaders.py:693-708
  ("sensorless", .same (.int 48) []), -- loaders.py:763-775
  ("spambase", ⟨.int 57, [], [], .int 57, []⟩), -- loaders.py:838-848
  ("adult", .same (.str ">50K?") []), -- _adult.py:106-120
  ("amazon", .same (.str "target") []), -- _amazon.py:61-75
  ("bank", .same (.str "y") []), -- _bank.py:65-86
  ("car", .same (.str "Evaluation") []), -- _car.py:61-74
  ("default-cb", .same (.str "default payment next month") [.str "ID"]), -- _default_cb.py:77-96
  ("higgs", ⟨.int 0, [], [], .int 0, []⟩), -- _higgs.py:63-76
  ("internet", .same (.str "Actual_Time") [.str "who"]), -- _internet.py:52-69
  ("kick", .same (.str "IsBadBuy") []) -- _kick.py:88-104
]

section
variable {C : Type}

/-- `load_*(raw=True)`, where `df` is the frame that is read. -/
def RawLoader.raw (l : RawLoader) (df : DFrame PName C) : M (DFrame PName C × List C) := do
  let r ← (getXy l.rawLabel l.rawDrop df).1
  let X ← l.rawCategory.foldlM (fun d n => d.astypeCategory n) r.1
  return (X, r.2)

/-- `load_*()`: the attributes `label_column` and `df_raw` of the `Dataset`. -/
def RawLoader.dataset (l : RawLoader) (df : DFrame PName C) : M (PName × DFrame PName C) := do
  let d ← loadFromCsv l.drop df
  return (l.label, d)

end

end Verif
