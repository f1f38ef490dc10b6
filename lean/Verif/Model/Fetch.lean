import Verif.Model.Basic

/-! # Downloading datasets (/repo/wildwood/datasets) -/
namespace Verif.Fetch

/-- A path, as in a Python string. -/
abbrev Path := List Char

/-- How a call ends without returning: FileNotFoundError, an exception of `urlretrieve`, OSError because of the checksum, an exception of the reader of a file, or the process
is killed. -/
inductive Stop
  | notFound
  | network
  | checksum
  | format
  | killed
  deriving DecidableEq, Repr

/-- The files of the machine, by absolute path. Directories are not modelled: creating them (`get_data_home`, `_mkdirp`) is assumed to succeed. -/
abbrev Files (B : Type) := Path → Option (List B)

def Files.set {B : Type} (f : Files B) (p : Path) (v : Option (List B)) : Files B := fun q => if q = p then v else f q

/-- A computation on the disk. The number says how many steps remain until the process is killed; opening a file for writing, writing one byte, and removing a file are one step each. -/
def Sys (B α : Type) := Files B × Nat → Except Stop α × (Files B × Nat)

namespace Sys
variable {B α β : Type}

instance : Monad (Sys B) where
  pure a := fun d => (.ok a, d)
  bind m f := fun d =>
    match m d with
    | (.ok a, d') => f a d'
    | (.error e, d') => (.error e, d')

def raise (e : Stop) : Sys B α := fun d => (.error e, d)

/-- An exception of a reader. -/
def ofOption (o : Option α) : Sys B α := match o with
  | some a => pure a
  | none => raise .format

/-- `os.path.exists` -/
def fileExists (p : Path) : Sys B Bool := fun d => (.ok (d.1 p).isSome, d)

/-- Reading a whole file. -/
def readFile (p : Path) : Sys B (List B) := fun d => match d.1 p with
  | some b => (.ok b, d)
  | none => (.error .notFound, d)

/-- Writing a file: opening it makes it empty, then the bytes appear one after the other. (Buffers make the file grow in larger pieces; these are some of the moments here.) -/
def writeFile (p : Path) (c : List B) : Sys B Unit := fun d =>
  if d.2 = 0 then (.error .killed, d)
  else if d.2 ≤ c.length then (.error .killed, (d.1.set p (some (c.take (d.2 - 1))), 0))
  else (.ok (), (d.1.set p (some c), d.2 - c.length - 1))

/-- `os.remove` -/
def removeFile (p : Path) : Sys B Unit := fun d =>
  match d.1 p with
  | none => (.error .notFound, d)
  | some _ => if d.2 = 0 then (.error .killed, d) else (.ok (), (d.1.set p none, d.2 - 1))

end Sys

/-! ## Paths -/

/-- `posixpath.join(a, b)` -/
def join (a b : Path) : Path := if b.head? = some '/' then b else if a = [] ∨ a.getLast? = some '/' then a ++ b else a ++ '/' :: b

/-- `posixpath.expanduser`; `homeOf name` is the home directory of a user, the empty name stands for the user who runs the process. -/
def expanduser (homeOf : Path → Option Path) : Path → Path
  | '~' :: rest =>
    match homeOf (rest.takeWhile (· ≠ '/')) with
    | none => '~' :: rest
    | some h =>
      let q := (h.reverse.dropWhile (· = '/')).reverse ++ rest.dropWhile (· ≠ '/')
      if q = [] then ['/'] else q
  | p => p

/-- What the paths depend on: the home directories, the variable WILDWOOD_DATA, the current directory, and the directory of `dataset.py`. -/
structure Env where
  homeOf : Path → Option Path
  wildwoodData : Option Path
  cwd : Path
  modulePath : Path

/-- `get_data_home()`, datasets/_utils.py:11-38. -/
def Env.dataHome (e : Env) : Path := expanduser e.homeOf (e.wildwoodData.getD (join "~".toList "wildwood_data".toList))

/-- The file that the operating system finds under a path. -/
def Env.abs (e : Env) (p : Path) : Path := if p.head? = some '/' then p else join e.cwd p

/-- The file that `load_from_csv` (dataset.py:192-194) and `load_raw_dataset` (dataset.py:82-83) open. -/
def Env.csvPath (e : Env) (p : Path) : Path := e.abs (join (join e.modulePath "data".toList) p)

/-! ## Loaders -/

/-- `RemoteFileMetadata`, datasets/_utils.py:8. -/
structure Archive where
  filename : Path
  url : String
  checksum : String
  deriving DecidableEq, Repr

/-- How `load_*` reads the data after `_fetch_*`. -/
inductive Reader
  /-- `load_from_csv(data_path)` or `load_raw_dataset(data_path)` -/
  | csv
  /-- `pd.read_csv(data_path)` first, then as `csv` (_internet.py:50) -/
  | peek
  /-- the downloaded files themselves (_epsilon.py:55-61) -/
  | direct
  /-- the file `member` is extracted from the archive, then as `csv`, then removed (_bank.py:60-86) -/
  | zip (member : Path)
  deriving DecidableEq, Repr

/-- A loader. `convert`: what `_fetch_*` computes from the archives and writes to the data file, if anything; `unzip`: the member of a zip archive; `parse`: the table that is read.
`none` stands for an exception of pandas, scikit-learn or zipfile. -/
structure Loader (B T : Type) where
  dir : Path
  target : Path
  archives : List Archive
  convert : Option (List (List B) → Option (List B))
  reader : Reader
  unzip : List B → Option (List B)
  parse : List (List B) → Option T

section
variable {B T : Type}

/-- `join(join(get_data_home(), "car"), name)` -/
def Loader.path (L : Loader B T) (e : Env) (name : Path) : Path := join (join e.dataHome L.dir) name

/-- What the server sends during a call: the bytes, and whether the connection was fine until the end. -/
abbrev Net (B : Type) := String → List B × Bool

/-- `_fetch_remote` of scikit-learn 1.3.2 (poetry.lock): `urlretrieve` writes to the file itself, then the checksum is compared. -/
def fetchRemote (sha : List B → String) (net : Net B) (a : Archive) (p : Path) : Sys B Unit := do
  Sys.writeFile p (net a.url).1
  if (net a.url).2 then
    if sha (net a.url).1 = a.checksum then pure () else Sys.raise .checksum
  else Sys.raise .network

def fetchAll (sha : List B → String) (net : Net B) (path : Path → Path) : List Archive → Sys B Unit
  | [] => pure ()
  | a :: l => do
    fetchRemote sha net a (path a.filename)
    fetchAll sha net path l

def readAll (path : Path → Path) : List Archive → Sys B (List (List B))
  | [] => pure []
  | a :: l => do
    let b ← Sys.readFile (path a.filename)
    let bs ← readAll path l
    return b :: bs

def removeAll (path : Path → Path) : List Archive → Sys B Unit
  | [] => pure ()
  | a :: l => do
    Sys.removeFile (path a.filename)
    removeAll path l

/-- `_fetch_*(download_if_missing)`: _adult.py:31-79, _amazon.py:22-38, _bank.py:23-32, _car.py:22-41, _default_cb.py:22-38, _epsilon.py:30-41, _higgs.py:42-50,
_internet.py:23-41, _kick.py:57-77. -/
def fetch (sha : List B → String) (e : Env) (L : Loader B T) (net : Net B) (download : Bool) : Sys B Unit := do
  let present ← Sys.fileExists (e.abs (L.path e L.target))
  if download && !present then
    fetchAll sha net (fun n => e.abs (L.path e n)) L.archives
    match L.convert with
    | none => pure ()
    | some conv =>
      let bs ← readAll (fun n => e.abs (L.path e n)) L.archives
      let c ← Sys.ofOption (conv bs)
      Sys.writeFile (e.abs (L.path e L.target)) c
      removeAll (fun n => e.abs (L.path e n)) L.archives
  else pure ()

/-- The rest of `load_*`: the data file is read. (`pd.read_csv(data_path)` of the reader `peek` is taken to raise an exception exactly when the second reading would.) -/
def readTable (e : Env) (L : Loader B T) : Sys B T := match L.reader with
  | .csv => do
    let b ← Sys.readFile (e.csvPath (L.path e L.target))
    Sys.ofOption (L.parse [b])
  | .peek => do
    let b0 ← Sys.readFile (e.abs (L.path e L.target))
    let _ ← Sys.ofOption (L.parse [b0])
    let b ← Sys.readFile (e.csvPath (L.path e L.target))
    Sys.ofOption (L.parse [b])
  | .direct => do
    let bs ← readAll (fun n => e.abs (L.path e n)) L.archives
    Sys.ofOption (L.parse bs)
  | .zip m => do
    let z ← Sys.readFile (e.abs (L.path e L.target))
    let c ← Sys.ofOption (L.unzip z)
    Sys.writeFile (e.abs (L.path e m)) c
    let b ← Sys.readFile (e.csvPath (L.path e m))
    let t ← Sys.ofOption (L.parse [b])
    Sys.removeFile (e.abs (L.path e m))
    return t

/-- `load_*(download_if_missing)`: _adult.py:82-120, _amazon.py:41-75, _bank.py:35-86, _car.py:44-74, _default_cb.py:41-96, _epsilon.py:44-83, _higgs.py:53-76,
_internet.py:44-69, _kick.py:80-104. -/
def load (sha : List B → String) (e : Env) (L : Loader B T) (net : Net B) (download : Bool) : Sys B T := do
  fetch sha e L net download
  readTable e L

/-! ### The nine loaders that download -/

variable (conv : List (List B) → Option (List B)) (unzip : List B → Option (List B)) (parse : List (List B) → Option T)

/-- _adult.py:14-36, 82-120 -/
def adult : Loader B T where
  dir := "adult".toList
  target := "adult.csv.gz".toList
  archives := [⟨"adult_train".toList, "https://archive.ics.uci.edu/ml/machine-learning-databases/adult/adult.data", "5b00264637dbfec36bdeaab5676b0b309ff9eb788d63554ca0a249491c86603d"⟩,
    ⟨"adult_test".toList, "https://archive.ics.uci.edu/ml/machine-learning-databases/adult/adult.test", "a2a9044bc167a35b2361efbabec64e89d69ce82d9790d2980119aac5fd7e9c05"⟩]
  convert := some conv
  reader := .csv
  unzip := unzip
  parse := parse

/-- _amazon.py:13-38, 41-75 -/
def amazon : Loader B T where
  dir := "amazon".toList
  target := "amazon.csv.gz".toList
  archives := [⟨"amazon.csv".toList, "https://www.openml.org/data/get_csv/1681098/phpmPOD5A", "c5289c0aac5d56c3255b4976297527c64e2fcc3afede820c43b2e62a0a564605"⟩]
  convert := some conv
  reader := .csv
  unzip := unzip
  parse := parse

/-- _bank.py:13-32, 35-86 -/
def bank : Loader B T where
  dir := "bank".toList
  target := "bank.zip".toList
  archives := [⟨"bank.zip".toList, "https://archive.ics.uci.edu/ml/machine-learning-databases/00222/bank.zip", "99d7e8eb12401ed278b793984423915411ea8df099e1795f9fefe254f513fe5e"⟩]
  convert := none
  reader := .zip "bank-full.csv".toList
  unzip := unzip
  parse := parse

/-- _car.py:13-41, 44-74 -/
def car : Loader B T where
  dir := "car".toList
  target := "car.csv.gz".toList
  archives := [⟨"car.data".toList, "https://archive.ics.uci.edu/ml/machine-learning-databases/car/car.data", "b703a9ac69f11e64ce8c223c0a40de4d2e9d769f7fb20be5f8f2e8a619893d83"⟩]
  convert := some conv
  reader := .csv
  unzip := unzip
  parse := parse

/-- _default_cb.py:13-38, 41-96 -/
def defaultCb : Loader B T where
  dir := "default_cb".toList
  target := "default_cb.csv.gz".toList
  archives := [⟨"default_cb.xls".toList, "https://archive.ics.uci.edu/ml/machine-learning-databases/00350/default%20of%20credit%20card%20clients.xls",
    "30c6be3abd8dcfd3e6096c828bad8c2f011238620f5369220bd60cfc82700933"⟩]
  convert := some conv
  reader := .csv
  unzip := unzip
  parse := parse

/-- _epsilon.py:13-41, 44-83 -/
def epsilon : Loader B T where
  dir := "epsilon".toList
  target := "epsilon_normalized.bz2".toList
  archives := [⟨"epsilon_normalized.bz2".toList, "https://www.csie.ntu.edu.tw/~cjlin/libsvmtools/datasets/binary/epsilon_normalized.bz2",
      "aff916d4f97f18d286558ca088d2a9f7e1fcee9376539a5aa6ef5b7ef9dfa978"⟩,
    ⟨"epsilon_normalized.t.bz2".toList, "https://www.csie.ntu.edu.tw/~cjlin/libsvmtools/datasets/binary/epsilon_normalized.t.bz2",
      "cb299295ad11e200696eaa3050f5d8cf700eaa9c65e6aa859bda959f8669458b"⟩]
  convert := none
  reader := .direct
  unzip := unzip
  parse := parse

/-- _higgs.py:32-50, 53-76 -/
def higgs : Loader B T where
  dir := "higgs".toList
  target := "HIGGS.csv.gz".toList
  archives := [⟨"HIGGS.csv.gz".toList, "https://archive.ics.uci.edu/ml/machine-learning-databases/00280/HIGGS.csv.gz",
    "ea302c18164d4e3d916a1e2e83a9a8d07069fa6ebc7771e4c0540d54e593b698"⟩]
  convert := none
  reader := .csv
  unzip := unzip
  parse := parse

/-- _internet.py:13-41, 44-69 -/
def internet : Loader B T where
  dir := "internet".toList
  target := "internet.csv.gz".toList
  archives := [⟨"internet_usage.csv".toList, "https://www.openml.org/data/get_csv/52407/internet_usage.arff", "6c0fd6f6ce5fe1b6edf7c7872d91230cd9d99b7dd01795e478bdc5a47f7581d8"⟩]
  convert := some conv
  reader := .peek
  unzip := unzip
  parse := parse

/-- _kick.py:13-17, 57-77, 80-104 -/
def kick : Loader B T where
  dir := "kick".toList
  target := "kick.csv.gz".toList
  archives := [⟨"kick.csv".toList, "https://www.openml.org/data/get_csv/19335679/kick.arff", "32ca4d28e69c6bd56c201025d3aed651f393c1364264a29b512be109006dc7fb"⟩]
  convert := some conv
  reader := .csv
  unzip := unzip
  parse := parse

end

end Verif.Fetch
