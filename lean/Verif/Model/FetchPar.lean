import Verif.Model.Fetch

/-! # Processes that load datasets at the same time (/repo/wildwood/datasets)

The loaders of Model/Fetch once more, as sequences of single accesses to the disk. -/
namespace Verif.Fetch

variable {B α β T : Type}

/-- A process: it has ended, or its next access to the disk is to read a file (`none`: there is no such file), to set the contents of a file, or to remove a file. -/
inductive Prog (B α : Type)
  | done (r : Except Stop α)
  | read (p : Path) (k : Option (List B) → Prog B α)
  | write (p : Path) (v : List B) (k : Prog B α)
  | remove (p : Path) (k : Prog B α)

namespace Prog

def bind : Prog B α → (α → Prog B β) → Prog B β
  | .done (.ok a), f => f a
  | .done (.error s), _ => .done (.error s)
  | .read p k, f => .read p fun o => (k o).bind f
  | .write p v k, f => .write p v (k.bind f)
  | .remove p k, f => .remove p (k.bind f)

instance : Monad (Prog B) where
  pure a := .done (.ok a)
  bind := bind

def ofOption : Option α → Prog B α
  | some a => .done (.ok a)
  | none => .done (.error .format)

def fileExists (p : Path) : Prog B Bool := .read p fun o => .done (.ok o.isSome)

def readFile (p : Path) : Prog B (List B) := .read p fun o => .done (match o with | some b => .ok b | none => .error .notFound)

/-- Writing `rest` to a file that contains `pre`, one byte after the other. (When another process truncates or removes the file in the meantime, the real file would have a gap
or no name; here it is complete again after the next byte.) -/
def writeFrom (p : Path) (pre : List B) : List B → Prog B Unit
  | [] => .write p pre (.done (.ok ()))
  | b :: rest => .write p pre (writeFrom p (pre ++ [b]) rest)

def writeFile (p : Path) (c : List B) : Prog B Unit := writeFrom p [] c

def removeFile (p : Path) : Prog B Unit := .remove p (.done (.ok ()))

end Prog

/-- `_fetch_remote` of scikit-learn 1.3.2: the checksum is that of the file, which is read again. -/
def fetchRemoteP (sha : List B → String) (net : Net B) (a : Archive) (p : Path) : Prog B Unit := do
  Prog.writeFile p (net a.url).1
  if (net a.url).2 then
    let b ← Prog.readFile p
    if sha b = a.checksum then pure () else .done (.error .checksum)
  else .done (.error .network)

def fetchAllP (sha : List B → String) (net : Net B) (path : Path → Path) : List Archive → Prog B Unit
  | [] => pure ()
  | a :: l => do
    fetchRemoteP sha net a (path a.filename)
    fetchAllP sha net path l

def readAllP (path : Path → Path) : List Archive → Prog B (List (List B))
  | [] => pure []
  | a :: l => do
    let b ← Prog.readFile (path a.filename)
    let bs ← readAllP path l
    return b :: bs

def removeAllP (path : Path → Path) : List Archive → Prog B Unit
  | [] => pure ()
  | a :: l => do
    Prog.removeFile (path a.filename)
    removeAllP path l

/-- `_fetch_*(download_if_missing)`, with the citations of `fetch`. -/
def fetchP (sha : List B → String) (e : Env) (L : Loader B T) (net : Net B) (download : Bool) : Prog B Unit := do
  let present ← Prog.fileExists (e.abs (L.path e L.target))
  if download && !present then
    fetchAllP sha net (fun n => e.abs (L.path e n)) L.archives
    match L.convert with
    | none => pure ()
    | some conv =>
      let bs ← readAllP (fun n => e.abs (L.path e n)) L.archives
      let c ← Prog.ofOption (conv bs)
      Prog.writeFile (e.abs (L.path e L.target)) c
      removeAllP (fun n => e.abs (L.path e n)) L.archives
  else pure ()

/-- The rest of `load_*`, with the citations of `readTable`. -/
def readTableP (e : Env) (L : Loader B T) : Prog B T := match L.reader with
  | .csv => do
    let b ← Prog.readFile (e.csvPath (L.path e L.target))
    Prog.ofOption (L.parse [b])
  | .peek => do
    let b0 ← Prog.readFile (e.abs (L.path e L.target))
    let _ ← Prog.ofOption (L.parse [b0])
    let b ← Prog.readFile (e.csvPath (L.path e L.target))
    Prog.ofOption (L.parse [b])
  | .direct => do
    let bs ← readAllP (fun n => e.abs (L.path e n)) L.archives
    Prog.ofOption (L.parse bs)
  | .zip m => do
    let z ← Prog.readFile (e.abs (L.path e L.target))
    let c ← Prog.ofOption (L.unzip z)
    Prog.writeFile (e.abs (L.path e m)) c
    let b ← Prog.readFile (e.csvPath (L.path e m))
    let t ← Prog.ofOption (L.parse [b])
    Prog.removeFile (e.abs (L.path e m))
    return t

/-- A process that calls `load_*(download_if_missing)`, with the citations of `load`. -/
def loadP (sha : List B → String) (e : Env) (L : Loader B T) (net : Net B) (download : Bool) : Prog B T := do
  fetchP sha e L net download
  readTableP e L

/-- The next access to the disk. -/
def Prog.step (f : Files B) : Prog B α → Files B × Prog B α
  | .done r => (f, .done r)
  | .read p k => (f, k (f p))
  | .write p v k => (f.set p (some v), k)
  | .remove p k => match f p with
    | none => (f, .done (.error .notFound))
    | some _ => (f.set p none, k)

/-- Processes on one machine: `schedule` says which process makes the next access to the disk. -/
def interleave : List Nat → Files B × List (Prog B α) → Files B × List (Prog B α)
  | [], s => s
  | i :: schedule, s => match s.2[i]? with
    | none => interleave schedule s
    | some q => interleave schedule ((q.step s.1).1, s.2.set i (q.step s.1).2)

end Verif.Fetch
