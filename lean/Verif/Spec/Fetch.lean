import Verif.Model.Fetch

/-! Specification of downloading datasets. -/
namespace Verif.Spec

open Fetch

section
variable {B T : Type}

/-- The six loaders that convert what they download. -/
def ConvertingLoader (conv : List (List B) → Option (List B)) (unzip : List B → Option (List B)) (parse : List (List B) → Option T) (L : Loader B T) : Prop :=
  L ∈ [adult conv unzip parse, amazon conv unzip parse, car conv unzip parse, defaultCb conv unzip parse, internet conv unzip parse, kick conv unzip parse]

/-- The three loaders that use what they download as it is. -/
def DirectLoader (unzip : List B → Option (List B)) (parse : List (List B) → Option T) (L : Loader B T) : Prop :=
  L ∈ [bank unzip parse, epsilon unzip parse, higgs unzip parse]

/-- The table in the published files `pub url`. -/
def publishedTable (pub : String → List B) (L : Loader B T) : Option T :=
  match L.convert, L.reader with
  | some conv, _ => (conv (L.archives.map fun a => pub a.url)).bind fun c => L.parse [c]
  | none, .zip _ => ((L.archives.map fun a => pub a.url).head?.bind L.unzip).bind fun c => L.parse [c]
  | none, _ => L.parse (L.archives.map fun a => pub a.url)

/-- No other file than the published one has the checksum that is written in the code. -/
def OnlyPublished (sha : List B → String) (pub : String → List B) (L : Loader B T) : Prop :=
  ∀ a ∈ L.archives, ∀ b, sha b = a.checksum ↔ b = pub a.url

/-- The server sends the published files. -/
def Works (pub : String → List B) (L : Loader B T) (net : Net B) : Prop := ∀ a ∈ L.archives, net a.url = (pub a.url, true)

/-- A call of the loader: what the server sends, `download_if_missing`, and after how many steps the process is killed. -/
structure LoadCall (B : Type) where
  net : Net B
  download : Bool
  steps : Nat

/-- What a call returns or raises, and the files after it. -/
def LoadCall.run (sha : List B → String) (e : Env) (L : Loader B T) (c : LoadCall B) (f : Files B) : Except Stop T × Files B :=
  let r := load sha e L c.net c.download (f, c.steps)
  (r.1, r.2.1)

/-- The files after a sequence of calls. -/
def afterCalls (sha : List B → String) (e : Env) (L : Loader B T) : List (LoadCall B) → Files B → Files B
  | [], f => f
  | c :: l, f => afterCalls sha e L l (c.run sha e L f).2

/-- What a sequence of calls returns or raises. -/
def outcomes (sha : List B → String) (e : Env) (L : Loader B T) : List (LoadCall B) → Files B → List (Except Stop T)
  | [], _ => []
  | c :: l, f => (c.run sha e L f).1 :: outcomes sha e L l (c.run sha e L f).2

/-- No call was killed in the middle of writing the data file: after every call that was killed, this file is as it was before the call, or complete. -/
def NeverCutOff (sha : List B → String) (e : Env) (L : Loader B T) (pub : String → List B) (conv : List (List B) → Option (List B)) : List (LoadCall B) → Files B → Prop
  | [], _ => True
  | c :: l, f => ((c.run sha e L f).1 = .error .killed → (c.run sha e L f).2 (e.abs (L.path e L.target)) = f (e.abs (L.path e L.target)) ∨
      ∃ b, conv (L.archives.map fun a => pub a.url) = some b ∧ (c.run sha e L f).2 (e.abs (L.path e L.target)) = some b) ∧
    NeverCutOff sha e L pub conv l (c.run sha e L f).2

/-- The data directory is given by an absolute path. -/
def AbsoluteHome (e : Env) : Prop := e.dataHome.head? = some '/'

end

end Verif.Spec
