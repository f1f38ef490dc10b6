import Verif.Proofs.Fetch

/-! # C123, C124, C125: downloading datasets -/
namespace Verif

open Spec Fetch

section
variable {B T : Type} {sha : List B → String} {e : Env} {L : Loader B T} {pub : String → List B} {conv : List (List B) → Option (List B)} {unzip : List B → Option (List B)}
  {parse : List (List B) → Option T}

/-! ## C123: a dataset that is loaded is the published one -/

/-- C123 for the loaders that convert what they download: whatever the server sent in earlier calls, at whatever moments these were killed, and whatever it sends now, a table that is
returned is the published one. The hypothesis on `parse` says that a compressed file that was cut off cannot be read. -/
theorem C123_converting (hL : ConvertingLoader conv unzip parse L) (hsha : OnlyPublished sha pub L) (he : AbsoluteHome e)
    (htrunc : ∀ c, conv (L.archives.map fun a => pub a.url) = some c → ∀ k < c.length, parse [c.take k] = none)
    (f : Files B) (hf : f (e.abs (L.path e L.target)) = none) (history : List (LoadCall B)) (c : LoadCall B) (t : T)
    (h : (c.run sha e L (afterCalls sha e L history f)).1 = .ok t) : publishedTable pub L = some t := by
  obtain ⟨hok, rfl, -⟩ := ConvertingLoader.ok hL
  have hD : ∀ c, conv (L.archives.map fun a => pub a.url) = some c → ∃ c', conv (L.archives.map fun a => pub a.url) = some c' ∧ ∃ k, c = c'.take k :=
    fun c hc => ⟨c, hc, c.length, by simp⟩
  have hinv : TargetIs e L (fun b => ∃ c', conv (L.archives.map fun a => pub a.url) = some c' ∧ ∃ k, b = c'.take k) (afterCalls sha e L history f) := by
    have h0 : TargetIs e L (fun b => ∃ c', conv (L.archives.map fun a => pub a.url) = some c' ∧ ∃ k, b = c'.take k) f := fun b hb => by rw [hf] at hb; cases hb
    clear h hf
    induction history generalizing f with
    | nil => exact h0
    | cons c l ih =>
      refine ih _ ?_
      rcases (run_conv he hok hsha hD c h0).2 with h | ⟨-, c', k, hc', hk⟩
      · exact h
      · intro b hb
        rw [hk] at hb
        cases hb
        exact ⟨c', hc', k, rfl⟩
  obtain ⟨b, ⟨c', hc', k, rfl⟩, hp⟩ := (run_conv he hok hsha hD c hinv).1 t h
  unfold publishedTable
  rw [hok.convert]
  dsimp only
  rw [hc']
  by_cases hk : k < c'.length
  · rw [htrunc c' hc' k hk] at hp
    cases hp
  · rw [List.take_of_length_le (by omega)] at hp
    exact hp

/-- C123 for the loaders that use the downloaded files as they are, in part: it is assumed that no earlier call was killed or raised an exception during a download. -/
theorem C123_direct_partial (hL : DirectLoader unzip parse L) (hsha : OnlyPublished sha pub L) (he : AbsoluteHome e) (f : Files B) (hf : f (e.abs (L.path e L.target)) = none)
    (history : List (LoadCall B)) (hh : ∀ o ∈ outcomes sha e L history f, o ≠ .error .killed ∧ o ≠ .error .network ∧ o ≠ .error .checksum) (c : LoadCall B) (t : T)
    (h : (c.run sha e L (afterCalls sha e L history f)).1 = .ok t) : publishedTable pub L = some t := by
  have hok := DirectLoader.ok hL
  refine (run_dir he hok hsha c ?_).1 t h
  replace hf : f (e.abs (L.path e L.target)) = none ∨ AllPub e L pub f := Or.inl hf
  clear h
  induction history generalizing f with
  | nil => exact hf
  | cons c l ih =>
    have := hh _ (List.mem_cons_self ..)
    refine ih _ (fun o ho => hh o (List.mem_cons_of_mem _ ho)) ?_
    refine (run_dir he hok hsha c hf).2.resolve_left ?_
    rintro ⟨s, hs, hd⟩
    rw [hs] at this
    rcases hd with rfl | rfl | rfl
    · exact this.1 rfl
    · exact this.2.1 rfl
    · exact this.2.2 rfl

/-- C123 fails for `load_higgs`: when the server sends another file that can be read as a table, or only the beginning of one, the first call raises an exception, and every later call
returns this table. -/
theorem C123_direct_violated (he : AbsoluteHome e) (hsha : OnlyPublished sha pub (higgs unzip parse)) (net : Net B) (b : List B) (ok : Bool)
    (hnet : ∀ a ∈ (higgs unzip parse).archives, net a.url = (b, ok) ∧ b ≠ pub a.url) (t : T) (ht : parse [b] = some t) (steps : Nat) (hs : b.length < steps) :
    let first := (LoadCall.mk net true steps).run sha e (higgs unzip parse) fun _ => none
    (first.1 = .error .network ∨ first.1 = .error .checksum) ∧ ∀ second : LoadCall B, (second.run sha e (higgs unzip parse) first.2).1 = .ok t := by
  have hb := hnet _ (List.mem_singleton.2 rfl)
  have hne := fun h => hb.2 ((hsha _ (List.mem_singleton.2 rfl) b).1 h)
  have hw : Sys.writeFile (e.abs ((higgs unzip parse).path e (higgs unzip parse).target)) b ((fun _ => none, steps) : Files B × Nat) =
      (.ok (), (Files.set (fun _ => none) (e.abs ((higgs unzip parse).path e (higgs unzip parse).target)) (some b), steps - b.length - 1)) := by
    unfold Sys.writeFile
    dsimp only
    rw [if_neg (by omega), if_neg (by omega)]
  have h1 : ∃ s, (s = Stop.network ∨ s = Stop.checksum) ∧ load sha e (higgs unzip parse) net true (fun _ => none, steps) =
      (.error s, (Files.set (fun _ => none) (e.abs ((higgs unzip parse).path e (higgs unzip parse).target)) (some b), steps - b.length - 1)) := by
    refine ⟨if ok then .checksum else .network, by cases ok <;> simp, ?_⟩
    unfold load
    refine bind_of_error ?_
    unfold fetch
    rw [bind_of_ok (m := Sys.fileExists _) (a := false) (d' := (fun _ => none, steps)) (by simp [Sys.fileExists])]
    refine bind_of_error ?_
    refine bind_of_error (m := fetchRemote sha net _ _) ?_
    unfold fetchRemote
    rw [hb.1]
    refine (bind_of_ok hw).trans ?_
    cases ok with
    | false => rfl
    | true => rw [if_pos rfl, if_neg hne]; rfl
  obtain ⟨s, hs', h1⟩ := h1
  refine ⟨?_, fun second => ?_⟩
  · unfold LoadCall.run
    dsimp only
    rw [h1]
    exact hs'.imp (fun h => by rw [h]) fun h => by rw [h]
  · have hfile : ((LoadCall.mk net true steps).run sha e (higgs unzip parse) fun _ => none).2 (e.abs ((higgs unzip parse).path e (higgs unzip parse).target)) = some b := by
      unfold LoadCall.run
      dsimp only
      rw [h1]
      exact set_same (B := B) (fun _ => none) _ (some b)
    generalize ((LoadCall.mk net true steps).run sha e (higgs unzip parse) fun _ => none).2 = f at hfile ⊢
    have h2 : fetch sha e (higgs unzip parse) second.net second.download (f, second.steps) = (.ok (), (f, second.steps)) := by
      unfold fetch
      rw [bind_of_ok (m := Sys.fileExists _) (a := true) (d' := (f, second.steps)) (by simp [Sys.fileExists, hfile])]
      simp
      rfl
    have h3 : readTable e (higgs unzip parse) (f, second.steps) = (.ok t, (f, second.steps)) := by
      refine (bind_of_ok (readFile_eq (d := (f, second.steps)) ((congrArg f (csvPath_abs he _ _)).trans hfile))).trans ?_
      change Sys.ofOption (parse [b]) _ = _
      rw [ht]
      rfl
    unfold LoadCall.run load
    rw [bind_of_ok h2, h3]

/-! ## C124: calls that fail do no lasting harm -/

/-- C124 for the loaders that convert, in part: after any calls, none of which was killed in the middle of writing the data file, a call with a working server returns the published
table, if it is given enough time. -/
theorem C124_converting_partial (hL : ConvertingLoader conv unzip parse L) (hsha : OnlyPublished sha pub L) (he : AbsoluteHome e) (f : Files B)
    (hf : f (e.abs (L.path e L.target)) = none) (history : List (LoadCall B)) (hh : NeverCutOff sha e L pub conv history f) (net : Net B) (hnet : Works pub L net) (t : T)
    (ht : publishedTable pub L = some t) :
    ∃ n, ∀ steps ≥ n, ((LoadCall.mk net true steps).run sha e L (afterCalls sha e L history f)).1 = .ok t := by
  obtain ⟨hok, -⟩ := ConvertingLoader.ok hL
  obtain ⟨c, hc, hp⟩ : ∃ c, conv (L.archives.map fun a => pub a.url) = some c ∧ L.parse [c] = some t := by
    unfold publishedTable at ht
    rw [hok.convert] at ht
    exact Option.bind_eq_some_iff.1 ht
  have hD : ∀ c', conv (L.archives.map fun a => pub a.url) = some c' → c' = c := fun c' h => Option.some.inj (h.symm.trans hc)
  refine run_of_total (fetch_total he hok hsha hnet hc) (readTable_total hok he hp) ?_
  replace hf : TargetIs e L (· = c) f := fun b hb => by rw [hf] at hb; cases hb
  induction history generalizing f with
  | nil => exact hf
  | cons c' l ih =>
    refine ih _ hh.2 ?_
    rcases (run_conv he hok hsha hD c' hf).2 with h | ⟨hk, -⟩
    · exact h
    · intro b hb
      rcases hh.1 hk with h | ⟨b', hb', h⟩
      · rw [h] at hb
        exact hf b hb
      · rw [h] at hb
        cases hb
        exact hD _ hb'

/-- C124 for the loaders that use the downloaded files as they are, in part: after any calls, none of which was killed or raised an exception during a download (calls with
`download_if_missing=False` may raise), a call with a working server returns the published table, if it is given enough time. -/
theorem C124_direct_partial (hL : DirectLoader unzip parse L) (hsha : OnlyPublished sha pub L) (he : AbsoluteHome e) (f : Files B) (hf : f (e.abs (L.path e L.target)) = none)
    (history : List (LoadCall B)) (hh : ∀ o ∈ outcomes sha e L history f, o ≠ .error .killed ∧ o ≠ .error .network ∧ o ≠ .error .checksum) (net : Net B) (hnet : Works pub L net) (t : T)
    (ht : publishedTable pub L = some t) :
    ∃ n, ∀ steps ≥ n, ((LoadCall.mk net true steps).run sha e L (afterCalls sha e L history f)).1 = .ok t := by
  have hok := DirectLoader.ok hL
  refine run_of_total (fetch_dir_total he hok hsha hnet) (readTable_dir_total he hok ht) ?_
  replace hf : f (e.abs (L.path e L.target)) = none ∨ AllPub e L pub f := Or.inl hf
  induction history generalizing f with
  | nil => exact hf
  | cons c l ih =>
    have := hh _ (List.mem_cons_self ..)
    refine ih _ (fun o ho => hh o (List.mem_cons_of_mem _ ho)) ?_
    refine (run_dir he hok hsha c hf).2.resolve_left ?_
    rintro ⟨s, hs, hd⟩
    rw [hs] at this
    rcases hd with rfl | rfl | rfl
    · exact this.1 rfl
    · exact this.2.1 rfl
    · exact this.2.2 rfl

/-- C124 fails for each of the loaders that convert: there is a moment at which a first call with a working server can be killed so that all later calls raise an exception, whatever the
server sends. -/
theorem C124_violated (hL : ConvertingLoader conv unzip parse L) (hsha : OnlyPublished sha pub L) (he : AbsoluteHome e) (f : Files B) (hf : f (e.abs (L.path e L.target)) = none)
    (net : Net B) (hnet : Works pub L net) (c : List B) (hc : conv (L.archives.map fun a => pub a.url) = some c) (hne : c ≠ []) (htrunc : ∀ k < c.length, parse [c.take k] = none) :
    ∃ steps, ((LoadCall.mk net true steps).run sha e L f).1 = .error .killed ∧
      ∀ later : List (LoadCall B), ∀ o ∈ outcomes sha e L later ((LoadCall.mk net true steps).run sha e L f).2, o = .error .format := by
  obtain ⟨hok, rfl, -⟩ := ConvertingLoader.ok hL
  have hpos : 0 < c.length := List.length_pos_of_ne_nil hne
  obtain ⟨steps, h1, h2⟩ := cut_off he hok hsha hnet hc 0 hpos hf
  exact ⟨steps, h1, outcomes_of_broken he hok h2 (htrunc 0 hpos)⟩

/-! ## C125: the data directory can be any directory -/

/-- C125 in part: when the data directory is given by an absolute path, a first call of any of the nine loaders with a working server returns the published table, whatever the current
directory is. -/
theorem C125_partial (hL : ConvertingLoader conv unzip parse L ∨ DirectLoader unzip parse L) (hsha : OnlyPublished sha pub L) (he : AbsoluteHome e) (f : Files B)
    (hf : f (e.abs (L.path e L.target)) = none) (net : Net B) (hnet : Works pub L net) (t : T) (ht : publishedTable pub L = some t) :
    ∃ n, ∀ steps ≥ n, ((LoadCall.mk net true steps).run sha e L f).1 = .ok t := by
  rcases hL with hL | hL
  · exact C124_converting_partial hL hsha he f hf [] trivial net hnet t ht
  · exact C124_direct_partial hL hsha he f hf [] (by simp [outcomes]) net hnet t ht

/-- Which directories are given by absolute paths: those with a slash at the beginning, those in the home directory of some user, and the default. -/
theorem C125_absolute_partial (h : (∃ w, e.wildwoodData = some w ∧ w.head? = some '/') ∨
    (∃ u home rest, e.wildwoodData = some ('~' :: (u ++ rest)) ∧ (∀ c ∈ u, c ≠ '/') ∧ e.homeOf u = some home ∧ home.head? = some '/' ∧ (rest = [] ∨ rest.head? = some '/')) ∨
    (e.wildwoodData = none ∧ ∃ home, e.homeOf [] = some home ∧ home.head? = some '/')) : AbsoluteHome e := by
  unfold AbsoluteHome Env.dataHome
  rcases h with ⟨w, h1, h2⟩ | ⟨u, home, rest, h1, h2, h3, h4, h5⟩ | ⟨h1, home, h2, h3⟩
  · rw [h1]
    dsimp only [Option.getD]
    rw [expanduser_abs h2, h2]
  · rw [h1]
    exact expanduser_home h2 h3 h4 rest h5
  · rw [h1]
    exact expanduser_home (u := []) (by simp) h2 h3 "/wildwood_data".toList (Or.inr rfl)

/-- C125 fails when WILDWOOD_DATA is a relative path: starting with an empty disk, no call of a converting loader ever returns a table, whatever the server sends. (Two directories, the current one
and the one with the built-in data, neither of which contains the other.) -/
theorem C125_violated (hL : ConvertingLoader conv unzip parse L) (he : ¬ AbsoluteHome e) (hm : e.modulePath.head? = some '/')
    (h1 : ¬ e.cwd <+: join e.modulePath "data".toList) (h2 : ¬ join e.modulePath "data".toList <+: e.cwd) (calls : List (LoadCall B)) :
    ∀ o ∈ outcomes sha e L calls (fun _ => none), ∃ s, o = .error s := by
  obtain ⟨hok, -, hd⟩ := ConvertingLoader.ok hL
  have hrun : ∀ (c : LoadCall B) (f : Files B), f (e.csvPath (L.path e L.target)) = none →
      (∃ s, (c.run sha e L f).1 = .error s) ∧ (c.run sha e L f).2 (e.csvPath (L.path e L.target)) = none := by
    intro c f hf
    have h : Triple (fun f => f (e.csvPath (L.path e L.target)) = none) (load sha e L c.net c.download) (fun _ _ => False) (fun _ f => f (e.csvPath (L.path e L.target)) = none) := by
      unfold load
      refine Triple.bind (fetch_keeps_rel sha c.net c.download hok.names fun n hn f v hf => ?_) fun _ => ?_
      · rw [set_other _ ((csvPath_ne hd he hm h1 h2 hok.names.target).resolve_right hn)]
        exact hf
      · have key : Triple (fun f => f (e.csvPath (L.path e L.target)) = none) (do let b ← Sys.readFile (e.csvPath (L.path e L.target)); Sys.ofOption (L.parse [b]))
            (fun _ _ => False) (fun _ f => f (e.csvPath (L.path e L.target)) = none) :=
          Triple.bind (Triple.read (Q := fun _ _ => False) (fun f b hf hb => by rw [hf] at hb; cases hb) fun f hf _ => hf) fun _ => Triple.false
        unfold readTable
        rcases hok.reader with h | h <;> rw [h]
        · exact key
        · refine Triple.bind (Triple.read (Q := fun _ f => f (e.csvPath (L.path e L.target)) = none) (fun f b hf _ => hf) fun f hf _ => hf) fun b0 => ?_
          exact Triple.bind (Triple.ofOption (Q := fun _ f => f (e.csvPath (L.path e L.target)) = none) (fun f _ hf _ => hf) fun f hf => hf) fun _ => key
    have := h (f, c.steps) hf
    unfold LoadCall.run
    rcases hm : load sha e L c.net c.download (f, c.steps) with ⟨r, d⟩
    rw [hm] at this
    cases r with
    | ok t => exact this.elim
    | error s => exact ⟨⟨s, rfl⟩, this⟩
  have : ∀ f : Files B, f (e.csvPath (L.path e L.target)) = none → ∀ o ∈ outcomes sha e L calls f, ∃ s, o = .error s := by
    induction calls with
    | nil => simp [outcomes]
    | cons c l ih =>
      intro f hf o ho
      rcases List.mem_cons.1 ho with rfl | ho
      · exact (hrun c f hf).1
      · exact ih _ (hrun c f hf).2 o ho
  exact this _ rfl

/-! ## C126: the loaders touch only their own directory -/

/-- C126: no call, whether it returns, raises or is killed, changes a file outside of the directory of the dataset. -/
theorem C126_only_own_directory (hL : ConvertingLoader conv unzip parse L ∨ DirectLoader unzip parse L) (he : AbsoluteHome e) (calls : List (LoadCall B)) (f : Files B) (p : Path)
    (hp : ¬ join e.dataHome L.dir <+: p) : afterCalls sha e L calls f p = f p := by
  have hn : NamesOK L ∧ ∀ m, L.reader = .zip m → m.head? ≠ some '/' := by
    rcases hL with hL | hL
    · obtain ⟨hok, -⟩ := ConvertingLoader.ok hL
      exact ⟨hok.names, fun m h => absurd h (hok.notZip m)⟩
    · have hok := DirectLoader.ok hL
      refine ⟨hok.names, fun m h => ?_⟩
      rcases hok.reader with ⟨h', -⟩ | h' | ⟨m', h', hm', -⟩
      · rw [h] at h'; cases h'
      · rw [h] at h'; cases h'
      · rw [h] at h'; cases h'; exact hm'
  induction calls generalizing f with
  | nil => rfl
  | cons c l ih =>
    refine (ih _).trans ?_
    refine run_keeps_rel sha hn.1 hn.2 (I := fun g => g p = f p) (fun n hr g v hg => ?_) c rfl
    rw [set_other _ (fun h => hp ?_)]
    · exact hg
    · rw [h, (path_abs he L n).1]
      exact join_prefix hr

/-- C126 for the loaders that convert: a first call that returns leaves none of the files that were downloaded. -/
theorem C126_converting_cleans (hL : ConvertingLoader conv unzip parse L) (he : AbsoluteHome e) (c : LoadCall B) (f : Files B) (hf : f (e.abs (L.path e L.target)) = none) (t : T)
    (h : (c.run sha e L f).1 = .ok t) : ∀ a ∈ L.archives, (c.run sha e L f).2 (e.abs (L.path e a.filename)) = none :=
  run_gone he (ConvertingLoader.ok hL).1 c hf h

/-- C126 for `load_bank`: a call that returns leaves no extracted file. -/
theorem C126_bank_cleans (c : LoadCall B) (f : Files B) (t : T) (h : (c.run sha e (bank unzip parse) f).1 = .ok t) :
    (c.run sha e (bank unzip parse) f).2 (e.abs ((bank unzip parse).path e "bank-full.csv".toList)) = none :=
  run_zip_gone rfl c h

/-- C126: the data directory is the one that WILDWOOD_DATA names, and `wildwood_data` in the home directory of the user by default. (A home directory is an absolute path that does not end
with a slash.) -/
theorem C126_directory {home : Path} (hh : e.homeOf [] = some home) (h1 : home.head? = some '/') (h2 : home.getLast? ≠ some '/') :
    (∀ w, e.wildwoodData = some w → w.head? = some '/' → e.dataHome = w) ∧
    (∀ rest, e.wildwoodData = some ("~/".toList ++ rest) → e.dataHome = home ++ '/' :: rest) ∧
    (e.wildwoodData = none → e.dataHome = home ++ "/wildwood_data".toList) := by
  have hx : ∀ rest, expanduser e.homeOf ('~' :: '/' :: rest) = home ++ '/' :: rest := by
    intro rest
    change (match e.homeOf [] with
      | none => _
      | some h => if (h.reverse.dropWhile (· = '/')).reverse ++ '/' :: rest = [] then ['/'] else (h.reverse.dropWhile (· = '/')).reverse ++ '/' :: rest) = _
    rw [hh]
    dsimp only
    rw [if_neg (by simp)]
    congr 1
    rw [← List.head?_reverse] at h2
    cases hr : home.reverse with
    | nil =>
      rw [List.reverse_eq_nil_iff] at hr
      rw [hr]
      rfl
    | cons x l =>
      rw [hr] at h2
      have : x ≠ '/' := fun h => h2 (by rw [h]; rfl)
      rw [List.dropWhile_cons_of_neg (by simpa using this), ← hr, List.reverse_reverse]
  refine ⟨fun w hw ha => ?_, fun rest hw => ?_, fun hw => ?_⟩ <;> unfold Env.dataHome <;> rw [hw]
  · exact expanduser_abs ha
  · exact hx rest
  · exact hx _

/-- C126: with `download_if_missing=False` nothing depends on the network. -/
theorem C126_no_network (net net' : Net B) (steps : Nat) (f : Files B) : (LoadCall.mk net false steps).run sha e L f = (LoadCall.mk net' false steps).run sha e L f := rfl

/-- C126: with `download_if_missing=False`, or when the data file is there, a loader that converts changes nothing on the disk. -/
theorem C126_no_writes (hL : ConvertingLoader conv unzip parse L) (he : AbsoluteHome e) (c : LoadCall B) (f : Files B) (h : c.download = false ∨ f (e.abs (L.path e L.target)) ≠ none) :
    (c.run sha e L f).2 = f := by
  have hf : fetch sha e L c.net c.download (f, c.steps) = (.ok (), (f, c.steps)) := by
    unfold fetch
    refine (bind_of_ok (m := Sys.fileExists _) (a := (f (e.abs (L.path e L.target))).isSome) (d' := (f, c.steps)) rfl).trans ?_
    rw [if_neg]
    · rfl
    · rcases h with h | h
      · simp [h]
      · obtain ⟨b, hb⟩ := Option.ne_none_iff_exists'.1 h
        simp [hb]
  have hr := readTable_keeps (ConvertingLoader.ok hL).1 he (fun g => g = f) (f, c.steps) rfl
  unfold LoadCall.run load
  rw [bind_of_ok hf]
  dsimp only
  rcases hm : readTable e L (f, c.steps) with ⟨r, d⟩
  rw [hm] at hr
  cases r <;> exact hr.1

end

/-! ## A concrete case -/

namespace FetchExample

/-- The user's home directory is /home/u, WILDWOOD_DATA is not set. -/
def env : Env := ⟨fun n => if n = [] then some "/home/u".toList else none, none, "/work".toList, "/lib/wildwood/datasets".toList⟩

def pub : String → List Nat := fun _ => [1, 2]
def sha (s : String) : List Nat → String := fun b => if b = [1, 2] then s else ""
def conv : List (List Nat) → Option (List Nat) := fun bs => some (bs.flatten ++ [9])
def parse : List (List Nat) → Option Nat := fun bs => if bs = [[1, 2, 9]] then some 5 else if bs = [[1]] then some 6 else if bs = [[1, 2]] then some 7 else none

def carSum : String := "b703a9ac69f11e64ce8c223c0a40de4d2e9d769f7fb20be5f8f2e8a619893d83"
def higgsSum : String := "ea302c18164d4e3d916a1e2e83a9a8d07069fa6ebc7771e4c0540d54e593b698"

theorem car_only (parse : List (List Nat) → Option Nat) : OnlyPublished (sha carSum) pub (car conv some parse : Loader Nat Nat) := by
  intro a ha b
  cases List.mem_singleton.1 ha
  unfold sha pub
  dsimp only
  split_ifs with h
  · exact ⟨fun _ => h, fun _ => rfl⟩
  · exact ⟨fun h' => absurd h' (by decide), fun h' => absurd h' h⟩

theorem higgs_only : OnlyPublished (sha higgsSum) pub (higgs some parse : Loader Nat Nat) := by
  intro a ha b
  cases List.mem_singleton.1 ha
  unfold sha pub
  dsimp only
  split_ifs with h
  · exact ⟨fun _ => h, fun _ => rfl⟩
  · exact ⟨fun h' => absurd h' (by decide), fun h' => absurd h' h⟩

theorem env_abs : AbsoluteHome env := rfl

example : env.dataHome = "/home/u/wildwood_data".toList := rfl

/-- The file is converted to [1, 2, 9]; its table is 5. -/
example : publishedTable pub (car conv some parse : Loader Nat Nat) = some 5 := by decide

/-- A call that gets another file from the server, one that is killed during the download, and then one that works. -/
def history : List (LoadCall Nat) := [⟨fun _ => ([4], true), true, 100⟩, ⟨fun _ => ([1, 2], true), true, 2⟩]

example : outcomes (sha carSum) env (car conv some parse : Loader Nat Nat) history (fun _ => none) = [.error .checksum, .error .killed] := rfl

example : ∃ n, ∀ steps ≥ n, ((LoadCall.mk (fun _ => ([1, 2], true)) true steps).run (sha carSum) env (car conv some parse : Loader Nat Nat)
    (afterCalls (sha carSum) env (car conv some parse : Loader Nat Nat) history fun _ => none)).1 = .ok 5 :=
  C124_converting_partial (conv := conv) (unzip := some) (parse := parse) (by simp [ConvertingLoader]) (car_only parse) env_abs _ rfl history
    ⟨fun _ => Or.inl rfl, fun _ => Or.inl rfl, trivial⟩ _ (fun a _ => rfl) 5 (by decide)

example : ((LoadCall.mk (fun _ => ([1, 2], true)) true 100).run (sha carSum) env (car conv some parse : Loader Nat Nat) fun _ => none).1 = .ok 5 := rfl

/-- A reader that cannot read files that are cut off, as in C123_converting and C124_violated. -/
def strict : List (List Nat) → Option Nat := fun bs => if bs = [[1, 2, 9]] then some 5 else none

theorem strict_trunc : ∀ c, conv ((car conv some strict : Loader Nat Nat).archives.map fun a => pub a.url) = some c → ∀ k < c.length, strict [c.take k] = none := by
  intro c hc
  cases hc
  decide

example (history : List (LoadCall Nat)) (c : LoadCall Nat) (t : Nat)
    (h : (c.run (sha carSum) env (car conv some strict) (afterCalls (sha carSum) env (car conv some strict : Loader Nat Nat) history fun _ => none)).1 = .ok t) : some 5 = some t :=
  C123_converting (conv := conv) (unzip := some) (parse := strict) (by simp [ConvertingLoader]) (car_only strict) env_abs strict_trunc _ rfl history c t h

example : ∃ steps, ((LoadCall.mk (fun _ => ([1, 2], true)) true steps).run (sha carSum) env (car conv some strict : Loader Nat Nat) fun _ => none).1 = .error .killed ∧
    ∀ later : List (LoadCall Nat), ∀ o ∈ outcomes (sha carSum) env (car conv some strict : Loader Nat Nat) later
      ((LoadCall.mk (fun _ => ([1, 2], true)) true steps).run (sha carSum) env (car conv some strict : Loader Nat Nat) fun _ => none).2, o = .error .format :=
  C124_violated (conv := conv) (unzip := some) (pub := pub) (parse := strict) (by simp [ConvertingLoader]) (car_only strict) env_abs _ rfl _
    (fun a _ => rfl) [1, 2, 9] rfl (by decide) (strict_trunc _ rfl)

/-- `load_higgs` when the connection breaks after one byte: table 6 instead of 7 at the second call. -/
example : (((LoadCall.mk (fun _ => ([1], false)) true 100).run (sha higgsSum) env (higgs some parse : Loader Nat Nat) fun _ => none).1 = .error .network ∨
    ((LoadCall.mk (fun _ => ([1], false)) true 100).run (sha higgsSum) env (higgs some parse : Loader Nat Nat) fun _ => none).1 = .error .checksum) ∧
    ∀ second : LoadCall Nat, (second.run (sha higgsSum) env (higgs some parse : Loader Nat Nat)
      ((LoadCall.mk (fun _ => ([1], false)) true 100).run (sha higgsSum) env (higgs some parse : Loader Nat Nat) fun _ => none).2).1 = .ok 6 :=
  C123_direct_violated env_abs higgs_only _ [1] false (fun a _ => ⟨rfl, show [1] ≠ [1, 2] by decide⟩) 6 (by decide) 100 (by decide)

example : publishedTable pub (higgs some parse : Loader Nat Nat) = some 7 := by decide

/-- A history as in C123_direct_partial: a call without downloading that raises, and one that downloads. -/
example : outcomes (sha higgsSum) env (higgs some parse : Loader Nat Nat) [⟨fun _ => ([], true), false, 100⟩, ⟨fun _ => ([1, 2], true), true, 100⟩, ⟨fun _ => ([], true), true, 0⟩]
    (fun _ => none) = [.error .notFound, .ok 7, .ok 7] := rfl

/-- The variable WILDWOOD_DATA is "data": a call with a working server raises FileNotFoundError. -/
example : ((LoadCall.mk (fun _ => ([1, 2], true)) true 100).run (sha carSum) { env with wildwoodData := some "data".toList } (car conv some parse : Loader Nat Nat) fun _ => none).1 =
    .error .notFound := rfl

example (calls : List (LoadCall Nat)) : ∀ o ∈ outcomes (sha carSum) { env with wildwoodData := some "data".toList } (car conv some parse : Loader Nat Nat) calls (fun _ => none),
    ∃ s, o = .error s :=
  C125_violated (e := { env with wildwoodData := some "data".toList }) (conv := conv) (unzip := some) (parse := parse) (by simp [ConvertingLoader]) (show ¬ _ = some '/' by decide) rfl (show ¬ "/work".toList <+: "/lib/wildwood/datasets/data".toList by decide)
    (show ¬ "/lib/wildwood/datasets/data".toList <+: "/work".toList by decide) calls

example : (({ env with wildwoodData := some "~/d".toList } : Env)).dataHome = "/home/u/d".toList := rfl

/-- A file in another directory. -/
example : ¬ join env.dataHome (car conv some parse : Loader Nat Nat).dir <+: "/home/u/thesis.tex".toList :=
  show ¬ "/home/u/wildwood_data/car".toList <+: "/home/u/thesis.tex".toList by decide

/-- After a call that returns, the data file is there and the download is not. -/
example : (((LoadCall.mk (fun _ => ([1, 2], true)) true 100).run (sha carSum) env (car conv some parse : Loader Nat Nat) fun _ => none).2 "/home/u/wildwood_data/car/car.csv.gz".toList = some [1, 2, 9]) ∧
    (((LoadCall.mk (fun _ => ([1, 2], true)) true 100).run (sha carSum) env (car conv some parse : Loader Nat Nat) fun _ => none).2 "/home/u/wildwood_data/car/car.data".toList = none) := ⟨rfl, rfl⟩

end FetchExample

end Verif
