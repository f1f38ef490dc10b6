import Verif.Proofs.FetchPar
import Verif.Props.Fetch

/-! # C127: processes that load the same dataset at the same time -/
namespace Verif

open Spec Fetch

section
variable {B T : Type} {sha : List B → String} {e : Env} {L : Loader B T} {pub : String → List B} {conv : List (List B) → Option (List B)} {unzip : List B → Option (List B)}
  {parse : List (List B) → Option T}

/-- One process of C127 that runs alone is a call of C123 to C126: if that call returns or raises, so does the process, once it has had its turn often enough, and the files are the same; and if that
call is killed, the files are those of some moment of the process. -/
theorem C127_alone (c : LoadCall B) (f : Files B) :
    ((c.run sha e L f).1 ≠ .error .killed →
      ∃ n, ∀ m ≥ n, interleave (List.replicate m 0) (f, [loadP sha e L c.net c.download]) = ((c.run sha e L f).2, [.done (c.run sha e L f).1])) ∧
    ∃ m, (interleave (List.replicate m 0) (f, [loadP sha e L c.net c.download])).1 = (c.run sha e L f).2 := by
  unfold LoadCall.run
  rw [← exec_load]
  exact interleave_alone _ (f, c.steps)

/-- C127 in part: when the data file of a converting loader is complete, any number of processes can load it at the same time. At every moment, those that have ended have returned the published
table; once each has had its turn often enough, all have; and nothing on the disk has changed. -/
theorem C127_converting_partial (hL : ConvertingLoader conv unzip parse L) (he : AbsoluteHome e) (f : Files B) (c : List B) (hc : conv (L.archives.map fun a => pub a.url) = some c)
    (hf : f (e.abs (L.path e L.target)) = some c) (t : T) (ht : publishedTable pub L = some t) (procs : List (Net B × Bool)) :
    (∀ schedule, (interleave schedule (f, procs.map fun p => loadP sha e L p.1 p.2)).1 = f ∧
      ∀ r, Prog.done r ∈ (interleave schedule (f, procs.map fun p => loadP sha e L p.1 p.2)).2 → r = .ok t) ∧
    ∃ n, ∀ schedule : List Nat, (∀ i < procs.length, n ≤ schedule.count i) →
      interleave schedule (f, procs.map fun p => loadP sha e L p.1 p.2) = (f, procs.map fun _ => Prog.done (.ok t)) := by
  obtain ⟨hok, -⟩ := ConvertingLoader.ok hL
  have hp : L.parse [c] = some t := by
    unfold publishedTable at ht
    rw [hok.convert] at ht
    dsimp only at ht
    rw [hc] at ht
    exact ht
  have hr : ∀ q ∈ procs.map fun p => loadP sha e L p.1 p.2, ReadsTo f t q := by
    intro q hq
    obtain ⟨p, -, rfl⟩ := List.mem_map.1 hq
    exact readsTo_load_conv he hok p.1 p.2 hf hp
  refine ⟨fun schedule => ⟨(interleave_readers schedule _ hr).1, fun r h => ?_⟩, ?_⟩
  · cases (interleave_readers schedule _ hr).2 _ h
    rfl
  · obtain ⟨n, hn⟩ := interleave_readers_end _ hr
    refine ⟨n, fun schedule hs => ?_⟩
    rw [hn schedule (by simpa using hs), List.map_map]
    rfl

/-- C127 in part, for `load_epsilon` and `load_higgs`: as C127_converting_partial, when the published files are on the disk. -/
theorem C127_direct_partial (hL : L ∈ [epsilon unzip parse, higgs unzip parse]) (he : AbsoluteHome e) (f : Files B)
    (hf : ∀ a ∈ L.archives, f (e.abs (L.path e a.filename)) = some (pub a.url)) (t : T) (ht : publishedTable pub L = some t) (procs : List (Net B × Bool)) :
    (∀ schedule, (interleave schedule (f, procs.map fun p => loadP sha e L p.1 p.2)).1 = f ∧
      ∀ r, Prog.done r ∈ (interleave schedule (f, procs.map fun p => loadP sha e L p.1 p.2)).2 → r = .ok t) ∧
    ∃ n, ∀ schedule : List Nat, (∀ i < procs.length, n ≤ schedule.count i) →
      interleave schedule (f, procs.map fun p => loadP sha e L p.1 p.2) = (f, procs.map fun _ => Prog.done (.ok t)) := by
  have hok : DirOK L := DirectLoader.ok (unzip := unzip) (parse := parse) (List.mem_cons_of_mem _ hL)
  have hz : ∀ m, L.reader ≠ .zip m := by
    simp only [List.mem_cons, List.not_mem_nil, or_false] at hL
    rcases hL with rfl | rfl <;> exact fun m h => by cases h
  have hr : ∀ q ∈ procs.map fun p => loadP sha e L p.1 p.2, ReadsTo f t q := by
    intro q hq
    obtain ⟨p, -, rfl⟩ := List.mem_map.1 hq
    exact readsTo_load_dir he hok hz p.1 p.2 hf ht
  refine ⟨fun schedule => ⟨(interleave_readers schedule _ hr).1, fun r h => ?_⟩, ?_⟩
  · cases (interleave_readers schedule _ hr).2 _ h
    rfl
  · obtain ⟨n, hn⟩ := interleave_readers_end _ hr
    refine ⟨n, fun schedule hs => ?_⟩
    rw [hn schedule (by simpa using hs), List.map_map]
    rfl

end

namespace FetchExample

/-- The table is the number of bytes. -/
def count : List (List Nat) → Option Nat := fun bs => some bs.flatten.length

def server : Net Nat := fun _ => ([1, 2], true)

/-- The first process looks for the data file, downloads the two bytes and reads them for the checksum. The second one looks for the data file and starts to download: the first byte is written. Then the first one
goes on until the end. -/
def carSchedule : List Nat := [0, 0, 0, 0, 0] ++ [1, 1, 1] ++ List.replicate 8 0

/-- The first process opens the archive and extracts the two bytes; the second one opens the archive and extracts the first byte; then the first one reads the extracted file. The second one extracts the
second byte, the first one removes the extracted file, and the second one goes on. -/
def bankSchedule : List Nat := [0, 0, 0, 0, 0] ++ [1, 1, 1, 1] ++ [0] ++ [1] ++ [0] ++ List.replicate 4 1

/-- The same, but the second process has extracted both bytes before the first one reads them. -/
def bankSchedule' : List Nat := [0, 0, 0, 0, 0] ++ [1, 1, 1, 1, 1] ++ List.replicate 2 0 ++ List.replicate 4 1

/-- Both processes have read the extracted file before they remove it. -/
def bankSchedule'' : List Nat := [0, 0, 0, 0, 0] ++ [1, 1, 1, 1, 1] ++ [0, 1] ++ List.replicate 4 1 ++ List.replicate 4 0

def bankSum : String := "99d7e8eb12401ed278b793984423915411ea8df099e1795f9fefe254f513fe5e"

/-- A disk with the published bank.zip. -/
def bankDisk : Files Nat := fun p => if p = "/home/u/wildwood_data/bank/bank.zip".toList then some [1, 2] else none

/-- C127_converting_partial for three processes, one of which has no network. -/
example : ∃ n, ∀ schedule : List Nat, (∀ i < 3, n ≤ schedule.count i) →
    interleave schedule ((fun _ => some [1, 2, 9]), [(server, true), (fun _ => ([], false), true), (server, false)].map fun p => loadP (sha carSum) env (car conv some count : Loader Nat Nat) p.1 p.2) =
      ((fun _ => some [1, 2, 9]), [.done (.ok 3), .done (.ok 3), .done (.ok 3)]) :=
  (C127_converting_partial (conv := conv) (unzip := some) (parse := count) (pub := pub) (by simp [ConvertingLoader]) env_abs _ [1, 2, 9] rfl rfl 3 rfl
    [(server, true), (fun _ => ([], false), true), (server, false)]).2

example : ∃ n, ∀ schedule : List Nat, (∀ i < 2, n ≤ schedule.count i) →
    interleave schedule ((fun _ => some [1, 2]), [(server, true), (server, false)].map fun p => loadP (sha higgsSum) env (higgs some count : Loader Nat Nat) p.1 p.2) =
      ((fun _ => some [1, 2]), [.done (.ok 2), .done (.ok 2)]) :=
  (C127_direct_partial (unzip := some) (parse := count) (pub := pub) (by simp) env_abs _ (fun _ _ => rfl) 2 rfl [(server, true), (server, false)]).2

end FetchExample

open FetchExample in
/-- C127 fails for `load_car` (and in the same way for the other converting loaders): two processes start with an empty disk and a working server. The published table is 3. The first process converts the file that the second
one is downloading at this moment, returns another table, and leaves it as the data file: all later calls return it too, whatever the server sends, and none raises. -/
theorem C127_converting_violated :
    OnlyPublished (sha carSum) pub (car conv some count : Loader Nat Nat) ∧ Works pub (car conv some count : Loader Nat Nat) server ∧ publishedTable pub (car conv some count : Loader Nat Nat) = some 3 ∧
    ∃ f q, interleave carSchedule ((fun _ => none), [loadP (sha carSum) env (car conv some count) server true, loadP (sha carSum) env (car conv some count) server true]) = (f, [.done (.ok 2), q]) ∧
      ∀ later : List (LoadCall Nat), ∀ o ∈ outcomes (sha carSum) env (car conv some count : Loader Nat Nat) later f, o = .ok 2 :=
  ⟨car_only count, fun _ _ => rfl, rfl, _, _, rfl, outcomes_of_readable env_abs (conv := conv)
    (ConvertingLoader.ok (conv := conv) (unzip := some) (parse := count) (by simp [ConvertingLoader])).1 (b := [1, 9]) rfl rfl⟩

open FetchExample in
/-- C127 fails for `load_bank` even when the published archive is on the disk, because every call extracts it to the same file and removes that file. The published table is 2. Of two processes, the first returns
another table and the second raises; under other schedules one of them returns the published table and the other one raises. -/
theorem C127_bank_violated : publishedTable pub (bank some count : Loader Nat Nat) = some 2 ∧
    (∃ f, interleave bankSchedule (bankDisk, [loadP (sha bankSum) env (bank some count) server true, loadP (sha bankSum) env (bank some count) server true]) =
      (f, [.done (.ok 1), .done (.error .notFound)])) ∧
    (∃ f, interleave bankSchedule' (bankDisk, [loadP (sha bankSum) env (bank some count) server true, loadP (sha bankSum) env (bank some count) server true]) =
      (f, [.done (.ok 2), .done (.error .notFound)])) ∧
    ∃ f, interleave bankSchedule'' (bankDisk, [loadP (sha bankSum) env (bank some count) server true, loadP (sha bankSum) env (bank some count) server true]) =
      (f, [.done (.error .notFound), .done (.ok 2)]) :=
  ⟨rfl, ⟨_, rfl⟩, ⟨_, rfl⟩, ⟨_, rfl⟩⟩

end Verif
