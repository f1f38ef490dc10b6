import Verif.Props.Fetch
import Verif.Spec.FetchKills

/-! # C123, C124: direct loaders after processes that were killed -/
namespace Verif

open Spec Fetch

section
variable {B T : Type} {sha : List B → String} {e : Env} {L : Loader B T} {pub : String → List B} {unzip : List B → Option (List B)} {parse : List (List B) → Option T}

theorem fetch_allPub (hL : DirOK L) (net : Net B) (download : Bool) (steps : Nat) {f : Files B} (hf : AllPub e L pub f) : fetch sha e L net download (f, steps) = (.ok (), (f, steps)) := by
  obtain ⟨a, l, -, ht⟩ := hL.target hf
  unfold fetch
  refine (bind_of_ok (m := Sys.fileExists _) (a := true) (d' := (f, steps)) (by simp [Sys.fileExists, ht])).trans ?_
  rw [if_neg (by simp)]
  rfl

/-- When the published files are there, no call changes them, however it ends. -/
theorem run_allPub (he : AbsoluteHome e) (hL : DirOK L) (c : LoadCall B) {f : Files B} (hf : AllPub e L pub f) : AllPub e L pub (c.run sha e L f).2 := by
  have hr := readTable_dir (pub := pub) he hL (f, c.steps) hf
  unfold LoadCall.run load
  rw [bind_of_ok (fetch_allPub hL c.net c.download c.steps hf)]
  dsimp only
  rcases hm : readTable e L (f, c.steps) with ⟨r, d⟩
  rw [hm] at hr
  cases r with
  | ok t => exact hr.1
  | error s => exact hr

theorem afterCalls_allPub (he : AbsoluteHome e) (hL : DirOK L) (history : List (LoadCall B)) (f : Files B) (hf : AllPub e L pub f) : AllPub e L pub (afterCalls sha e L history f) := by
  induction history generalizing f with
  | nil => exact hf
  | cons c l ih => exact ih _ (run_allPub he hL c hf)

theorem run_ok_allPub (he : AbsoluteHome e) (hL : DirOK L) (hsha : OnlyPublished sha pub L) (c : LoadCall B) {f : Files B} (hf : f (e.abs (L.path e L.target)) = none ∨ AllPub e L pub f) {t : T}
    (h : (c.run sha e L f).1 = .ok t) : AllPub e L pub (c.run sha e L f).2 := by
  have h' : Triple (fun f => f (e.abs (L.path e L.target)) = none ∨ AllPub e L pub f) (load sha e L c.net c.download) (fun _ f => AllPub e L pub f) (fun _ _ => True) := by
    unfold load
    refine Triple.bind ((fetch_dir he hL hsha c.net c.download).post (fun _ _ h => h) fun _ _ _ => trivial) fun _ => ?_
    exact Triple.or ((readTable_absent he hL).post (fun _ _ h => h.elim) fun _ _ _ => trivial) ((readTable_dir he hL).post (fun _ _ h => h.1) fun _ _ _ => trivial)
  have := h' (f, c.steps) hf
  unfold LoadCall.run at h ⊢
  rcases hm : load sha e L c.net c.download (f, c.steps) with ⟨r, d⟩
  rw [hm] at this h
  dsimp only at h
  subst h
  exact this

theorem afterCalls_nothingLeft (he : AbsoluteHome e) (hL : DirOK L) (hsha : OnlyPublished sha pub L) (history : List (LoadCall B)) (f : Files B)
    (hf : f (e.abs (L.path e L.target)) = none ∨ AllPub e L pub f) (hh : NothingLeft sha e L history f) :
    afterCalls sha e L history f (e.abs (L.path e L.target)) = none ∨ AllPub e L pub (afterCalls sha e L history f) := by
  induction history generalizing f with
  | nil => exact hf
  | cons c l ih =>
    refine ih _ ?_ hh.2
    rcases (run_dir he hL hsha c hf).2 with ⟨s, hs, hd⟩ | h
    · rcases hf with h0 | h0
      · refine Or.inl ((hh.1 ?_).trans h0)
        rw [hs]
        rcases hd with rfl | rfl | rfl <;> simp
      · exact Or.inr (run_allPub he hL c h0)
    · exact h

/-- C123 for the loaders that use the downloaded files as they are, in part, for more histories than in `C123_direct_partial`: calls may be killed or fail at any moment, if this left no new data file. -/
theorem C123_direct_killed_partial (hL : DirectLoader unzip parse L) (hsha : OnlyPublished sha pub L) (he : AbsoluteHome e) (f : Files B) (hf : f (e.abs (L.path e L.target)) = none)
    (history : List (LoadCall B)) (hh : NothingLeft sha e L history f) (c : LoadCall B) (t : T) (h : (c.run sha e L (afterCalls sha e L history f)).1 = .ok t) : publishedTable pub L = some t :=
  (run_dir he (DirectLoader.ok hL) hsha c (afterCalls_nothingLeft he (DirectLoader.ok hL) hsha history f (.inl hf) hh)).1 t h

/-- C124 for the loaders that use the downloaded files as they are, in part, for the same histories. -/
theorem C124_direct_killed_partial (hL : DirectLoader unzip parse L) (hsha : OnlyPublished sha pub L) (he : AbsoluteHome e) (f : Files B) (hf : f (e.abs (L.path e L.target)) = none)
    (history : List (LoadCall B)) (hh : NothingLeft sha e L history f) (net : Net B) (hnet : Works pub L net) (t : T) (ht : publishedTable pub L = some t) :
    ∃ n, ∀ steps ≥ n, ((LoadCall.mk net true steps).run sha e L (afterCalls sha e L history f)).1 = .ok t :=
  run_of_total (fetch_dir_total he (DirectLoader.ok hL) hsha hnet) (readTable_dir_total he (DirectLoader.ok hL) ht)
    (afterCalls_nothingLeft he (DirectLoader.ok hL) hsha history f (.inl hf) hh)

/-- C124 for these loaders when the dataset was loaded once: then every later call with enough time returns it, whatever happened in between: any calls, killed at any moment, with any server or none. -/
theorem C124_direct_loaded (hL : DirectLoader unzip parse L) (hsha : OnlyPublished sha pub L) (he : AbsoluteHome e) (f : Files B) (hf : f (e.abs (L.path e L.target)) = none)
    (first : LoadCall B) (t : T) (h : (first.run sha e L f).1 = .ok t) (history : List (LoadCall B)) (net : Net B) :
    ∃ n, ∀ steps ≥ n, ∀ download, ((LoadCall.mk net download steps).run sha e L (afterCalls sha e L (first :: history) f)).1 = .ok t := by
  have hok := DirectLoader.ok hL
  have ht := (run_dir he hok hsha first (.inl hf)).1 t h
  have hall : AllPub e L pub (afterCalls sha e L (first :: history) f) := afterCalls_allPub he hok history _ (run_ok_allPub he hok hsha first (.inl hf) h)
  obtain ⟨k, t', f', rfl, hk⟩ := readTable_dir_total he hok ht _ hall
  refine ⟨k, fun steps hs download => ?_⟩
  obtain ⟨n, rfl⟩ := Nat.exists_eq_add_of_le hs
  unfold LoadCall.run load
  rw [bind_of_ok (fetch_allPub hok net download _ hall)]
  dsimp only
  rw [Nat.add_comm k n, hk n]

end

namespace FetchExample

def bankKillSum : String := "99d7e8eb12401ed278b793984423915411ea8df099e1795f9fefe254f513fe5e"

theorem bank_kill_only : OnlyPublished (sha bankKillSum) pub (bank some parse : Loader Nat Nat) := by
  intro a ha b
  cases List.mem_singleton.1 ha
  unfold sha pub
  dsimp only
  split_ifs with h
  · exact ⟨fun _ => h, fun _ => rfl⟩
  · exact ⟨fun h' => absurd h' (by decide), fun h' => absurd h' h⟩

/-- `load_bank`: a call killed before anything is written, one that loads, and one that is killed while it extracts the archive. -/
def killedHistory : List (LoadCall Nat) := [⟨fun _ => ([1, 2], true), true, 0⟩, ⟨fun _ => ([1, 2], true), true, 100⟩, ⟨fun _ => ([], true), true, 1⟩]

example : outcomes (sha bankKillSum) env (bank some parse : Loader Nat Nat) killedHistory (fun _ => none) = [.error .killed, .ok 7, .error .killed] := rfl

theorem killed_nothingLeft : NothingLeft (sha bankKillSum) env (bank some parse : Loader Nat Nat) killedHistory fun _ => none :=
  ⟨fun _ => rfl, fun h => (by rcases h with h | h | h <;> cases h), fun _ => rfl, trivial⟩

example : ∃ n, ∀ steps ≥ n, ((LoadCall.mk (fun _ => ([1, 2], true)) true steps).run (sha bankKillSum) env (bank some parse : Loader Nat Nat)
    (afterCalls (sha bankKillSum) env (bank some parse : Loader Nat Nat) killedHistory fun _ => none)).1 = .ok 7 :=
  C124_direct_killed_partial (unzip := some) (parse := parse) (by simp [DirectLoader]) bank_kill_only env_abs _ rfl killedHistory killed_nothingLeft _ (fun a _ => rfl) 7 (by decide)

example (history : List (LoadCall Nat)) (net : Net Nat) : ∃ n, ∀ steps ≥ n, ∀ download, ((LoadCall.mk net download steps).run (sha bankKillSum) env (bank some parse : Loader Nat Nat)
    (afterCalls (sha bankKillSum) env (bank some parse : Loader Nat Nat) (⟨fun _ => ([1, 2], true), true, 100⟩ :: history) fun _ => none)).1 = .ok 7 :=
  C124_direct_loaded (unzip := some) (parse := parse) (by simp [DirectLoader]) bank_kill_only env_abs _ rfl _ 7 rfl history net

end FetchExample

end Verif
