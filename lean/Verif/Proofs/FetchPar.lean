import Verif.Proofs.Fetch
import Verif.Model.FetchPar

/-! Processes that load datasets at the same time. -/
namespace Verif.Fetch

open Spec

section
variable {B T α β : Type}

/-- A process that runs alone, until it is killed. -/
def Prog.exec : Prog B α → Sys B α
  | .done r => fun d => (r, d)
  | .read p k => fun d => (k (d.1 p)).exec d
  | .write p v k => fun d => if d.2 = 0 then (.error .killed, d) else k.exec (d.1.set p (some v), d.2 - 1)
  | .remove p k => fun d => match d.1 p with
    | none => (.error .notFound, d)
    | some _ => if d.2 = 0 then (.error .killed, d) else k.exec (d.1.set p none, d.2 - 1)

theorem exec_write (p : Path) (v : List B) (k : Prog B α) (d : Files B × Nat) :
    (Prog.write p v k).exec d = if d.2 = 0 then (.error .killed, d) else k.exec (d.1.set p (some v), d.2 - 1) := rfl

theorem exec_remove (p : Path) (k : Prog B α) (d : Files B × Nat) :
    (Prog.remove p k).exec d = match d.1 p with
      | none => (.error .notFound, d)
      | some _ => if d.2 = 0 then (.error .killed, d) else k.exec (d.1.set p none, d.2 - 1) := rfl

theorem bind_state {m m' : Sys B α} {k : α → Sys B β} {d d' : Files B × Nat} (h : m d = m' d') : (m >>= k) d = (m' >>= k) d' := by
  change (match m d with | (.ok a, d') => k a d' | (.error e, d') => (.error e, d')) = (match m' d' with | (.ok a, d') => k a d' | (.error e, d') => (.error e, d'))
  rw [h]

theorem exec_bind (m : Prog B α) (k : α → Prog B β) : (m >>= k).exec = m.exec >>= fun a => (k a).exec := by
  change (m.bind k).exec = _
  funext d
  induction m generalizing d with
  | done r =>
    cases r with
    | ok a => rfl
    | error s => rfl
  | read p q ih => exact ih _ d
  | write p v q ih =>
    unfold Prog.bind
    rw [exec_write]
    by_cases h : d.2 = 0
    · rw [if_pos h]
      exact (bind_of_error (by rw [exec_write, if_pos h])).symm
    · rw [if_neg h, ih]
      exact (bind_state (by rw [exec_write, if_neg h])).symm
  | remove p q ih =>
    unfold Prog.bind
    rw [exec_remove]
    cases hp : d.1 p with
    | none => exact (bind_of_error (by rw [exec_remove, hp])).symm
    | some b =>
      dsimp only
      by_cases h : d.2 = 0
      · rw [if_pos h]
        exact (bind_of_error (by rw [exec_remove, hp]; dsimp only; rw [if_pos h])).symm
      · rw [if_neg h, ih]
        exact (bind_state (by rw [exec_remove, hp]; dsimp only; rw [if_neg h])).symm

theorem exec_pure (a : α) : (pure a : Prog B α).exec = pure a := rfl

theorem exec_ofOption (o : Option α) : (Prog.ofOption o : Prog B α).exec = Sys.ofOption o := by cases o <;> rfl

theorem exec_fileExists (p : Path) : (Prog.fileExists p : Prog B Bool).exec = Sys.fileExists p := rfl

theorem exec_readFile (p : Path) : (Prog.readFile p : Prog B (List B)).exec = Sys.readFile p := by
  funext d
  unfold Prog.readFile Prog.exec Prog.exec Sys.readFile
  cases d.1 p <;> rfl

theorem set_set (f : Files B) (p : Path) (a b : Option (List B)) : (f.set p a).set p b = f.set p b := by
  funext q
  unfold Files.set
  split_ifs <;> rfl

theorem exec_writeFrom (p : Path) (rest pre : List B) (d : Files B × Nat) : (Prog.writeFrom p pre rest).exec d =
    if d.2 = 0 then (.error .killed, d) else if d.2 ≤ rest.length then (.error .killed, (d.1.set p (some (pre ++ rest.take (d.2 - 1))), 0))
    else (.ok (), (d.1.set p (some (pre ++ rest)), d.2 - rest.length - 1)) := by
  induction rest generalizing pre d with
  | nil =>
    unfold Prog.writeFrom
    rw [exec_write]
    split_ifs with h1 h2
    · rfl
    · exact absurd h2 (by simpa using h1)
    · simp [Prog.exec]
  | cons b rest ih =>
    unfold Prog.writeFrom
    rw [exec_write]
    obtain ⟨f, n⟩ := d
    cases n with
    | zero => rfl
    | succ n =>
      rw [if_neg (by simp), if_neg (by simp), ih]
      dsimp only
      rw [Nat.add_sub_cancel]
      cases n with
      | zero => simp
      | succ n =>
        rw [if_neg (by simp), set_set, set_set]
        simp only [List.length_cons, Nat.add_le_add_iff_right, Nat.add_sub_cancel, List.take_succ_cons, List.append_assoc, List.singleton_append]
        split_ifs
        · rfl
        · congr 2
          omega

theorem exec_writeFile (p : Path) (c : List B) : (Prog.writeFile p c).exec = Sys.writeFile p c := by
  funext d
  exact exec_writeFrom p c [] d

theorem exec_removeFile (p : Path) : (Prog.removeFile p : Prog B Unit).exec = Sys.removeFile p := by
  funext d
  unfold Prog.removeFile Sys.removeFile
  rw [exec_remove]
  cases d.1 p <;> rfl

theorem exec_fetchRemote (sha : List B → String) (net : Net B) (a : Archive) (p : Path) : (fetchRemoteP sha net a p).exec = fetchRemote sha net a p := by
  unfold fetchRemoteP fetchRemote
  rw [exec_bind, exec_writeFile]
  funext d
  rcases hw : Sys.writeFile p (net a.url).1 d with ⟨r, d'⟩
  cases r with
  | error s => rw [bind_of_error hw, bind_of_error hw]
  | ok u =>
    rw [bind_of_ok hw, bind_of_ok hw]
    have hd : d'.1 p = some (net a.url).1 := by
      unfold Sys.writeFile at hw
      split_ifs at hw
      · cases (Prod.mk.inj hw).1
      · cases (Prod.mk.inj hw).1
      · rw [← (Prod.mk.inj hw).2]
        exact set_same ..
    split_ifs with h1 h2
    · rw [exec_bind, exec_readFile, bind_of_ok (readFile_eq hd), if_pos h2]
      rfl
    · rw [exec_bind, exec_readFile, bind_of_ok (readFile_eq hd), if_neg h2]
      rfl
    · rfl

theorem exec_fetchAll (sha : List B → String) (net : Net B) (path : Path → Path) (l : List Archive) : (fetchAllP sha net path l).exec = fetchAll sha net path l := by
  induction l with
  | nil => rfl
  | cons a l ih =>
    unfold fetchAllP fetchAll
    rw [exec_bind, exec_fetchRemote, ih]

theorem exec_readAll (path : Path → Path) (l : List Archive) : (readAllP path l : Prog B _).exec = readAll path l := by
  induction l with
  | nil => rfl
  | cons a l ih =>
    unfold readAllP readAll
    rw [exec_bind, exec_readFile]
    congr 1
    funext b
    rw [exec_bind, ih]
    rfl

theorem exec_removeAll (path : Path → Path) (l : List Archive) : (removeAllP path l : Prog B _).exec = removeAll path l := by
  induction l with
  | nil => rfl
  | cons a l ih =>
    unfold removeAllP removeAll
    rw [exec_bind, exec_removeFile, ih]

theorem exec_fetch (sha : List B → String) (e : Env) (L : Loader B T) (net : Net B) (dl : Bool) : (fetchP sha e L net dl).exec = fetch sha e L net dl := by
  unfold fetchP fetch
  rw [exec_bind, exec_fileExists]
  congr 1
  funext present
  split
  · rw [exec_bind, exec_fetchAll]
    congr 1
    funext _
    cases L.convert with
    | none => rfl
    | some conv =>
      dsimp only
      rw [exec_bind, exec_readAll]
      congr 1
      funext bs
      rw [exec_bind, exec_ofOption]
      congr 1
      funext c
      rw [exec_bind, exec_writeFile, exec_removeAll]
  · rfl

theorem exec_readTable (e : Env) (L : Loader B T) : (readTableP e L).exec = readTable e L := by
  unfold readTableP readTable
  cases L.reader with
  | csv => simp only [exec_bind, exec_readFile, exec_ofOption]
  | peek => simp only [exec_bind, exec_readFile, exec_ofOption]
  | direct => simp only [exec_bind, exec_readAll, exec_ofOption]
  | zip m => simp only [exec_bind, exec_readFile, exec_ofOption, exec_writeFile, exec_removeFile, exec_pure]

theorem exec_load (sha : List B → String) (e : Env) (L : Loader B T) (net : Net B) (dl : Bool) : (loadP sha e L net dl).exec = load sha e L net dl := by
  unfold loadP load
  rw [exec_bind, exec_fetch, exec_readTable]

/-! ### Processes that only read -/

/-- With the files `f`, the process reads some of them and returns `t`. -/
inductive ReadsTo (f : Files B) (t : α) : Prog B α → Prop
  | done : ReadsTo f t (.done (.ok t))
  | read {p : Path} {k : Option (List B) → Prog B α} : ReadsTo f t (k (f p)) → ReadsTo f t (.read p k)

theorem ReadsTo.bind {f : Files B} {a : α} {t : β} {m : Prog B α} {k : α → Prog B β} (h : ReadsTo f a m) (h' : ReadsTo f t (k a)) : ReadsTo f t (m >>= k) := by
  change ReadsTo f t (m.bind k)
  induction h with
  | done => exact h'
  | read _ ih => exact .read ih

theorem ReadsTo.step {f : Files B} {t : α} {q : Prog B α} (h : ReadsTo f t q) : (q.step f).1 = f ∧ ReadsTo f t (q.step f).2 := by
  cases h with
  | done => exact ⟨rfl, .done⟩
  | read h => exact ⟨rfl, h⟩

theorem readsTo_readFile {f : Files B} {p : Path} {b : List B} (h : f p = some b) : ReadsTo f b (Prog.readFile p) := by
  refine .read ?_
  rw [h]
  exact .done

theorem readsTo_ofOption {f : Files B} {o : Option α} {a : α} (h : o = some a) : ReadsTo f a (Prog.ofOption o) := by
  subst h
  exact .done

theorem readsTo_readAll {f : Files B} {path : Path → Path} {pub : String → List B} (l : List Archive) (h : ∀ a ∈ l, f (path a.filename) = some (pub a.url)) :
    ReadsTo f (l.map fun a => pub a.url) (readAllP path l) := by
  induction l with
  | nil => exact .done
  | cons a l ih =>
    unfold readAllP
    exact (readsTo_readFile (h a (by simp))).bind ((ih fun x hx => h x (by simp [hx])).bind .done)

theorem readsTo_fetch {sha : List B → String} {e : Env} {L : Loader B T} (net : Net B) (dl : Bool) {f : Files B} (h : f (e.abs (L.path e L.target)) ≠ none) :
    ReadsTo f () (fetchP sha e L net dl) := by
  obtain ⟨b, hb⟩ := Option.ne_none_iff_exists'.1 h
  unfold fetchP
  refine ReadsTo.bind (a := true) (.read (by rw [hb]; exact .done)) ?_
  rw [if_neg (by simp)]
  exact .done

theorem interleave_readers {f : Files B} {t : α} (schedule : List Nat) (ps : List (Prog B α)) (h : ∀ q ∈ ps, ReadsTo f t q) :
    (interleave schedule (f, ps)).1 = f ∧ ∀ q ∈ (interleave schedule (f, ps)).2, ReadsTo f t q := by
  induction schedule generalizing ps with
  | nil => exact ⟨rfl, h⟩
  | cons i l ih =>
    unfold interleave
    cases hq : ps[i]? with
    | none => exact ih ps h
    | some q =>
      dsimp only
      have hs := (h q (List.mem_of_getElem? hq)).step
      rw [hs.1]
      refine ih _ fun x hx => ?_
      rcases List.mem_or_eq_of_mem_set hx with hx | rfl
      · exact h x hx
      · exact hs.2

/-- As `ReadsTo`, with at most `n` accesses to the disk. -/
inductive ReadsIn (f : Files B) (t : α) : Nat → Prog B α → Prop
  | done {n : Nat} : ReadsIn f t n (.done (.ok t))
  | read {n : Nat} {p : Path} {k : Option (List B) → Prog B α} : ReadsIn f t n (k (f p)) → ReadsIn f t (n + 1) (.read p k)

theorem ReadsIn.mono {f : Files B} {t : α} {n m : Nat} {q : Prog B α} (h : ReadsIn f t n q) (hm : n ≤ m) : ReadsIn f t m q := by
  induction h generalizing m with
  | done => exact .done
  | read _ ih =>
    obtain ⟨m, rfl⟩ := Nat.exists_eq_add_of_le hm
    rw [Nat.add_right_comm]
    exact .read (ih (Nat.le_add_right ..))

theorem ReadsTo.readsIn {f : Files B} {t : α} {q : Prog B α} (h : ReadsTo f t q) : ∃ n, ReadsIn f t n q := by
  induction h with
  | done => exact ⟨0, .done⟩
  | read _ ih => exact ⟨_, .read ih.choose_spec⟩

theorem exists_bound {f : Files B} {t : α} (ps : List (Prog B α)) (h : ∀ q ∈ ps, ReadsTo f t q) : ∃ n, ∀ q ∈ ps, ReadsIn f t n q := by
  induction ps with
  | nil => exact ⟨0, by simp⟩
  | cons q l ih =>
    obtain ⟨n, hn⟩ := ih fun x hx => h x (by simp [hx])
    obtain ⟨m, hm⟩ := (h q (by simp)).readsIn
    refine ⟨max n m, fun x hx => ?_⟩
    rcases List.mem_cons.1 hx with rfl | hx
    · exact hm.mono (Nat.le_max_right ..)
    · exact (hn x hx).mono (Nat.le_max_left ..)

theorem ReadsIn.step {f : Files B} {t : α} {n : Nat} {q : Prog B α} (h : ReadsIn f t n q) : (q.step f).1 = f ∧ ReadsIn f t (n - 1) (q.step f).2 := by
  cases h with
  | done => exact ⟨rfl, .done⟩
  | read h => exact ⟨rfl, h⟩

theorem ReadsIn.zero {f : Files B} {t : α} {q : Prog B α} (h : ReadsIn f t 0 q) : q = .done (.ok t) := by
  cases h
  rfl

theorem interleave_readsIn {f : Files B} {t : α} (schedule : List Nat) (ps : List (Prog B α)) (m : Nat → Nat) (h : ∀ i q, ps[i]? = some q → ReadsIn f t (m i) q) :
    (interleave schedule (f, ps)).1 = f ∧ (interleave schedule (f, ps)).2.length = ps.length ∧
      ∀ i q, (interleave schedule (f, ps)).2[i]? = some q → ReadsIn f t (m i - schedule.count i) q := by
  induction schedule generalizing ps m with
  | nil => exact ⟨rfl, rfl, h⟩
  | cons j l ih =>
    unfold interleave
    cases hq : ps[j]? with
    | none =>
      obtain ⟨h1, h2, h3⟩ := ih ps m h
      refine ⟨h1, h2, fun i q hi => ?_⟩
      have hne : j ≠ i := by
        rintro rfl
        have : j < (interleave l (f, ps)).2.length := (List.getElem?_eq_some_iff.1 hi).1
        rw [h2] at this
        exact absurd hq (by rw [List.getElem?_eq_getElem this]; exact fun h => by cases h)
      rw [List.count_cons_of_ne hne]
      exact h3 i q hi
    | some q =>
      dsimp only
      have hs := (h j q hq).step
      rw [hs.1]
      have := ih (ps.set j (q.step f).2) (fun i => if i = j then m i - 1 else m i) (fun i x hx => by
        by_cases hij : i = j
        · subst hij
          rw [List.getElem?_set_self (List.getElem?_eq_some_iff.1 hq).1] at hx
          cases hx
          rw [if_pos rfl]
          exact hs.2
        · rw [List.getElem?_set_ne (Ne.symm hij)] at hx
          rw [if_neg hij]
          exact h i x hx)
      refine ⟨this.1, this.2.1.trans (by simp), fun i x hx => ?_⟩
      have hr := this.2.2 i x hx
      by_cases hij : i = j
      · subst hij
        rw [if_pos rfl] at hr
        rw [List.count_cons_self]
        rwa [show m i - (l.count i + 1) = m i - 1 - l.count i by omega]
      · rw [if_neg hij] at hr
        rwa [List.count_cons_of_ne (Ne.symm hij)]

theorem interleave_readers_end {f : Files B} {t : α} (ps : List (Prog B α)) (h : ∀ q ∈ ps, ReadsTo f t q) :
    ∃ n, ∀ schedule : List Nat, (∀ i < ps.length, n ≤ schedule.count i) → interleave schedule (f, ps) = (f, ps.map fun _ => .done (.ok t)) := by
  obtain ⟨n, hn⟩ := exists_bound ps h
  refine ⟨n, fun schedule hs => ?_⟩
  obtain ⟨h1, h2, h3⟩ := interleave_readsIn schedule ps (fun _ => n) fun i q hq => hn q (List.mem_of_getElem? hq)
  refine Prod.ext h1 (List.ext_getElem? fun i => ?_)
  by_cases hi : i < ps.length
  · have hi' : i < (interleave schedule (f, ps)).2.length := by rw [h2]; exact hi
    have := h3 i _ (List.getElem?_eq_getElem hi')
    rw [Nat.sub_eq_zero_of_le (hs i hi)] at this
    rw [List.getElem?_eq_getElem hi', this.zero]
    simp [hi]
  · rw [List.getElem?_eq_none (by rw [h2]; omega), List.getElem?_eq_none (by simp; omega)]

theorem readsTo_load_conv {sha : List B → String} {e : Env} (he : AbsoluteHome e) {conv : List (List B) → Option (List B)} {L : Loader B T} (hL : ConvOK conv L) (net : Net B) (dl : Bool)
    {f : Files B} {b : List B} (hb : f (e.abs (L.path e L.target)) = some b) {t : T} (ht : L.parse [b] = some t) : ReadsTo f t (loadP sha e L net dl) := by
  have hb' : f (e.csvPath (L.path e L.target)) = some b := by rwa [csvPath_abs he L]
  unfold loadP
  refine (readsTo_fetch net dl (by rw [hb]; exact fun h => by cases h)).bind ?_
  have key : ReadsTo f t (do let b ← Prog.readFile (e.csvPath (L.path e L.target)); Prog.ofOption (L.parse [b])) := (readsTo_readFile hb').bind (readsTo_ofOption ht)
  unfold readTableP
  rcases hL.reader with h | h <;> rw [h]
  · exact key
  · exact (readsTo_readFile hb).bind ((readsTo_ofOption ht).bind key)

theorem readsTo_load_dir {sha : List B → String} {e : Env} (he : AbsoluteHome e) {L : Loader B T} (hL : DirOK L) (hz : ∀ m, L.reader ≠ .zip m) {pub : String → List B} (net : Net B) (dl : Bool)
    {f : Files B} (hf : AllPub e L pub f) {t : T} (ht : publishedTable pub L = some t) : ReadsTo f t (loadP sha e L net dl) := by
  obtain ⟨a, l, ha, hb⟩ := hL.target hf
  unfold loadP
  refine (readsTo_fetch net dl (by rw [hb]; exact fun h => by cases h)).bind ?_
  unfold readTableP
  rcases hL.reader with ⟨h, a', ha'⟩ | h | ⟨m, h, -⟩
  · rw [h]
    rw [ha] at ha'
    cases ha'
    refine (readsTo_readFile (by rwa [csvPath_abs he L])).bind (readsTo_ofOption ?_)
    simpa [publishedTable, hL.convert, h, ha] using ht
  · rw [h]
    refine (readsTo_readAll (path := fun n => e.abs (L.path e n)) L.archives hf).bind (readsTo_ofOption ?_)
    simpa [publishedTable, hL.convert, h] using ht
  · exact absurd h (hz m)

theorem ReadsTo.exec {f : Files B} {t : α} {q : Prog B α} (h : ReadsTo f t q) (n : Nat) : q.exec (f, n) = (.ok t, (f, n)) := by
  induction h with
  | done => rfl
  | read _ ih => exact ih

theorem run_of_readable {sha : List B → String} {e : Env} (he : AbsoluteHome e) {conv : List (List B) → Option (List B)} {L : Loader B T} (hL : ConvOK conv L) (c : LoadCall B) {f : Files B} {b : List B}
    (hb : f (e.abs (L.path e L.target)) = some b) {t : T} (hp : L.parse [b] = some t) : c.run sha e L f = (.ok t, f) := by
  unfold LoadCall.run
  rw [← exec_load, (readsTo_load_conv he hL c.net c.download hb hp).exec]

theorem outcomes_of_readable {sha : List B → String} {e : Env} (he : AbsoluteHome e) {conv : List (List B) → Option (List B)} {L : Loader B T} (hL : ConvOK conv L) {f : Files B} {b : List B}
    (hb : f (e.abs (L.path e L.target)) = some b) {t : T} (hp : L.parse [b] = some t) (l : List (LoadCall B)) : ∀ o ∈ outcomes sha e L l f, o = .ok t := by
  induction l with
  | nil => simp [outcomes]
  | cons c l ih =>
    intro o ho
    unfold outcomes at ho
    rw [run_of_readable he hL c hb hp] at ho
    rcases List.mem_cons.1 ho with rfl | ho
    · rfl
    · exact ih o ho

theorem interleave_done (m : Nat) (f : Files B) (r : Except Stop α) : interleave (List.replicate m 0) (f, [.done r]) = (f, [.done r]) := by
  induction m with
  | zero => rfl
  | succ m ih => exact ih

theorem interleave_alone (q : Prog B α) (d : Files B × Nat) :
    ((q.exec d).1 ≠ .error .killed → ∃ n, ∀ m ≥ n, interleave (List.replicate m 0) (d.1, [q]) = ((q.exec d).2.1, [.done (q.exec d).1])) ∧
      ∃ m, (interleave (List.replicate m 0) (d.1, [q])).1 = (q.exec d).2.1 := by
  induction q generalizing d with
  | done r => exact ⟨fun _ => ⟨0, fun m _ => interleave_done m d.1 r⟩, 0, rfl⟩
  | read p k ih =>
    obtain ⟨h1, m, h2⟩ := ih (d.1 p) d
    refine ⟨fun h => ?_, m + 1, h2⟩
    obtain ⟨n, hn⟩ := h1 h
    refine ⟨n + 1, fun m hm => ?_⟩
    obtain ⟨m, rfl⟩ : ∃ j, m = j + 1 := ⟨m - 1, by omega⟩
    exact hn m (by omega)
  | write p v k ih =>
    rw [exec_write]
    split_ifs with h0
    · exact ⟨fun h => absurd rfl h, 0, rfl⟩
    · obtain ⟨h1, m, h2⟩ := ih (d.1.set p (some v), d.2 - 1)
      refine ⟨fun h => ?_, m + 1, h2⟩
      obtain ⟨n, hn⟩ := h1 h
      refine ⟨n + 1, fun m hm => ?_⟩
      obtain ⟨m, rfl⟩ : ∃ j, m = j + 1 := ⟨m - 1, by omega⟩
      exact hn m (by omega)
  | remove p k ih =>
    rw [exec_remove]
    cases hp : d.1 p with
    | none =>
      have hs : ∀ m, interleave (List.replicate (m + 1) 0) (d.1, [Prog.remove p k]) = (d.1, [.done (.error .notFound)]) := by
        intro m
        rw [List.replicate_succ, interleave]
        simp only [List.getElem?_cons_zero, Prog.step, hp, List.set_cons_zero]
        exact interleave_done m _ _
      refine ⟨fun _ => ⟨1, fun m hm => ?_⟩, 1, by rw [hs 0]⟩
      obtain ⟨m, rfl⟩ : ∃ j, m = j + 1 := ⟨m - 1, by omega⟩
      exact hs m
    | some b =>
      have hs : ∀ m, interleave (List.replicate (m + 1) 0) (d.1, [Prog.remove p k]) = interleave (List.replicate m 0) (d.1.set p none, [k]) := by
        intro m
        rw [List.replicate_succ, interleave]
        simp only [List.getElem?_cons_zero, Prog.step, hp, List.set_cons_zero]
      dsimp only
      split_ifs with h0
      · exact ⟨fun h => absurd rfl h, 0, rfl⟩
      · obtain ⟨h1, m, h2⟩ := ih (d.1.set p none, d.2 - 1)
        refine ⟨fun h => ?_, m + 1, by rw [hs]; exact h2⟩
        obtain ⟨n, hn⟩ := h1 h
        refine ⟨n + 1, fun m hm => ?_⟩
        obtain ⟨m, rfl⟩ : ∃ j, m = j + 1 := ⟨m - 1, by omega⟩
        rw [hs]
        exact hn m (by omega)

end

end Verif.Fetch
