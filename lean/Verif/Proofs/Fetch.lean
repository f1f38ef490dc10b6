import Verif.Spec.Fetch
import Mathlib.Data.List.Nodup
import Mathlib.Data.List.Basic
import Mathlib.Tactic.Common

/-! Downloading datasets. -/
set_option linter.unusedSectionVars false
namespace Verif.Fetch

open Spec

section
variable {B T α β : Type}

/-! ### Partial and total correctness -/

/-- If `P` holds before, then `Q` holds after a normal end and `E` after an exception or when the process is killed. -/
def Triple (P : Files B → Prop) (m : Sys B α) (Q : α → Files B → Prop) (E : Stop → Files B → Prop) : Prop :=
  ∀ d, P d.1 → match m d with
    | (.ok a, d') => Q a d'.1
    | (.error s, d') => E s d'.1

theorem Triple.bind {P : Files B → Prop} {m : Sys B α} {Q : α → Files B → Prop} {k : α → Sys B β} {R : β → Files B → Prop} {E : Stop → Files B → Prop}
    (h1 : Triple P m Q E) (h2 : ∀ a, Triple (Q a) (k a) R E) : Triple P (m >>= k) R E := by
  intro d hd
  have := h1 d hd
  change match (match m d with | (.ok a, d') => k a d' | (.error e, d') => (.error e, d')) with | (.ok a, d') => R a d'.1 | (.error s, d') => E s d'.1
  rcases hm : m d with ⟨r, d'⟩
  rw [hm] at this
  cases r with
  | ok a => exact h2 a d' this
  | error s => exact this

theorem Triple.pure {P : Files B → Prop} {a : α} {Q : α → Files B → Prop} {E : Stop → Files B → Prop} (h : ∀ f, P f → Q a f) : Triple P (pure a) Q E := fun d hd => h d.1 hd

theorem Triple.raise {P : Files B → Prop} {s : Stop} {Q : α → Files B → Prop} {E : Stop → Files B → Prop} (h : ∀ f, P f → E s f) : Triple P (Sys.raise s) Q E := fun d hd => h d.1 hd

theorem Triple.pre {P P' : Files B → Prop} {m : Sys B α} {Q : α → Files B → Prop} {E : Stop → Files B → Prop} (h : Triple P' m Q E) (hp : ∀ f, P f → P' f) : Triple P m Q E :=
  fun d hd => h d (hp _ hd)

theorem Triple.post {P : Files B → Prop} {m : Sys B α} {Q Q' : α → Files B → Prop} {E E' : Stop → Files B → Prop} (h : Triple P m Q E) (hq : ∀ a f, Q a f → Q' a f)
    (he : ∀ s f, E s f → E' s f) : Triple P m Q' E' := by
  intro d hd
  have := h d hd
  rcases hm : m d with ⟨r, d'⟩
  rw [hm] at this
  cases r with
  | ok a => exact hq _ _ this
  | error s => exact he _ _ this

theorem Triple.write {P : Files B → Prop} {p : Path} {c : List B} {Q : Unit → Files B → Prop} {E : Stop → Files B → Prop} (hq : ∀ f, P f → Q () (f.set p (some c)))
    (h0 : ∀ f, P f → E .killed f) (hk : ∀ f k, P f → E .killed (f.set p (some (c.take k)))) : Triple P (Sys.writeFile p c) Q E := by
  intro d hd
  unfold Sys.writeFile
  split_ifs
  · exact h0 _ hd
  · exact hk _ _ hd
  · exact hq _ hd

theorem Triple.read {P : Files B → Prop} {p : Path} {Q : List B → Files B → Prop} {E : Stop → Files B → Prop} (hq : ∀ f b, P f → f p = some b → Q b f)
    (h0 : ∀ f, P f → f p = none → E .notFound f) : Triple P (Sys.readFile p) Q E := by
  intro d hd
  unfold Sys.readFile
  cases h : d.1 p with
  | none => exact h0 _ hd h
  | some b => exact hq _ _ hd h

theorem Triple.remove {P : Files B → Prop} {p : Path} {Q : Unit → Files B → Prop} {E : Stop → Files B → Prop} (hq : ∀ f, P f → Q () (f.set p none))
    (h0 : ∀ f s, P f → E s f) : Triple P (Sys.removeFile p) Q E := by
  intro d hd
  unfold Sys.removeFile
  cases h : d.1 p with
  | none => exact h0 _ _ hd
  | some b =>
    dsimp only
    split_ifs
    · exact h0 _ _ hd
    · exact hq _ hd

theorem Triple.ofOption {P : Files B → Prop} {o : Option α} {Q : α → Files B → Prop} {E : Stop → Files B → Prop} (hq : ∀ f a, P f → o = some a → Q a f)
    (h0 : ∀ f, P f → E .format f) : Triple P (Sys.ofOption o) Q E := by
  cases o with
  | none => exact Triple.raise h0
  | some a => exact Triple.pure fun f hf => hq f a hf rfl

/-- `m` ends normally, after `k` steps, in a state where `Q` holds. -/
def Total (P : Files B → Prop) (m : Sys B α) (Q : α → Files B → Prop) : Prop := ∀ f, P f → ∃ k a f', Q a f' ∧ ∀ n, m (f, n + k) = (.ok a, (f', n))

theorem Total.bind {P : Files B → Prop} {m : Sys B α} {Q : α → Files B → Prop} {k : α → Sys B β} {R : β → Files B → Prop}
    (h1 : Total P m Q) (h2 : ∀ a, Total (Q a) (k a) R) : Total P (m >>= k) R := by
  intro f hf
  obtain ⟨k1, a, f1, q1, e1⟩ := h1 f hf
  obtain ⟨k2, b, f2, q2, e2⟩ := h2 a f1 q1
  refine ⟨k2 + k1, b, f2, q2, fun n => ?_⟩
  change (match m (f, n + (k2 + k1)) with | (.ok a, d') => k a d' | (.error e, d') => (.error e, d')) = _
  rw [← Nat.add_assoc, e1, ← e2]

theorem Total.pure {P : Files B → Prop} {a : α} {Q : α → Files B → Prop} (h : ∀ f, P f → Q a f) : Total P (pure a) Q := fun f hf => ⟨0, a, f, h f hf, fun _ => rfl⟩

theorem Total.pre {P P' : Files B → Prop} {m : Sys B α} {Q : α → Files B → Prop} (h : Total P' m Q) (hp : ∀ f, P f → P' f) : Total P m Q := fun f hf => h f (hp f hf)

theorem Total.write {P : Files B → Prop} {p : Path} {c : List B} {Q : Unit → Files B → Prop} (hq : ∀ f, P f → Q () (f.set p (some c))) : Total P (Sys.writeFile p c) Q := by
  refine fun f hf => ⟨c.length + 1, (), _, hq f hf, fun n => ?_⟩
  unfold Sys.writeFile
  rw [if_neg (by simp), if_neg (by simp; omega), show n + (c.length + 1) - c.length - 1 = n by omega]

theorem Total.read {P : Files B → Prop} {p : Path} {b : List B} {Q : List B → Files B → Prop} (hb : ∀ f, P f → f p = some b) (hq : ∀ f, P f → Q b f) : Total P (Sys.readFile p) Q := by
  refine fun f hf => ⟨0, b, f, hq f hf, fun n => ?_⟩
  unfold Sys.readFile
  simp [hb f hf]

theorem Total.remove {P : Files B → Prop} {p : Path} {Q : Unit → Files B → Prop} (hb : ∀ f, P f → f p ≠ none) (hq : ∀ f, P f → Q () (f.set p none)) : Total P (Sys.removeFile p) Q := by
  refine fun f hf => ⟨1, (), _, hq f hf, fun n => ?_⟩
  unfold Sys.removeFile
  obtain ⟨b, h⟩ := Option.ne_none_iff_exists'.1 (hb f hf)
  simp [h]

theorem Total.ofOption {P : Files B → Prop} {o : Option α} {a : α} {Q : α → Files B → Prop} (ho : o = some a) (hq : ∀ f, P f → Q a f) : Total P (Sys.ofOption o) Q := by
  subst ho
  exact Total.pure hq

theorem set_same (f : Files B) (p : Path) (v : Option (List B)) : f.set p v p = v := by simp [Files.set]

theorem set_other (f : Files B) {p q : Path} (h : q ≠ p) (v : Option (List B)) : f.set p v q = f q := by simp [Files.set, h]

/-! ### Paths -/

theorem join_abs {a : Path} (h : a.head? = some '/') (b : Path) : (join a b).head? = some '/' := by
  unfold join
  split_ifs with h1 h2
  · exact h1
  · cases a with
    | nil => cases h
    | cons x l => exact h
  · cases a with
    | nil => cases h
    | cons x l => exact h

theorem join_inj {a x y : Path} (hx : x.head? ≠ some '/') (hy : y.head? ≠ some '/') (h : join a x = join a y) : x = y := by
  unfold join at h
  rw [if_neg hx, if_neg hy] at h
  split_ifs at h
  · exact List.append_cancel_left h
  · exact (List.cons.inj (List.append_cancel_left h)).2

/-- The file names of a loader are relative, and different. -/
structure NamesOK (L : Loader B T) : Prop where
  target : L.target.head? ≠ some '/'
  names : ∀ a ∈ L.archives, a.filename.head? ≠ some '/'
  nodup : (L.archives.map Archive.filename).Nodup

theorem path_abs {e : Env} (he : AbsoluteHome e) (L : Loader B T) (n : Path) : e.abs (L.path e n) = L.path e n ∧ e.csvPath (L.path e n) = L.path e n := by
  have h : (L.path e n).head? = some '/' := join_abs (join_abs he _) _
  refine ⟨by unfold Env.abs; rw [if_pos h], ?_⟩
  unfold Env.csvPath Env.abs
  have : join (join e.modulePath "data".toList) (L.path e n) = L.path e n := by rw [join, if_pos h]
  rw [this, if_pos h]

theorem csvPath_abs {e : Env} (he : AbsoluteHome e) (L : Loader B T) (n : Path) : e.csvPath (L.path e n) = e.abs (L.path e n) := (path_abs he L n).2.trans (path_abs he L n).1.symm

/-! ### Downloads -/

/-- Exceptions of `_fetch_remote`. -/
def Stop.ofDownload (s : Stop) : Prop := s = .killed ∨ s = .network ∨ s = .checksum

theorem fetchAll_triple {sha : List B → String} {net : Net B} {path : Path → Path} {pub : String → List B} {I : Files B → Prop} (l : List Archive) (done : List Archive)
    (hsha : ∀ a ∈ l, ∀ b, sha b = a.checksum ↔ b = pub a.url) (hinj : ((done ++ l).map fun a => path a.filename).Nodup)
    (hI : ∀ f v, ∀ a ∈ l, I f → I (f.set (path a.filename) v)) :
    Triple (fun f => I f ∧ ∀ a ∈ done, f (path a.filename) = some (pub a.url)) (fetchAll sha net path l)
      (fun _ f => I f ∧ ∀ a ∈ done ++ l, f (path a.filename) = some (pub a.url)) (fun s f => I f ∧ s.ofDownload) := by
  induction l generalizing done with
  | nil => exact Triple.pure fun f hf => by simpa using hf
  | cons a l ih =>
    have hne : ∀ x ∈ done, path x.filename ≠ path a.filename := by
      intro x hx h
      rw [List.map_append, List.nodup_append] at hinj
      exact hinj.2.2 _ (List.mem_map_of_mem hx) _ (List.mem_map_of_mem (f := fun a => path a.filename) (List.mem_cons_self (a := a) (l := l))) h
    unfold fetchAll
    refine Triple.bind (Q := fun _ f => I f ∧ ∀ x ∈ done ++ [a], f (path x.filename) = some (pub x.url)) ?_ fun _ => ?_
    · unfold fetchRemote
      refine Triple.bind (Q := fun _ f => I f ∧ (∀ x ∈ done, f (path x.filename) = some (pub x.url)) ∧ f (path a.filename) = some (net a.url).1) (Triple.write ?_ ?_ ?_) fun _ => ?_
      · exact fun f hf => ⟨hI f _ a (by simp) hf.1, fun x hx => by rw [set_other _ (hne x hx)]; exact hf.2 x hx, set_same ..⟩
      · exact fun f hf => ⟨hf.1, Or.inl rfl⟩
      · exact fun f k hf => ⟨hI f _ a (by simp) hf.1, Or.inl rfl⟩
      · split_ifs with h1 h2
        · refine Triple.pure fun f hf => ⟨hf.1, fun x hx => ?_⟩
          rcases List.mem_append.1 hx with hx | hx
          · exact hf.2.1 x hx
          · cases List.mem_singleton.1 hx
            rw [hf.2.2, (hsha a (by simp) _).1 h2]
        · exact Triple.raise fun f hf => ⟨hf.1, Or.inr (Or.inr rfl)⟩
        · exact Triple.raise fun f hf => ⟨hf.1, Or.inr (Or.inl rfl)⟩
    · have := ih (done ++ [a]) (fun x hx => hsha x (by simp [hx])) (by simpa using hinj) (fun f v x hx => hI f v x (by simp [hx]))
      refine this.post (fun _ f hf => ?_) fun _ _ h => h
      simpa using hf

theorem fetchAll_total {sha : List B → String} {net : Net B} {path : Path → Path} {pub : String → List B} (l : List Archive) (done : List Archive)
    (hsha : ∀ a ∈ l, ∀ b, sha b = a.checksum ↔ b = pub a.url) (hnet : ∀ a ∈ l, net a.url = (pub a.url, true)) (hinj : ((done ++ l).map fun a => path a.filename).Nodup) :
    Total (fun f => ∀ a ∈ done, f (path a.filename) = some (pub a.url)) (fetchAll sha net path l) (fun _ f => ∀ a ∈ done ++ l, f (path a.filename) = some (pub a.url)) := by
  induction l generalizing done with
  | nil => exact Total.pure fun f hf => by simpa using hf
  | cons a l ih =>
    have hne : ∀ x ∈ done, path x.filename ≠ path a.filename := by
      intro x hx h
      rw [List.map_append, List.nodup_append] at hinj
      exact hinj.2.2 _ (List.mem_map_of_mem hx) _ (List.mem_map_of_mem (f := fun a => path a.filename) (List.mem_cons_self (a := a) (l := l))) h
    unfold fetchAll
    refine Total.bind (Q := fun _ f => ∀ x ∈ done ++ [a], f (path x.filename) = some (pub x.url)) ?_ fun _ => ?_
    · unfold fetchRemote
      rw [hnet a (by simp), if_pos rfl, if_pos ((hsha a (by simp) _).2 rfl)]
      refine Total.bind (Total.write (Q := fun _ f => ∀ x ∈ done ++ [a], f (path x.filename) = some (pub x.url)) fun f hf x hx => ?_) fun _ => Total.pure fun f hf => hf
      rcases List.mem_append.1 hx with hx | hx
      · rw [set_other _ (hne x hx)]; exact hf x hx
      · cases List.mem_singleton.1 hx
        exact set_same ..
    · have := ih (done ++ [a]) (fun x hx => hsha x (by simp [hx])) (fun x hx => hnet x (by simp [hx])) (by simpa using hinj)
      intro f hf
      obtain ⟨k, u, f', q, h⟩ := this f hf
      exact ⟨k, u, f', by simpa using q, h⟩

theorem bind_of_ok {m : Sys B α} {k : α → Sys B β} {d d' : Files B × Nat} {a : α} (h : m d = (.ok a, d')) : (m >>= k) d = k a d' := by
  change (match m d with | (.ok a, d') => k a d' | (.error e, d') => (.error e, d')) = _
  rw [h]

theorem bind_of_error {m : Sys B α} {k : α → Sys B β} {d d' : Files B × Nat} {s : Stop} (h : m d = (.error s, d')) : (m >>= k) d = (.error s, d') := by
  change (match m d with | (.ok a, d') => k a d' | (.error e, d') => (.error e, d')) = _
  rw [h]

theorem readFile_eq {p : Path} {b : List B} {d : Files B × Nat} (h : d.1 p = some b) : Sys.readFile p d = (.ok b, d) := by
  unfold Sys.readFile
  rw [h]

theorem readAll_eq {path : Path → Path} {pub : String → List B} (l : List Archive) {d : Files B × Nat} (hd : ∀ a ∈ l, d.1 (path a.filename) = some (pub a.url)) :
    readAll path l d = (.ok (l.map fun a => pub a.url), d) := by
  induction l with
  | nil => rfl
  | cons a l ih =>
    unfold readAll
    rw [bind_of_ok (readFile_eq (hd a (by simp))), bind_of_ok (ih fun x hx => hd x (by simp [hx]))]
    rfl

theorem readAll_triple {path : Path → Path} {pub : String → List B} {I : Files B → Prop} {E : Stop → Files B → Prop} (l : List Archive) :
    Triple (fun f => I f ∧ ∀ a ∈ l, f (path a.filename) = some (pub a.url)) (readAll path l) (fun bs f => bs = l.map (fun a => pub a.url) ∧ I f) E := by
  intro d hd
  rw [readAll_eq l hd.2]
  exact ⟨rfl, hd.1⟩

theorem readAll_total {path : Path → Path} {pub : String → List B} {P : Files B → Prop} (l : List Archive) (hP : ∀ f, P f → ∀ a ∈ l, f (path a.filename) = some (pub a.url)) :
    Total P (readAll path l) (fun bs f => bs = l.map (fun a => pub a.url) ∧ P f) :=
  fun f hf => ⟨0, _, f, ⟨rfl, hf⟩, fun n => readAll_eq (d := (f, n + 0)) l (hP f hf)⟩

theorem removeAll_triple {path : Path → Path} {I : Files B → Prop} (l : List Archive) (hI : ∀ f, ∀ a ∈ l, I f → I (f.set (path a.filename) none)) :
    Triple I (removeAll path l) (fun _ => I) (fun _ => I) := by
  induction l with
  | nil => exact Triple.pure fun _ h => h
  | cons a l ih =>
    unfold removeAll
    exact Triple.bind (Q := fun _ => I) (Triple.remove (fun f hf => hI f a (by simp) hf) fun f _ hf => hf) fun _ => ih fun f x hx => hI f x (by simp [hx])

theorem removeAll_total {path : Path → Path} {I : Files B → Prop} (l : List Archive) (hI : ∀ f, ∀ a ∈ l, I f → I (f.set (path a.filename) none))
    (hinj : (l.map fun a => path a.filename).Nodup) : Total (fun f => I f ∧ ∀ a ∈ l, f (path a.filename) ≠ none) (removeAll path l) (fun _ => I) := by
  induction l with
  | nil => exact Total.pure fun _ h => h.1
  | cons a l ih =>
    unfold removeAll
    rw [List.map_cons, List.nodup_cons] at hinj
    refine Total.bind (Q := fun _ f => I f ∧ ∀ x ∈ l, f (path x.filename) ≠ none) (Total.remove (fun f hf => hf.2 a (by simp)) fun f hf => ⟨hI f a (by simp) hf.1, fun x hx => ?_⟩)
      fun _ => ih (fun f x hx => hI f x (by simp [hx])) hinj.2
    have hne : path x.filename ≠ path a.filename := fun h => hinj.1 (List.mem_map.2 ⟨x, hx, h⟩)
    rw [set_other _ hne]
    exact hf.2 x (by simp [hx])

/-! ### Loaders that convert -/

/-- What the code of the converting loaders has in common. -/
structure ConvOK (conv : List (List B) → Option (List B)) (L : Loader B T) : Prop where
  names : NamesOK L
  convert : L.convert = some conv
  target : L.target ∉ L.archives.map Archive.filename
  reader : L.reader = .csv ∨ L.reader = .peek

theorem NamesOK.inj {L : Loader B T} (h : NamesOK L) {e : Env} (he : AbsoluteHome e) : (L.archives.map fun a => e.abs (L.path e a.filename)).Nodup := by
  have : (L.archives.map fun a => e.abs (L.path e a.filename)) = (L.archives.map Archive.filename).map fun n => L.path e n := by
    rw [List.map_map]
    exact List.map_congr_left fun a _ => (path_abs he L _).1
  rw [this]
  refine List.Nodup.map_on (fun x hx y hy hxy => ?_) h.nodup
  obtain ⟨a, ha, rfl⟩ := List.mem_map.1 hx
  obtain ⟨b, hb, rfl⟩ := List.mem_map.1 hy
  exact join_inj (h.names a ha) (h.names b hb) hxy

theorem NamesOK.other {L : Loader B T} (h : NamesOK L) {e : Env} (he : AbsoluteHome e) {n : Path} (hn : n.head? ≠ some '/') (hm : n ∉ L.archives.map Archive.filename) {a : Archive}
    (ha : a ∈ L.archives) : e.abs (L.path e n) ≠ e.abs (L.path e a.filename) := by
  rw [(path_abs he L _).1, (path_abs he L _).1]
  intro hxy
  have : n = a.filename := join_inj hn (h.names a ha) hxy
  exact hm (this ▸ List.mem_map_of_mem ha)

/-- The data file is absent or satisfies `D`. -/
def TargetIs (e : Env) (L : Loader B T) (D : List B → Prop) (f : Files B) : Prop := ∀ b, f (e.abs (L.path e L.target)) = some b → D b

theorem fetch_conv {sha : List B → String} {e : Env} (he : AbsoluteHome e) {conv : List (List B) → Option (List B)} {L : Loader B T} (hL : ConvOK conv L) {pub : String → List B}
    (hsha : OnlyPublished sha pub L) (net : Net B) (dl : Bool) {D : List B → Prop} (hD : ∀ c, conv (L.archives.map fun a => pub a.url) = some c → D c) :
    Triple (TargetIs e L D) (fetch sha e L net dl) (fun _ => TargetIs e L D) (fun s f => TargetIs e L D f ∨
      (s = .killed ∧ ∃ c k, conv (L.archives.map fun a => pub a.url) = some c ∧ f (e.abs (L.path e L.target)) = some (c.take k))) := by
  have hother : ∀ (f : Files B) v, ∀ a ∈ L.archives, TargetIs e L D f → TargetIs e L D (f.set (e.abs (L.path e a.filename)) v) := by
    intro f v a ha hf b hb
    rw [set_other _ (hL.names.other he hL.names.target hL.target ha)] at hb
    exact hf b hb
  unfold fetch
  refine Triple.bind (Q := fun _ => TargetIs e L D) (fun d hd => hd) fun present => ?_
  split
  swap
  · exact Triple.pure fun _ h => h
  refine Triple.bind (Q := fun _ f => TargetIs e L D f ∧ ∀ a ∈ L.archives, f (e.abs (L.path e a.filename)) = some (pub a.url)) ?_ fun _ => ?_
  · have := fetchAll_triple (sha := sha) (net := net) (path := fun n => e.abs (L.path e n)) (pub := pub) (I := TargetIs e L D) L.archives [] hsha
      (by simpa using hL.names.inj he) hother
    exact (this.pre fun f hf => ⟨hf, by simp⟩).post (fun _ f hf => by simpa using hf) fun s f hf => Or.inl hf.1
  rw [hL.convert]
  refine Triple.bind (readAll_triple (path := fun n => e.abs (L.path e n)) (pub := pub) (I := TargetIs e L D) L.archives) fun bs => ?_
  refine Triple.bind (Triple.ofOption (Q := fun c f => conv (L.archives.map fun a => pub a.url) = some c ∧ TargetIs e L D f) (fun f c hf hc => ?_) fun f hf => Or.inl hf.2) fun c => ?_
  · obtain ⟨rfl, hf⟩ := hf
    exact ⟨hc, hf⟩
  refine Triple.bind (Q := fun _ => TargetIs e L D) (Triple.write (fun f hf b hb => ?_) (fun f hf => Or.inl hf.2) fun f k hf => Or.inr ⟨rfl, c, k, hf.1, set_same ..⟩) fun _ => ?_
  · rw [set_same] at hb
    cases hb
    exact hD _ hf.1
  · exact (removeAll_triple (I := TargetIs e L D) L.archives fun f a ha => hother f none a ha).post (fun _ _ h => h) fun _ _ h => Or.inl h

theorem readTable_keeps {e : Env} {conv : List (List B) → Option (List B)} {L : Loader B T} (hL : ConvOK conv L) (he : AbsoluteHome e) (P : Files B → Prop) :
    Triple P (readTable e L) (fun t f => P f ∧ ∃ b, f (e.abs (L.path e L.target)) = some b ∧ L.parse [b] = some t) (fun s f => P f ∧ s ≠ .killed) := by
  have key : Triple P (do let b ← Sys.readFile (e.csvPath (L.path e L.target)); Sys.ofOption (L.parse [b]))
      (fun t f => P f ∧ ∃ b, f (e.abs (L.path e L.target)) = some b ∧ L.parse [b] = some t) (fun s f => P f ∧ s ≠ .killed) := by
    rw [(path_abs he L _).1, (path_abs he L _).2]
    refine Triple.bind (Triple.read (Q := fun b f => P f ∧ f (L.path e L.target) = some b) (fun f b hf hb => ⟨hf, hb⟩) fun f hf _ => ⟨hf, by decide⟩) fun b => ?_
    exact Triple.ofOption (fun f t hf ht => ⟨hf.1, b, hf.2, ht⟩) fun f hf => ⟨hf.1, by decide⟩
  unfold readTable
  rcases hL.reader with h | h <;> rw [h]
  · exact key
  · refine Triple.bind (Triple.read (Q := fun _ => P) (fun f b hf _ => hf) fun f hf _ => ⟨hf, by decide⟩) fun b0 => ?_
    exact Triple.bind (Triple.ofOption (Q := fun _ => P) (fun f _ hf _ => hf) fun f hf => ⟨hf, by decide⟩) fun _ => key

theorem fetch_total {sha : List B → String} {e : Env} (he : AbsoluteHome e) {conv : List (List B) → Option (List B)} {L : Loader B T} (hL : ConvOK conv L) {pub : String → List B}
    (hsha : OnlyPublished sha pub L) {net : Net B} (hnet : Works pub L net) {c : List B} (hc : conv (L.archives.map fun a => pub a.url) = some c) :
    Total (TargetIs e L (· = c)) (fetch sha e L net true) (fun _ f => f (e.abs (L.path e L.target)) = some c) := by
  intro f hf
  cases hp : f (e.abs (L.path e L.target)) with
  | some b =>
    cases hf b hp
    refine ⟨0, (), f, hp, fun n => ?_⟩
    unfold fetch
    rw [bind_of_ok (m := Sys.fileExists _) (a := true) (d' := (f, n + 0)) (by simp [Sys.fileExists, hp])]
    rfl
  | none =>
    have hrest : Total (fun _ => True) (do
        fetchAll sha net (fun n => e.abs (L.path e n)) L.archives
        let bs ← readAll (fun n => e.abs (L.path e n)) L.archives
        let c ← Sys.ofOption (conv bs)
        Sys.writeFile (e.abs (L.path e L.target)) c
        removeAll (fun n => e.abs (L.path e n)) L.archives) (fun _ f => f (e.abs (L.path e L.target)) = some c) := by
      have h1 := fetchAll_total (sha := sha) (net := net) (path := fun n => e.abs (L.path e n)) (pub := pub) L.archives [] hsha hnet (by simpa using hL.names.inj he)
      refine Total.bind (h1.pre fun f _ => by simp) fun _ => ?_
      refine Total.bind (readAll_total (pub := pub) L.archives fun f hf => by simpa using hf) fun bs => ?_
      refine Total.bind (Q := fun c' f => c' = c ∧ ∀ a ∈ L.archives, f (e.abs (L.path e a.filename)) = some (pub a.url)) ?_ fun c' => ?_
      · intro f hf
        obtain ⟨rfl, hf⟩ := hf
        exact Total.ofOption (P := fun f => ∀ a ∈ L.archives, f (e.abs (L.path e a.filename)) = some (pub a.url)) hc (fun f hf => ⟨rfl, hf⟩) f (by simpa using hf)
      refine Total.bind (Q := fun _ f => f (e.abs (L.path e L.target)) = some c ∧ ∀ a ∈ L.archives, f (e.abs (L.path e a.filename)) ≠ none)
        (Total.write fun f hf => ⟨by rw [set_same, hf.1], fun a ha => ?_⟩) fun _ => ?_
      · rw [set_other _ (hL.names.other he hL.names.target hL.target ha).symm, hf.2 a ha]
        exact fun h => by cases h
      · refine removeAll_total (path := fun n => e.abs (L.path e n)) (I := fun f => f (e.abs (L.path e L.target)) = some c) L.archives (fun f a ha hf => ?_) (hL.names.inj he)
        rw [set_other _ (hL.names.other he hL.names.target hL.target ha)]
        exact hf
    obtain ⟨k, u, f', q, h⟩ := hrest f trivial
    refine ⟨k, u, f', q, fun n => ?_⟩
    unfold fetch
    rw [bind_of_ok (m := Sys.fileExists _) (a := false) (d' := (f, n + k)) (by simp [Sys.fileExists, hp]), hL.convert]
    exact h n

theorem readTable_total {e : Env} {conv : List (List B) → Option (List B)} {L : Loader B T} (hL : ConvOK conv L) (he : AbsoluteHome e) {c : List B} {t : T} (ht : L.parse [c] = some t) :
    Total (fun f => f (e.abs (L.path e L.target)) = some c) (readTable e L) (fun t' _ => t' = t) := by
  have key : Total (fun f => f (e.abs (L.path e L.target)) = some c) (do let b ← Sys.readFile (e.csvPath (L.path e L.target)); Sys.ofOption (L.parse [b])) (fun t' _ => t' = t) := by
    refine Total.bind (Total.read (b := c) (Q := fun b _ => b = c) (fun f hf => ?_) fun f hf => rfl) fun b => ?_
    · rwa [csvPath_abs he L]
    · intro f hf
      subst hf
      exact Total.ofOption (P := fun _ => True) ht (fun _ _ => rfl) f trivial
  unfold readTable
  rcases hL.reader with h | h <;> rw [h]
  · exact key
  · refine Total.bind (Total.read (b := c) (Q := fun b f => b = c ∧ f (e.abs (L.path e L.target)) = some c) (fun f hf => hf) fun f hf => ⟨rfl, hf⟩) fun b0 => ?_
    refine Total.bind (Q := fun _ f => f (e.abs (L.path e L.target)) = some c) ?_ fun _ => key
    intro f hf
    obtain ⟨rfl, hf⟩ := hf
    exact Total.ofOption (P := fun f => f (e.abs (L.path e L.target)) = some b0) ht (fun f hf => hf) f hf

theorem run_conv {sha : List B → String} {e : Env} (he : AbsoluteHome e) {conv : List (List B) → Option (List B)} {L : Loader B T} (hL : ConvOK conv L) {pub : String → List B}
    (hsha : OnlyPublished sha pub L) {D : List B → Prop} (hD : ∀ c, conv (L.archives.map fun a => pub a.url) = some c → D c) (c : LoadCall B) {f : Files B} (hf : TargetIs e L D f) :
    (∀ t, (c.run sha e L f).1 = .ok t → ∃ b, D b ∧ L.parse [b] = some t) ∧ (TargetIs e L D (c.run sha e L f).2 ∨ ((c.run sha e L f).1 = .error .killed ∧
      ∃ c' k, conv (L.archives.map fun a => pub a.url) = some c' ∧ (c.run sha e L f).2 (e.abs (L.path e L.target)) = some (c'.take k))) := by
  have h : Triple (TargetIs e L D) (load sha e L c.net c.download) (fun t f => TargetIs e L D f ∧ ∃ b, D b ∧ L.parse [b] = some t) (fun s f => TargetIs e L D f ∨
      (s = .killed ∧ ∃ c k, conv (L.archives.map fun a => pub a.url) = some c ∧ f (e.abs (L.path e L.target)) = some (c.take k))) := by
    unfold load
    refine Triple.bind (fetch_conv he hL hsha c.net c.download hD) fun _ => ?_
    exact (readTable_keeps hL he (TargetIs e L D)).post (fun t f hf => ⟨hf.1, hf.2.choose, hf.1 _ hf.2.choose_spec.1, hf.2.choose_spec.2⟩) fun s f hf => Or.inl hf.1
  have := h (f, c.steps) hf
  unfold LoadCall.run
  rcases hm : load sha e L c.net c.download (f, c.steps) with ⟨r, d⟩
  rw [hm] at this
  cases r with
  | ok t' =>
    refine ⟨fun t ht => ?_, Or.inl this.1⟩
    cases ht
    exact this.2
  | error s =>
    refine ⟨fun t ht => (by cases ht), ?_⟩
    rcases this with h | ⟨rfl, h⟩
    · exact Or.inl h
    · exact Or.inr ⟨rfl, h⟩

/-! ### Loaders that use what they download -/

/-- What the code of the direct loaders has in common. -/
structure DirOK (L : Loader B T) : Prop where
  names : NamesOK L
  convert : L.convert = none
  head : ∃ a l, L.archives = a :: l ∧ a.filename = L.target
  reader : (L.reader = .csv ∧ ∃ a, L.archives = [a]) ∨ L.reader = .direct ∨
    ∃ m, L.reader = .zip m ∧ m.head? ≠ some '/' ∧ m ∉ L.archives.map Archive.filename ∧ ∃ a, L.archives = [a]

/-- The files on the disk are the published ones. -/
def AllPub (e : Env) (L : Loader B T) (pub : String → List B) (f : Files B) : Prop := ∀ a ∈ L.archives, f (e.abs (L.path e a.filename)) = some (pub a.url)

theorem Triple.or {P P' : Files B → Prop} {m : Sys B α} {Q : α → Files B → Prop} {E : Stop → Files B → Prop} (h : Triple P m Q E) (h' : Triple P' m Q E) :
    Triple (fun f => P f ∨ P' f) m Q E := fun d hd => hd.elim (h d) (h' d)

theorem Triple.false {m : Sys B α} {Q : α → Files B → Prop} {E : Stop → Files B → Prop} : Triple (fun _ => False) m Q E := fun _ hd => hd.elim

theorem fetch_dir {sha : List B → String} {e : Env} (he : AbsoluteHome e) {L : Loader B T} (hL : DirOK L) {pub : String → List B} (hsha : OnlyPublished sha pub L) (net : Net B) (dl : Bool) :
    Triple (fun f => f (e.abs (L.path e L.target)) = none ∨ AllPub e L pub f) (fetch sha e L net dl)
      (fun _ f => f (e.abs (L.path e L.target)) = none ∨ AllPub e L pub f) (fun s _ => s.ofDownload) := by
  unfold fetch
  refine Triple.bind (Q := fun _ f => f (e.abs (L.path e L.target)) = none ∨ AllPub e L pub f) (fun d hd => hd) fun present => ?_
  split
  swap
  · exact Triple.pure fun _ h => h
  refine Triple.bind (Q := fun _ => AllPub e L pub) ?_ fun _ => ?_
  · have := fetchAll_triple (sha := sha) (net := net) (path := fun n => e.abs (L.path e n)) (pub := pub) (I := fun _ => True) L.archives [] hsha
      (by simpa using hL.names.inj he) (fun _ _ _ _ _ => trivial)
    exact (this.pre fun f hf => ⟨trivial, by simp⟩).post (fun _ f hf => by simpa [AllPub] using hf.2) fun s f hf => hf.2
  · rw [hL.convert]
    exact Triple.pure fun f hf => Or.inr hf

theorem DirOK.target {L : Loader B T} (hL : DirOK L) {e : Env} {pub : String → List B} {f : Files B} (hf : AllPub e L pub f) :
    ∃ a l, L.archives = a :: l ∧ f (e.abs (L.path e L.target)) = some (pub a.url) := by
  obtain ⟨a, l, h, ht⟩ := hL.head
  exact ⟨a, l, h, by rw [← ht]; exact hf a (by rw [h]; simp)⟩

theorem readTable_absent {e : Env} (he : AbsoluteHome e) {L : Loader B T} (hL : DirOK L) :
    Triple (fun f => f (e.abs (L.path e L.target)) = none) (readTable e L) (fun _ _ => False) (fun _ f => f (e.abs (L.path e L.target)) = none) := by
  unfold readTable
  rcases hL.reader with ⟨h, -⟩ | h | ⟨m, h, -⟩ <;> rw [h] <;> dsimp only
  · rw [(path_abs he L _).1, (path_abs he L _).2]
    exact Triple.bind (Triple.read (Q := fun _ _ => False) (fun f b hf hb => by rw [hf] at hb; cases hb) fun f hf _ => hf) fun _ => Triple.false
  · obtain ⟨a, l, ha, ht⟩ := hL.head
    rw [ha]
    unfold readAll
    rw [ht]
    refine Triple.bind (Q := fun _ _ => False) ?_ fun _ => Triple.false
    exact Triple.bind (Triple.read (Q := fun _ _ => False) (fun f b hf hb => by rw [hf] at hb; cases hb) fun f hf _ => hf) fun _ => Triple.false
  · exact Triple.bind (Triple.read (Q := fun _ _ => False) (fun f b hf hb => by rw [hf] at hb; cases hb) fun f hf _ => hf) fun _ => Triple.false

theorem AllPub.set {e : Env} (he : AbsoluteHome e) {L : Loader B T} (hL : DirOK L) {pub : String → List B} {m : Path} (hm : m.head? ≠ some '/') (hm' : m ∉ L.archives.map Archive.filename)
    {f : Files B} (hf : AllPub e L pub f) (v : Option (List B)) : AllPub e L pub (f.set (e.abs (L.path e m)) v) := by
  intro a ha
  rw [set_other _ (hL.names.other he hm hm' ha).symm]
  exact hf a ha

theorem readTable_dir {e : Env} (he : AbsoluteHome e) {L : Loader B T} (hL : DirOK L) {pub : String → List B} :
    Triple (AllPub e L pub) (readTable e L) (fun t f => AllPub e L pub f ∧ publishedTable pub L = some t) (fun _ f => AllPub e L pub f) := by
  unfold readTable
  rcases hL.reader with ⟨h, a, ha⟩ | h | ⟨m, h, hm, hm', a, ha⟩ <;> rw [h] <;> dsimp only
  · rw [csvPath_abs he L]
    refine Triple.bind (Triple.read (Q := fun b f => AllPub e L pub f ∧ b = pub a.url) (fun f b hf hb => ⟨hf, ?_⟩) fun f hf _ => hf) fun b => ?_
    · obtain ⟨a', l, h', ht⟩ := hL.target hf
      rw [ha] at h'
      cases h'
      rw [hb] at ht
      exact Option.some.inj ht
    · refine Triple.ofOption (fun f t hf ht => ⟨hf.1, ?_⟩) fun f hf => hf.1
      rw [hf.2] at ht
      simpa [publishedTable, hL.convert, h, ha] using ht
  · refine Triple.bind ((readAll_triple (path := fun n => e.abs (L.path e n)) (pub := pub) (I := AllPub e L pub) L.archives).pre fun f hf => ⟨hf, hf⟩) fun bs => ?_
    refine Triple.ofOption (fun f t hf ht => ⟨hf.2, ?_⟩) fun f hf => hf.2
    rw [hf.1] at ht
    simpa [publishedTable, hL.convert, h] using ht
  · refine Triple.bind (Triple.read (Q := fun b f => AllPub e L pub f ∧ b = pub a.url) (fun f b hf hb => ⟨hf, ?_⟩) fun f hf _ => hf) fun z => ?_
    · obtain ⟨a', l, h', ht⟩ := hL.target hf
      rw [ha] at h'
      cases h'
      rw [hb] at ht
      exact Option.some.inj ht
    refine Triple.bind (Triple.ofOption (Q := fun c f => AllPub e L pub f ∧ L.unzip (pub a.url) = some c) (fun f c hf hc => ⟨hf.1, by rw [← hf.2]; exact hc⟩) fun f hf => hf.1) fun c => ?_
    refine Triple.bind (Q := fun _ f => (AllPub e L pub f ∧ L.unzip (pub a.url) = some c) ∧ f (e.abs (L.path e m)) = some c)
      (Triple.write (fun f hf => ⟨⟨hf.1.set he hL hm hm' _, hf.2⟩, set_same ..⟩) (fun f hf => hf.1) fun f k hf => hf.1.set he hL hm hm' _) fun _ => ?_
    rw [csvPath_abs he L]
    refine Triple.bind (Triple.read (Q := fun b f => AllPub e L pub f ∧ L.unzip (pub a.url) = some b) (fun f b hf hb => ⟨hf.1.1, ?_⟩) fun f hf _ => hf.1.1) fun b => ?_
    · rw [hf.2] at hb
      rw [← hb]
      exact hf.1.2
    refine Triple.bind (Triple.ofOption (Q := fun t f => AllPub e L pub f ∧ publishedTable pub L = some t) (fun f t hf ht => ⟨hf.1, ?_⟩) fun f hf => hf.1) fun t => ?_
    · simp [publishedTable, hL.convert, h, ha, hf.2, ht]
    refine Triple.bind (Q := fun _ f => AllPub e L pub f ∧ publishedTable pub L = some t) (Triple.remove (fun f hf => ⟨hf.1.set he hL hm hm' _, hf.2⟩) fun f s hf => hf.1) fun _ => ?_
    exact Triple.pure fun f hf => hf

theorem run_dir {sha : List B → String} {e : Env} (he : AbsoluteHome e) {L : Loader B T} (hL : DirOK L) {pub : String → List B} (hsha : OnlyPublished sha pub L) (c : LoadCall B) {f : Files B}
    (hf : f (e.abs (L.path e L.target)) = none ∨ AllPub e L pub f) :
    (∀ t, (c.run sha e L f).1 = .ok t → publishedTable pub L = some t) ∧ ((∃ s, (c.run sha e L f).1 = .error s ∧ s.ofDownload) ∨
      ((c.run sha e L f).2 (e.abs (L.path e L.target)) = none ∨ AllPub e L pub (c.run sha e L f).2)) := by
  have h : Triple (fun f => f (e.abs (L.path e L.target)) = none ∨ AllPub e L pub f) (load sha e L c.net c.download) (fun t f => AllPub e L pub f ∧ publishedTable pub L = some t)
      (fun s f => s.ofDownload ∨ (f (e.abs (L.path e L.target)) = none ∨ AllPub e L pub f)) := by
    unfold load
    refine Triple.bind ((fetch_dir he hL hsha c.net c.download).post (fun _ _ h => h) fun _ _ h => Or.inl h) fun _ => ?_
    exact Triple.or ((readTable_absent he hL).post (fun _ _ h => h.elim) fun _ _ h => Or.inr (Or.inl h)) ((readTable_dir he hL).post (fun _ _ h => h) fun _ _ h => Or.inr (Or.inr h))
  have := h (f, c.steps) hf
  unfold LoadCall.run
  rcases hm : load sha e L c.net c.download (f, c.steps) with ⟨r, d⟩
  rw [hm] at this
  cases r with
  | ok t' =>
    refine ⟨fun t ht => ?_, Or.inr (Or.inr this.1)⟩
    cases ht
    exact this.2
  | error s =>
    refine ⟨fun t ht => (by cases ht), ?_⟩
    rcases this with h | h
    · exact Or.inl ⟨s, rfl, h⟩
    · exact Or.inr h

theorem fetch_dir_total {sha : List B → String} {e : Env} (he : AbsoluteHome e) {L : Loader B T} (hL : DirOK L) {pub : String → List B} (hsha : OnlyPublished sha pub L) {net : Net B}
    (hnet : Works pub L net) :
    Total (fun f => f (e.abs (L.path e L.target)) = none ∨ AllPub e L pub f) (fetch sha e L net true) (fun _ f => AllPub e L pub f) := by
  intro f hf
  cases hp : f (e.abs (L.path e L.target)) with
  | some b =>
    refine ⟨0, (), f, hf.resolve_left (by rw [hp]; exact fun h => by cases h), fun n => ?_⟩
    unfold fetch
    rw [bind_of_ok (m := Sys.fileExists _) (a := true) (d' := (f, n + 0)) (by simp [Sys.fileExists, hp])]
    rfl
  | none =>
    have h1 := fetchAll_total (sha := sha) (net := net) (path := fun n => e.abs (L.path e n)) (pub := pub) L.archives [] hsha hnet (by simpa using hL.names.inj he)
    obtain ⟨k, u, f', q, h⟩ := h1 f (by simp)
    refine ⟨k, u, f', by simpa [AllPub] using q, fun n => ?_⟩
    unfold fetch
    rw [bind_of_ok (m := Sys.fileExists _) (a := false) (d' := (f, n + k)) (by simp [Sys.fileExists, hp]), hL.convert]
    exact bind_of_ok (h n)

theorem readTable_dir_total {e : Env} (he : AbsoluteHome e) {L : Loader B T} (hL : DirOK L) {pub : String → List B} {t : T} (ht : publishedTable pub L = some t) :
    Total (AllPub e L pub) (readTable e L) (fun t' _ => t' = t) := by
  unfold readTable
  rcases hL.reader with ⟨h, a, ha⟩ | h | ⟨m, h, hm, hm', a, ha⟩ <;> rw [h] <;> dsimp only
  · rw [csvPath_abs he L]
    have ht' : L.parse [pub a.url] = some t := by simpa [publishedTable, hL.convert, h, ha] using ht
    refine Total.bind (Total.read (b := pub a.url) (Q := fun b _ => b = pub a.url) (fun f hf => ?_) fun f hf => rfl) fun b => ?_
    · obtain ⟨a', l, h', ht⟩ := hL.target hf
      rw [ha] at h'
      cases h'
      exact ht
    · intro f hf
      cases hf
      exact Total.ofOption (P := fun _ => True) ht' (fun _ _ => rfl) f trivial
  · have ht' : L.parse (L.archives.map fun a => pub a.url) = some t := by simpa [publishedTable, hL.convert, h] using ht
    refine Total.bind (readAll_total (path := fun n => e.abs (L.path e n)) (pub := pub) (P := AllPub e L pub) L.archives fun f hf => hf) fun bs => ?_
    intro f hf
    cases hf.1
    exact Total.ofOption (P := fun _ => True) ht' (fun _ _ => rfl) f trivial
  · obtain ⟨c, hc, ht'⟩ : ∃ c, L.unzip (pub a.url) = some c ∧ L.parse [c] = some t := by
      simpa [publishedTable, hL.convert, h, ha, Option.bind_eq_some_iff] using ht
    refine Total.bind (Total.read (b := pub a.url) (Q := fun b _ => b = pub a.url) (fun f hf => ?_) fun f hf => rfl) fun z => ?_
    · obtain ⟨a', l, h', ht⟩ := hL.target hf
      rw [ha] at h'
      cases h'
      exact ht
    intro f hf
    cases hf
    have : Total (fun _ : Files B => True) (do
        let c ← Sys.ofOption (L.unzip (pub a.url))
        Sys.writeFile (e.abs (L.path e m)) c
        let b ← Sys.readFile (e.csvPath (L.path e m))
        let t ← Sys.ofOption (L.parse [b])
        Sys.removeFile (e.abs (L.path e m))
        return t) (fun t' _ => t' = t) := by
      refine Total.bind (Total.ofOption (Q := fun c' _ => c' = c) hc fun _ _ => rfl) fun c' => ?_
      intro f hf
      cases hf
      refine Total.bind (P := fun _ => True) (Total.write (Q := fun _ f => f (e.abs (L.path e m)) = some c) fun f _ => set_same ..) (fun _ => ?_) f trivial
      rw [csvPath_abs he L]
      refine Total.bind (Total.read (b := c) (Q := fun b f => b = c ∧ f (e.abs (L.path e m)) = some c) (fun f hf => hf) fun f hf => ⟨rfl, hf⟩) fun b => ?_
      intro f hf
      obtain ⟨rfl, hf⟩ := hf
      refine Total.bind (P := fun f => f (e.abs (L.path e m)) = some b) (Total.ofOption (Q := fun t' f => t' = t ∧ f (e.abs (L.path e m)) = some b) ht' fun f hf => ⟨rfl, hf⟩) (fun t' => ?_) f hf
      refine Total.bind (Q := fun _ _ => t' = t) (Total.remove (fun f hf => by rw [hf.2]; exact fun h => by cases h) fun f hf => hf.1) fun _ => ?_
      exact Total.pure fun f hf => hf
    exact this f trivial

theorem run_of_total {sha : List B → String} {e : Env} {L : Loader B T} {net : Net B} {P : Files B → Prop} {Q : Unit → Files B → Prop} {t : T} (h1 : Total P (fetch sha e L net true) Q)
    (h2 : Total (Q ()) (readTable e L) (fun t' _ => t' = t)) {f : Files B} (hf : P f) : ∃ n, ∀ steps ≥ n, ((LoadCall.mk net true steps).run sha e L f).1 = .ok t := by
  obtain ⟨k, a, f', rfl, h⟩ := (Total.bind h1 fun _ => h2) f hf
  refine ⟨k, fun steps hs => ?_⟩
  obtain ⟨n, rfl⟩ := Nat.exists_eq_add_of_le hs
  unfold LoadCall.run load
  dsimp only
  rw [Nat.add_comm k n]
  exact congrArg Prod.fst (h n)

/-! ### What goes wrong -/

theorem run_of_broken {sha : List B → String} {e : Env} (he : AbsoluteHome e) {conv : List (List B) → Option (List B)} {L : Loader B T} (hL : ConvOK conv L) (c : LoadCall B) {f : Files B} {b : List B}
    (hb : f (e.abs (L.path e L.target)) = some b) (hp : L.parse [b] = none) : c.run sha e L f = (.error .format, f) := by
  have h1 : fetch sha e L c.net c.download (f, c.steps) = (.ok (), (f, c.steps)) := by
    unfold fetch
    rw [bind_of_ok (m := Sys.fileExists _) (a := true) (d' := (f, c.steps)) (by simp [Sys.fileExists, hb])]
    simp
    rfl
  have h2 : readTable e L (f, c.steps) = (.error .format, (f, c.steps)) := by
    have hb' : f (e.csvPath (L.path e L.target)) = some b := by rwa [csvPath_abs he L]
    unfold readTable
    rcases hL.reader with h | h <;> rw [h] <;> dsimp only
    · rw [bind_of_ok (readFile_eq (d := (f, c.steps)) hb'), hp]
      rfl
    · rw [bind_of_ok (readFile_eq (d := (f, c.steps)) hb), hp]
      rfl
  unfold LoadCall.run load
  rw [bind_of_ok h1, h2]

theorem outcomes_of_broken {sha : List B → String} {e : Env} (he : AbsoluteHome e) {conv : List (List B) → Option (List B)} {L : Loader B T} (hL : ConvOK conv L) {f : Files B} {b : List B}
    (hb : f (e.abs (L.path e L.target)) = some b) (hp : L.parse [b] = none) (l : List (LoadCall B)) : ∀ o ∈ outcomes sha e L l f, o = .error .format := by
  induction l with
  | nil => simp [outcomes]
  | cons c l ih =>
    intro o ho
    unfold outcomes at ho
    rw [run_of_broken he hL c hb hp] at ho
    rcases List.mem_cons.1 ho with rfl | ho
    · rfl
    · exact ih o ho

theorem cut_off {sha : List B → String} {e : Env} (he : AbsoluteHome e) {conv : List (List B) → Option (List B)} {L : Loader B T} (hL : ConvOK conv L) {pub : String → List B}
    (hsha : OnlyPublished sha pub L) {net : Net B} (hnet : Works pub L net) {c : List B} (hc : conv (L.archives.map fun a => pub a.url) = some c) (j : Nat) (hj : j < c.length)
    {f : Files B} (hf : f (e.abs (L.path e L.target)) = none) :
    ∃ steps, ((LoadCall.mk net true steps).run sha e L f).1 = .error .killed ∧ ((LoadCall.mk net true steps).run sha e L f).2 (e.abs (L.path e L.target)) = some (c.take j) := by
  have h1 := fetchAll_total (sha := sha) (net := net) (path := fun n => e.abs (L.path e n)) (pub := pub) L.archives [] hsha hnet (by simpa using hL.names.inj he)
  obtain ⟨k, u, f', q, h⟩ := h1 f (by simp)
  have hr : load sha e L net true (f, (j + 1) + k) = (.error .killed, (f'.set (e.abs (L.path e L.target)) (some (c.take j)), 0)) := by
    unfold load
    refine bind_of_error ?_
    unfold fetch
    rw [bind_of_ok (m := Sys.fileExists _) (a := false) (d' := (f, (j + 1) + k)) (by simp [Sys.fileExists, hf]), hL.convert]
    refine (bind_of_ok (h (j + 1))).trans ?_
    refine (bind_of_ok (readAll_eq (path := fun n => e.abs (L.path e n)) (pub := pub) L.archives (d := (f', j + 1)) (by simpa using q))).trans ?_
    rw [hc]
    refine (bind_of_ok (m := Sys.ofOption (some c)) (a := c) (d' := (f', j + 1)) rfl).trans ?_
    refine bind_of_error ?_
    unfold Sys.writeFile
    dsimp only
    rw [if_neg (by simp), if_pos (Nat.succ_le_of_lt hj)]
    rfl
  refine ⟨(j + 1) + k, ?_, ?_⟩ <;> unfold LoadCall.run <;> dsimp only <;> rw [hr]
  exact set_same ..

/-- Every file that is written or removed is outside of `I`. -/
def Keeps (I : Files B → Prop) (m : Sys B α) : Prop := Triple I m (fun _ => I) (fun _ => I)

theorem fetch_keeps_rel (sha : List B → String) {e : Env} {L : Loader B T} (net : Net B) (dl : Bool) (hL : NamesOK L) {I : Files B → Prop}
    (hI : ∀ n : Path, n.head? ≠ some '/' → ∀ f v, I f → I (f.set (e.abs (L.path e n)) v)) : Keeps I (fetch sha e L net dl) := by
  have h1 : ∀ l, (∀ a ∈ l, a.filename.head? ≠ some '/') → Keeps I (fetchAll sha net (fun n => e.abs (L.path e n)) l) := by
    intro l hl
    induction l with
    | nil => exact Triple.pure fun _ h => h
    | cons a l ih =>
      refine Triple.bind (Q := fun _ => I) ?_ fun _ => ih fun x hx => hl x (by simp [hx])
      refine Triple.bind (Q := fun _ => I) (Triple.write (fun f hf => hI _ (hl a (by simp)) f _ hf) (fun f hf => hf) fun f k hf => hI _ (hl a (by simp)) f _ hf) fun _ => ?_
      split_ifs
      · exact Triple.pure fun _ h => h
      · exact Triple.raise fun _ h => h
      · exact Triple.raise fun _ h => h
  have h2 : ∀ l, Keeps I (readAll (fun n => e.abs (L.path e n)) l) := by
    intro l
    induction l with
    | nil => exact Triple.pure fun _ h => h
    | cons a l ih =>
      unfold readAll
      exact Triple.bind (Q := fun _ => I) (Triple.read (fun f b hf _ => hf) fun f hf _ => hf) fun _ => Triple.bind ih fun _ => Triple.pure fun _ h => h
  have h3 : ∀ l, (∀ a ∈ l, a.filename.head? ≠ some '/') → Keeps I (removeAll (fun n => e.abs (L.path e n)) l) := by
    intro l hl
    induction l with
    | nil => exact Triple.pure fun _ h => h
    | cons a l ih =>
      exact Triple.bind (Q := fun _ => I) (Triple.remove (fun f hf => hI _ (hl a (by simp)) f _ hf) fun f s hf => hf) fun _ => ih fun x hx => hl x (by simp [hx])
  unfold fetch
  refine Triple.bind (Q := fun _ => I) (fun d hd => hd) fun present => ?_
  split
  · refine Triple.bind (h1 _ hL.names) fun _ => ?_
    cases L.convert with
    | none => exact Triple.pure fun _ h => h
    | some conv =>
      refine Triple.bind (h2 _) fun bs => ?_
      refine Triple.bind (Q := fun _ => I) (Triple.ofOption (fun f a hf _ => hf) fun f hf => hf) fun c => ?_
      exact Triple.bind (Q := fun _ => I) (Triple.write (fun f hf => hI _ hL.target f _ hf) (fun f hf => hf) fun f k hf => hI _ hL.target f _ hf) fun _ => h3 _ hL.names
  · exact Triple.pure fun _ h => h

theorem join_prefix {a b : Path} (h : b.head? ≠ some '/') : a <+: join a b := by
  unfold join
  rw [if_neg h]
  split_ifs
  · exact List.prefix_append ..
  · exact List.prefix_append ..

theorem join_rel {a b : Path} (ha : a.head? ≠ some '/') (hb : b.head? ≠ some '/') : (join a b).head? ≠ some '/' := by
  unfold join
  rw [if_neg hb]
  cases a with
  | nil => simpa using hb
  | cons x l => split_ifs <;> simpa using ha

theorem csvPath_ne {e : Env} {L : Loader B T} (hd : L.dir.head? ≠ some '/') (he : ¬ AbsoluteHome e) (hm : e.modulePath.head? = some '/')
    (h1 : ¬ e.cwd <+: join e.modulePath "data".toList) (h2 : ¬ join e.modulePath "data".toList <+: e.cwd) {n n' : Path} (hn : n.head? ≠ some '/') :
    e.csvPath (L.path e n) ≠ e.abs (L.path e n') ∨ n'.head? = some '/' := by
  by_cases hn' : n'.head? = some '/'
  · exact Or.inr hn'
  refine Or.inl fun h => ?_
  have r : ∀ n : Path, n.head? ≠ some '/' → (L.path e n).head? ≠ some '/' := fun n hn => join_rel (join_rel he hd) hn
  have e1 : e.csvPath (L.path e n) = join (join e.modulePath "data".toList) (L.path e n) := by
    unfold Env.csvPath Env.abs
    rw [if_pos (join_abs (join_abs hm _) _)]
  have e2 : e.abs (L.path e n') = join e.cwd (L.path e n') := by
    unfold Env.abs
    rw [if_neg (r n' hn')]
  have p1 : join e.modulePath "data".toList <+: e.csvPath (L.path e n) := by rw [e1]; exact join_prefix (r n hn)
  have p2 : e.cwd <+: e.csvPath (L.path e n) := by rw [h, e2]; exact join_prefix (r n' hn')
  rcases List.prefix_or_prefix_of_prefix p1 p2 with h | h
  · exact h2 h
  · exact h1 h

/-! ### The nine loaders -/

theorem convOK_of {conv : List (List B) → Option (List B)} {L : Loader B T} (dir target : Path) (ns : List Path) (h1 : L.dir = dir) (h2 : L.target = target)
    (h3 : L.archives.map Archive.filename = ns) (hc : L.convert = some conv) (hr : L.reader = .csv ∨ L.reader = .peek)
    (h : dir.head? ≠ some '/' ∧ target.head? ≠ some '/' ∧ (∀ n ∈ ns, n.head? ≠ some '/') ∧ ns.Nodup ∧ target ∉ ns) : ConvOK conv L ∧ L.dir.head? ≠ some '/' := by
  subst h1 h2 h3
  exact ⟨⟨⟨h.2.1, fun a ha => h.2.2.1 _ (List.mem_map_of_mem ha), h.2.2.2.1⟩, hc, h.2.2.2.2, hr⟩, h.1⟩

theorem dirOK_of {L : Loader B T} (target : Path) (ns : List Path) (h2 : L.target = target) (h3 : L.archives.map Archive.filename = ns) (hc : L.convert = none)
    (hh : ∃ a l, L.archives = a :: l ∧ a.filename = L.target) (hr : (L.reader = .csv ∧ ∃ a, L.archives = [a]) ∨ L.reader = .direct ∨
      ∃ m, L.reader = .zip m ∧ m.head? ≠ some '/' ∧ m ∉ ns ∧ ∃ a, L.archives = [a])
    (h : target.head? ≠ some '/' ∧ (∀ n ∈ ns, n.head? ≠ some '/') ∧ ns.Nodup) : DirOK L := by
  subst h2 h3
  exact ⟨⟨h.1, fun a ha => h.2.1 _ (List.mem_map_of_mem ha), h.2.2⟩, hc, hh, hr⟩

theorem ConvertingLoader.ok {conv : List (List B) → Option (List B)} {unzip : List B → Option (List B)} {parse : List (List B) → Option T} {L : Loader B T}
    (h : ConvertingLoader conv unzip parse L) : ConvOK conv L ∧ L.parse = parse ∧ L.dir.head? ≠ some '/' := by
  have key : L.parse = parse ∧ (ConvOK conv L ∧ L.dir.head? ≠ some '/') := by
    unfold ConvertingLoader at h
    simp only [List.mem_cons, List.not_mem_nil, or_false] at h
    rcases h with rfl | rfl | rfl | rfl | rfl | rfl
    · exact ⟨rfl, convOK_of "adult".toList "adult.csv.gz".toList ["adult_train".toList, "adult_test".toList] rfl rfl rfl rfl (Or.inl rfl) (by decide)⟩
    · exact ⟨rfl, convOK_of "amazon".toList "amazon.csv.gz".toList ["amazon.csv".toList] rfl rfl rfl rfl (Or.inl rfl) (by decide)⟩
    · exact ⟨rfl, convOK_of "car".toList "car.csv.gz".toList ["car.data".toList] rfl rfl rfl rfl (Or.inl rfl) (by decide)⟩
    · exact ⟨rfl, convOK_of "default_cb".toList "default_cb.csv.gz".toList ["default_cb.xls".toList] rfl rfl rfl rfl (Or.inl rfl) (by decide)⟩
    · exact ⟨rfl, convOK_of "internet".toList "internet.csv.gz".toList ["internet_usage.csv".toList] rfl rfl rfl rfl (Or.inr rfl) (by decide)⟩
    · exact ⟨rfl, convOK_of "kick".toList "kick.csv.gz".toList ["kick.csv".toList] rfl rfl rfl rfl (Or.inl rfl) (by decide)⟩
  exact ⟨key.2.1, key.1, key.2.2⟩

theorem DirectLoader.ok {unzip : List B → Option (List B)} {parse : List (List B) → Option T} {L : Loader B T} (h : DirectLoader unzip parse L) : DirOK L := by
  unfold DirectLoader at h
  simp only [List.mem_cons, List.not_mem_nil, or_false] at h
  rcases h with rfl | rfl | rfl
  · exact dirOK_of "bank.zip".toList ["bank.zip".toList] rfl rfl rfl ⟨_, _, rfl, rfl⟩ (Or.inr (Or.inr ⟨"bank-full.csv".toList, rfl, by decide, by decide, _, rfl⟩)) (by decide)
  · exact dirOK_of "epsilon_normalized.bz2".toList ["epsilon_normalized.bz2".toList, "epsilon_normalized.t.bz2".toList] rfl rfl rfl ⟨_, _, rfl, rfl⟩ (Or.inr (Or.inl rfl)) (by decide)
  · exact dirOK_of "HIGGS.csv.gz".toList ["HIGGS.csv.gz".toList] rfl rfl rfl ⟨_, _, rfl, rfl⟩ (Or.inl ⟨rfl, _, rfl⟩) (by decide)

/-! ### What remains on the disk -/

theorem ConvOK.notZip {conv : List (List B) → Option (List B)} {L : Loader B T} (hL : ConvOK conv L) (m : Path) : L.reader ≠ .zip m := by
  rcases hL.reader with h | h <;> rw [h] <;> exact fun h => by cases h

theorem readTable_keeps_rel {e : Env} {L : Loader B T} (hz : ∀ m, L.reader = .zip m → m.head? ≠ some '/') {I : Files B → Prop}
    (hI : ∀ n : Path, n.head? ≠ some '/' → ∀ f v, I f → I (f.set (e.abs (L.path e n)) v)) : Keeps I (readTable e L) := by
  have hr : ∀ p, Keeps I (Sys.readFile p) := fun p => Triple.read (fun f b hf _ => hf) fun f hf _ => hf
  have ho : ∀ {α : Type} (o : Option α), Keeps I (Sys.ofOption o) := fun o => Triple.ofOption (fun f b hf _ => hf) fun f hf => hf
  have h2 : ∀ l, Keeps I (readAll (fun n => e.abs (L.path e n)) l) := by
    intro l
    induction l with
    | nil => exact Triple.pure fun _ h => h
    | cons a l ih =>
      unfold readAll
      exact Triple.bind (hr _) fun _ => Triple.bind ih fun _ => Triple.pure fun _ h => h
  unfold readTable
  cases h : L.reader with
  | csv => exact Triple.bind (hr _) fun _ => ho _
  | peek => exact Triple.bind (hr _) fun _ => Triple.bind (ho _) fun _ => Triple.bind (hr _) fun _ => ho _
  | direct => exact Triple.bind (h2 _) fun _ => ho _
  | zip m =>
    refine Triple.bind (hr _) fun _ => Triple.bind (ho _) fun _ => Triple.bind (Q := fun _ => I)
      (Triple.write (fun f hf => hI _ (hz m h) f _ hf) (fun f hf => hf) fun f k hf => hI _ (hz m h) f _ hf) fun _ => ?_
    refine Triple.bind (hr _) fun _ => Triple.bind (ho _) fun _ => Triple.bind (Q := fun _ => I) (Triple.remove (fun f hf => hI _ (hz m h) f _ hf) fun f s hf => hf) fun _ => ?_
    exact Triple.pure fun _ h => h

theorem run_keeps_rel (sha : List B → String) {e : Env} {L : Loader B T} (hL : NamesOK L) (hz : ∀ m, L.reader = .zip m → m.head? ≠ some '/') {I : Files B → Prop}
    (hI : ∀ n : Path, n.head? ≠ some '/' → ∀ f v, I f → I (f.set (e.abs (L.path e n)) v)) (c : LoadCall B) {f : Files B} (hf : I f) : I (c.run sha e L f).2 := by
  have := Triple.bind (fetch_keeps_rel sha c.net c.download hL hI) (fun _ => readTable_keeps_rel hz hI) (f, c.steps) hf
  unfold LoadCall.run load
  dsimp only
  rcases hm : (fetch sha e L c.net c.download >>= fun _ => readTable e L) (f, c.steps) with ⟨r, d⟩
  rw [hm] at this
  cases r <;> exact this

theorem removeAll_gone {path : Path → Path} (l done : List Archive) :
    Triple (fun f : Files B => ∀ a ∈ done, f (path a.filename) = none) (removeAll path l) (fun _ f => ∀ a ∈ done ++ l, f (path a.filename) = none) (fun _ _ => True) := by
  induction l generalizing done with
  | nil => exact Triple.pure fun f hf => by simpa using hf
  | cons a l ih =>
    refine Triple.bind (Q := fun _ f => ∀ x ∈ done ++ [a], f (path x.filename) = none) (Triple.remove (fun f hf x hx => ?_) fun _ _ _ => trivial) fun _ => ?_
    · by_cases h : path x.filename = path a.filename
      · rw [h]; exact set_same ..
      · rw [set_other _ h]
        rcases List.mem_append.1 hx with hx | hx
        · exact hf x hx
        · exact absurd (by rw [List.mem_singleton.1 hx]) h
    · exact (ih (done ++ [a])).post (fun _ f hf => by simpa using hf) fun _ _ _ => trivial

theorem run_gone {sha : List B → String} {e : Env} (he : AbsoluteHome e) {conv : List (List B) → Option (List B)} {L : Loader B T} (hL : ConvOK conv L) (c : LoadCall B) {f : Files B}
    (hf : f (e.abs (L.path e L.target)) = none) {t : T} (h : (c.run sha e L f).1 = .ok t) : ∀ a ∈ L.archives, (c.run sha e L f).2 (e.abs (L.path e a.filename)) = none := by
  have h1 : Triple (fun f => f (e.abs (L.path e L.target)) = none) (fetch sha e L c.net c.download)
      (fun _ f => f (e.abs (L.path e L.target)) = none ∨ ∀ a ∈ L.archives, f (e.abs (L.path e a.filename)) = none) (fun _ _ => True) := by
    have ht : ∀ {α : Type} (m : Sys B α) (P : Files B → Prop), Triple P m (fun _ _ => True) (fun _ _ => True) := by
      intro α m P d _
      rcases m d with ⟨r, d'⟩
      cases r <;> trivial
    unfold fetch
    refine Triple.bind (Q := fun _ f => f (e.abs (L.path e L.target)) = none) (fun d hd => hd) fun present => ?_
    split
    · refine Triple.bind (ht _ _) fun _ => ?_
      rw [hL.convert]
      refine Triple.bind (ht _ _) fun bs => Triple.bind (ht _ _) fun c => Triple.bind (ht _ _) fun _ => ?_
      exact ((removeAll_gone (path := fun n => e.abs (L.path e n)) L.archives []).pre fun f _ => by simp).post (fun _ f hf => Or.inr (by simpa using hf)) fun _ _ _ => trivial
    · exact Triple.pure fun f hf => Or.inl hf
  have h2 : Triple (fun f => f (e.abs (L.path e L.target)) = none ∨ ∀ a ∈ L.archives, f (e.abs (L.path e a.filename)) = none) (readTable e L)
      (fun _ f => ∀ a ∈ L.archives, f (e.abs (L.path e a.filename)) = none) (fun _ _ => True) := by
    refine (readTable_keeps hL he _).post (fun t f hf => ?_) fun _ _ _ => trivial
    obtain ⟨hf, b, hb, -⟩ := hf
    rcases hf with hf | hf
    · rw [hf] at hb; cases hb
    · exact hf
  have := Triple.bind h1 (fun _ => h2) (f, c.steps) hf
  unfold LoadCall.run load at h ⊢
  dsimp only at h ⊢
  rcases hm : (fetch sha e L c.net c.download >>= fun _ => readTable e L) (f, c.steps) with ⟨r, d⟩
  rw [hm] at this h
  cases h
  exact this

theorem run_zip_gone {sha : List B → String} {e : Env} {L : Loader B T} {m : Path} (hz : L.reader = .zip m) (c : LoadCall B) {f : Files B}
    {t : T} (h : (c.run sha e L f).1 = .ok t) : (c.run sha e L f).2 (e.abs (L.path e m)) = none := by
  have ht : ∀ {α : Type} (m : Sys B α) (P : Files B → Prop), Triple P m (fun _ _ => True) (fun _ _ => True) := by
    intro α m P d _
    rcases m d with ⟨r, d'⟩
    cases r <;> trivial
  have h2 : Triple (fun _ => True) (readTable e L) (fun _ f => f (e.abs (L.path e m)) = none) (fun _ _ => True) := by
    unfold readTable
    rw [hz]
    refine Triple.bind (ht _ _) fun _ => Triple.bind (ht _ _) fun _ => Triple.bind (ht _ _) fun _ => Triple.bind (ht _ _) fun _ => Triple.bind (ht _ _) fun _ => ?_
    exact Triple.bind (Q := fun _ f => f (e.abs (L.path e m)) = none) (Triple.remove (fun f hf => set_same ..) fun _ _ _ => trivial) fun _ => Triple.pure fun _ h => h
  have := Triple.bind (ht (fetch sha e L c.net c.download) fun _ => True) (fun _ => h2) (f, c.steps) trivial
  unfold LoadCall.run load at h ⊢
  dsimp only at h ⊢
  rcases hm : (fetch sha e L c.net c.download >>= fun _ => readTable e L) (f, c.steps) with ⟨r, d⟩
  rw [hm] at this h
  cases h
  exact this

/-! ### The home directory -/

theorem expanduser_abs {homeOf : Path → Option Path} {p : Path} (h : p.head? = some '/') : expanduser homeOf p = p := by
  cases p with
  | nil => rfl
  | cons x l =>
    cases h
    rfl

theorem expanduser_home {homeOf : Path → Option Path} {u : Path} {h : Path} (hu : ∀ c ∈ u, c ≠ '/') (hh : homeOf u = some h) (ha : h.head? = some '/') (rest : Path)
    (hr : rest = [] ∨ rest.head? = some '/') : (expanduser homeOf ('~' :: (u ++ rest))).head? = some '/' := by
  have e1 : (u ++ rest).takeWhile (· ≠ '/') = u := by
    rw [List.takeWhile_append_of_pos (by simpa using hu)]
    rcases hr with rfl | hr
    · simp
    · cases rest with
      | nil => cases hr
      | cons x l => cases hr; simp
  have e2 : (u ++ rest).dropWhile (· ≠ '/') = rest := by
    rw [List.dropWhile_append_of_pos (by simpa using hu)]
    rcases hr with rfl | hr
    · simp
    · cases rest with
      | nil => cases hr
      | cons x l => cases hr; simp
  change (match homeOf ((u ++ rest).takeWhile (· ≠ '/')) with
    | none => '~' :: (u ++ rest)
    | some h =>
      if (h.reverse.dropWhile (· = '/')).reverse ++ (u ++ rest).dropWhile (· ≠ '/') = [] then ['/'] else (h.reverse.dropWhile (· = '/')).reverse ++ (u ++ rest).dropWhile (· ≠ '/')).head? = _
  rw [e1, e2, hh]
  dsimp only
  have hq : ((h.reverse.dropWhile (· = '/')).reverse).head? = some '/' ∨ (h.reverse.dropWhile (· = '/')).reverse = [] := by
    obtain ⟨s, hs⟩ := List.dropWhile_suffix (p := fun c : Char => decide (c = '/')) (l := h.reverse)
    have : h = (h.reverse.dropWhile (· = '/')).reverse ++ s.reverse := by
      rw [← List.reverse_append, hs, List.reverse_reverse]
    cases hc : (h.reverse.dropWhile (· = '/')).reverse with
    | nil => exact Or.inr rfl
    | cons x l =>
      rw [hc] at this
      rw [this] at ha
      exact Or.inl ha
  rcases hq with hq | hq
  · split_ifs
    · rfl
    · cases hc : (h.reverse.dropWhile (· = '/')).reverse with
      | nil => rw [hc] at hq; cases hq
      | cons x l => rw [hc] at hq; exact hq
  · rw [hq]
    split_ifs with h0
    · rfl
    · rcases hr with rfl | hr
      · exact absurd rfl h0
      · exact hr

end

end Verif.Fetch
