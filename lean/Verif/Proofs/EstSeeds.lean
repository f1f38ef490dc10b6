import Verif.Proofs.EstEnd
import Verif.Proofs.EstCols
import Verif.Proofs.Scratch
import Verif.Props.Checks

/-! Seeds, depths and declared columns of a fitted forest. -/
set_option linter.unusedSectionVars false
namespace Verif

open Spec

theorem flatMap_replicate_getElem? {α : Type} (l : List α) (n i : Nat) (hn : 0 < n) :
    (l.flatMap fun x => List.replicate n x)[i]? = l[i / n]? := by
  induction l generalizing i with
  | nil => simp
  | cons a l ih =>
    rw [List.flatMap_cons]
    by_cases h : i < n
    · rw [List.getElem?_append_left (by simpa using h), Nat.div_eq_of_lt h]
      simp [h]
    · rw [List.getElem?_append_right (by simpa using h), ih, List.length_replicate]
      have : i / n = (i - n) / n + 1 := by
        rw [← Nat.add_div_right _ hn]; congr 1; omega
      rw [this, List.getElem?_cons_succ]

section
variable {L V K F Y P G W N : Type} [LinearOrder L] [DecidableEq V] [DecidableEq N] [LinearOrder K] [Field K] [IsStrictOrderedRing K] [FloorSemiring K]
  [Num F]

theorem buildTree_ctx {R : Rng G} {T : F → Task F Y P G} {draw : Nat → List Nat} {depth : Nat} {c : Ctx F} {gb : Garbage F} {d : F} {seed : Nat}
    {o : TreeObj F P G} (h : buildTree R T draw depth c gb d seed = .ok o) : o.ctx.map (·.maxDepth) = some c.maxDepth := by
  unfold buildTree TreeObj.fit at h
  simp only [bind_eq_ok] at h
  obtain ⟨b, -, w, -, ⟨arr, k⟩, -, h⟩ := h
  injection h with h
  rw [← h]
  rfl

theorem buildTree_predict_same {R : Rng G} {T : F → Task F Y P G} {draw : Nat → List Nat} {depth : Nat} {c : Ctx F} {gb gb' : Garbage F} {d : F} {seed : Nat}
    {o o' : TreeObj F P G} (h : buildTree R T draw depth c gb d seed = .ok o) (h' : buildTree R T draw depth c gb' d seed = .ok o')
    (mix : F → P → P → P) (fba : FBA) : o.predict mix fba = o'.predict mix fba := by
  have := buildTree_same R T draw depth c gb gb' d seed
  rw [h, h'] at this
  exact predict_same this.1 this.2 mix fba

theorem fitClassifier_inv {lib : Lib V K F G W} {a : FitArgs N V} {y : List L} {s s' : World L V K F (List F) G W}
    (h : fitClassifier lib a y s = (.ok (), s')) :
    ∃ (p : FitData F (List F) (List F) G) (s1 : World L V K F (List F) G W) (o : Outcome lib a p s1.self s1.np), s'.self = o.est := by
  unfold fitClassifier at h
  obtain ⟨sw, s0, -, h⟩ := Py.bind_inv h
  obtain ⟨p, s1, -, h⟩ := Py.bind_inv h
  obtain ⟨o, ho⟩ := fitRest_inv h
  exact ⟨p, s1, o, by rw [ho]⟩

theorem fitRegressor_inv {lib : Lib V K F G W} {a : FitArgs N V} {y : List F} {s s' : World L V K F F G W}
    (h : fitRegressor lib a y s = (.ok (), s')) :
    ∃ (p : FitData F (F × F) F G) (s1 : World L V K F F G W) (o : Outcome lib a p s1.self s1.np), s'.self = o.est := by
  unfold fitRegressor at h
  obtain ⟨sw, s0, -, h⟩ := Py.bind_inv h
  obtain ⟨p, s1, -, h⟩ := Py.bind_inv h
  obtain ⟨o, ho⟩ := fitRest_inv h
  exact ⟨p, s1, o, by rw [ho]⟩

theorem getIsCategorical_selects {cf : CatFeatures} {n : Nat} {ic : Option (List Bool)} (h : getIsCategorical cf n = .ok ic) {j : Nat} (hs : Selects cf j) :
    j < n ∧ ∃ m, ic = some m ∧ m[j]? = some true := by
  obtain ⟨-, -, -, hbad, hgood, hm, hm', -⟩ := C11_categorical_features n
  cases cf with
  | none => exact hs.elim
  | other k => exact hs.elim
  | ints l =>
    have hs' : (j : Int) ∈ l := hs
    have hl : l ≠ [] := List.ne_nil_of_mem hs'
    by_cases hb : ∃ i ∈ l, i < 0 ∨ (n : Int) ≤ i
    · rw [hbad l hl hb] at h; cases h
    · push Not at hb
      obtain ⟨mask, hlen, hsel, hok, -⟩ := hgood l hl (fun i hi => hb i hi)
      rw [hok] at h
      injection h with h
      have := (hb _ hs').2
      exact ⟨by omega, mask, h.symm, (hsel j).2 ⟨by omega, hs'⟩⟩
  | bools l =>
    have hs' : l[j]? = some true := hs
    obtain ⟨hlt, -⟩ := List.getElem?_eq_some_iff.1 hs'
    have hl : l ≠ [] := by intro h0; simp [h0] at hlt
    by_cases hn : l.length = n
    · rw [hm l hl hn] at h
      injection h with h
      exact ⟨by omega, l, h.symm, hs'⟩
    · rw [hm' l hl hn] at h; cases h

theorem Outcome.selects {lib : Lib V K F G W} {a : FitArgs N V} {p : FitData F Y P G} {e : Est L V K F P G} {np : W} (o : Outcome lib a p e np) {j : Nat}
    (hs : Selects a.categorical j) : o.est.isCategorical_[j]? = some true := by
  obtain ⟨hj, m, hm, hmj⟩ := getIsCategorical_selects o.hic hs
  exact encoderFit_declared o.henc (m := m) (by simpa [Est.encCfg] using hm) hmj hj

end

end Verif
