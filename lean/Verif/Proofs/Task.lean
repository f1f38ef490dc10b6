import Verif.Spec.Task
import Verif.Proofs.Basic

set_option linter.unusedSectionVars false

/-! The two tasks are safe on valid labels. -/
namespace Verif

open Spec

variable {F G : Type} [Num F]

theorem addClass_ok {n : Nat} {y : List F} (w : F) {l : F} (hy : y.length = n) (hl : ClassLabel n l) :
    ∃ y', addClass y w l = .ok y' ∧ y'.length = n := by
  have h : Num.toNat l < y.length := by rw [hy]; exact hl
  exact ⟨_, by simp only [addClass, rd_of_lt h, bind_ok, wr_of_lt _ h]; rfl, by simp [hy]⟩

theorem finishClassPred_ok {n : Nat} (d : F) {p : List F} (w : F) (hp : p.length = n) :
    ∃ p', finishClassPred n d p w = .ok p' ∧ p'.length = n :=
  foldlM_inv (fun (_ : List Nat) (p : List F) => p.length = n) hp (by
    intro pre k post p hs hI
    have hk : k < p.length := by
      rw [hI]; exact List.mem_range.1 (by rw [hs]; simp)
    exact ⟨_, by simp only [rd_of_lt hk, bind_ok, wr_of_lt _ hk]; rfl, by simp [hI]⟩)

theorem sumSq_ok {n : Nat} {y : List F} (hy : y.length = n) : ∃ s, sumSq n y = .ok s := by
  obtain ⟨s, h, _⟩ := foldlM_inv (l := List.range n)
    (f := fun (s : F) k => do let v ← rd y k; return Num.add s (Num.mul v v)) (s := Num.zero) (fun _ _ => True) trivial (by
    intro pre k post p hs hI
    have hk : k < y.length := by
      rw [hy]; exact List.mem_range.1 (by rw [hs]; simp)
    exact ⟨_, by simp only [rd_of_lt hk, bind_ok]; rfl, trivial⟩)
  exact ⟨s, h⟩

theorem entropyNode_ok {n : Nat} (w : F) {y : List F} (hy : y.length = n) : ∃ s, entropyNode n w y = .ok s := by
  obtain ⟨s, h, _⟩ := foldlM_inv (l := List.range n)
    (f := fun (s : F) k => do
      let v ← rd y k
      if Num.lt Num.zero v then
        let p := Num.div v w
        return Num.sub s (Num.mul p (Num.log p))
      else return s) (s := Num.zero) (fun _ _ => True) trivial (by
    intro pre k post p hs hI
    have hk : k < y.length := by
      rw [hy]; exact List.mem_range.1 (by rw [hs]; simp)
    simp only [rd_of_lt hk, bind_ok]
    split
    · exact ⟨_, rfl, trivial⟩
    · exact ⟨_, rfl, trivial⟩)
  exact ⟨s, h⟩

theorem childsImpurityClf_ok (c : Criterion) {n : Nat} (wL wR : F) {a b : List F} (ha : a.length = n)
    (hb : b.length = n) : ∃ r, childsImpurityClf c n wL wR a b = .ok r := by
  cases c with
  | gini =>
    obtain ⟨s, hs⟩ := sumSq_ok ha
    obtain ⟨t, ht⟩ := sumSq_ok hb
    exact ⟨_, by simp only [childsImpurityClf, giniChilds, hs, ht, bind_ok]; rfl⟩
  | entropy =>
    obtain ⟨s, hs⟩ := entropyNode_ok wL ha
    obtain ⟨t, ht⟩ := entropyNode_ok wR hb
    exact ⟨_, by simp only [childsImpurityClf, entropyChilds, hs, ht, bind_ok]; rfl⟩

/-- Reading an array along a permutation of its indices gives a permutation of the array. -/
theorem permRead {α : Type} {l : List Nat} {a : List α} (h : l.Perm (List.range a.length)) :
    ∃ r, l.mapM (rd a) = .ok r ∧ r.Perm a := by
  cases a with
  | nil =>
    have : l = [] := by simpa using h
    subst this
    exact ⟨[], rfl, .refl _⟩
  | cons x a =>
    refine ⟨l.map fun i => (x :: a).getD i x, mapM_ok_of ?_, ?_⟩
    · intro i hi
      have : i < (x :: a).length := List.mem_range.1 (h.mem_iff.1 hi)
      rw [rd_of_lt this, List.getD_eq_getElem?_getD, List.getElem?_eq_getElem this]; rfl
    · refine (h.map _).trans (.of_eq ?_)
      apply List.ext_getElem
      · simp
      · intro i h1 h2
        simp at h1
        simp [List.getD_eq_getElem?_getD, h1]

/-- Totality and length of a `mapM` of reads. -/
theorem mapM_rd {α : Type} {P : α → Prop} {l : List Nat} {a : List α} (h : ∀ b ∈ l, ∃ y, a[b]? = some y ∧ P y) :
    ∃ r, l.mapM (rd a) = .ok r ∧ r.length = l.length ∧ ∀ y ∈ r, P y := by
  induction l with
  | nil => exact ⟨[], rfl, rfl, by simp⟩
  | cons b l ih =>
    obtain ⟨y, h1, h2⟩ := h b (by simp)
    obtain ⟨r, e1, e2, e3⟩ := ih (fun b' hb' => h b' (by simp [hb']))
    refine ⟨y :: r, by simp only [List.mapM_cons, rd_ok.2 h1, e1, bind_ok, pure_eq_ok], by simp [e2], ?_⟩
    intro z hz
    rcases List.mem_cons.1 hz with rfl | hz
    · exact h2
    · exact e3 z hz

theorem classOrder_ok {argsort : List F → List Nat} (ha : ArgsortPerm argsort) {n : Nat} {bins : List Nat}
    {ySum : List (List F)} (hb : ∀ b ∈ bins, ∃ y, ySum[b]? = some y ∧ y.length = n) {mod : Nat} (hm : mod < n) :
    ∃ o, classOrder argsort bins ySum mod = .ok o ∧ o.Perm bins := by
  obtain ⟨rows, e1, e2, e3⟩ := mapM_rd hb
  have hcol := mapM_ok_of (f := fun r : List F => rd r mod)
    (l := rows.map fun r => r.map fun x => Num.div x (r.foldl Num.add Num.zero))
    (g := fun r => r.getD mod Num.zero) (by
      intro r hr
      obtain ⟨r', hr', rfl⟩ := List.mem_map.1 hr
      have : mod < (r'.map fun x => Num.div x (r'.foldl Num.add Num.zero)).length := by simp [e3 r' hr', hm]
      rw [rd_of_lt this, List.getD_eq_getElem?_getD, List.getElem?_eq_getElem this]; rfl)
  obtain ⟨o, f1, f2⟩ := permRead (a := bins) (l := argsort ((rows.map fun r => r.map fun x =>
    Num.div x (r.foldl Num.add Num.zero)).map fun r => r.getD mod Num.zero)) (by
      have := ha ((rows.map fun r => r.map fun x =>
        Num.div x (r.foldl Num.add Num.zero)).map fun r => r.getD mod Num.zero)
      simpa [e2] using this)
  exact ⟨o, by simp only [classOrder, e1, bind_ok, hcol, f1], f2⟩

theorem classifier_safe (R : Rng G) {argsort : List F → List Nat} (ha : ArgsortPerm argsort) (n : Nat) (d : F)
    (c : Criterion) {s : CatStrategy} (hs : StrategyOK n s) :
    TaskSafe (classifierTask R argsort n d c s) (ClassLabel n) (fun y => y.length = n) (fun p => p.length = n) where
  zeroY := by simp [classifierTask]
  addY := fun _ w _ hy hl => addClass_ok w hy hl
  plusY := fun a b ha hb => by simp [classifierTask, ha, hb]
  minusY := fun a b ha hb => by simp [classifierTask, ha, hb]
  zeroP := by simp [classifierTask]
  addP := fun _ w _ hy hl => addClass_ok w hy hl
  endP := fun _ w hp => finishClassPred_ok d w hp
  addLoss := fun p x w l hp hl => by
    have h : Num.toNat l < p.length := by rw [hp]; exact hl
    exact ⟨_, by simp only [classifierTask, addClassLoss, rd_of_lt h, bind_ok]; rfl⟩
  childs := fun wL wR _ _ h1 h2 => childsImpurityClf_ok c wL wR h1 h2
  orders := fun bins ySum g hb => by
    cases s with
    | all =>
      have : ∀ k ∈ List.range n, ∃ o, classOrder argsort bins ySum k = .ok o ∧ o.Perm bins :=
        fun k hk => classOrder_ok ha hb (List.mem_range.1 hk)
      obtain ⟨os, e1, e2⟩ : ∃ os, (List.range n).mapM (classOrder argsort bins ySum) = .ok os ∧
          ∀ o ∈ os, o.Perm bins := by
        generalize List.range n = l at this
        induction l with
        | nil => exact ⟨[], rfl, by simp⟩
        | cons k l ih =>
          obtain ⟨o, h1, h2⟩ := this k (by simp)
          obtain ⟨os, e1, e2⟩ := ih (fun k' hk' => this k' (by simp [hk']))
          refine ⟨o :: os, by simp only [List.mapM_cons, h1, e1, bind_ok, pure_eq_ok], ?_⟩
          intro z hz
          rcases List.mem_cons.1 hz with rfl | hz
          · exact h2
          · exact e2 z hz
      exact ⟨os, g, by simp only [classifierTask, classOrders, e1, bind_ok, pure_eq_ok], e2⟩
    | binary =>
      obtain ⟨o, h1, h2⟩ := classOrder_ok ha hb (show 1 < n from hs)
      exact ⟨[o], g, by simp only [classifierTask, classOrders, h1, bind_ok, pure_eq_ok], by simpa using h2⟩
    | random =>
      have hn : 0 < n := hs
      have hlt := R.randint_lt g n hn
      obtain ⟨m, g', hr⟩ : ∃ m g', R.randint g n = (m, g') := ⟨_, _, rfl⟩
      rw [hr] at hlt
      obtain ⟨o, h1, h2⟩ := classOrder_ok ha hb hlt
      refine ⟨[o], g', ?_, by simpa using h2⟩
      simp only at h1
      have hne : n ≠ 0 := by omega
      simp only [classifierTask, classOrders, Rng.draw, hr, hne, if_false, h1, bind_ok, pure_eq_ok]

theorem regressor_safe {argsort : List F → List Nat} (ha : ArgsortPerm argsort) :
    TaskSafe (regressorTask argsort : Task F (F × F) F G) (fun _ => True) (fun _ => True) (fun _ => True) where
  zeroY := trivial
  addY := fun _ _ _ _ _ => ⟨_, rfl, trivial⟩
  plusY := fun _ _ _ _ => trivial
  minusY := fun _ _ _ _ => trivial
  zeroP := trivial
  addP := fun _ _ _ _ _ => ⟨_, rfl, trivial⟩
  endP := fun _ _ _ => ⟨_, rfl, trivial⟩
  addLoss := fun _ _ _ _ _ _ => ⟨_, rfl⟩
  childs := fun _ _ _ _ _ _ => ⟨_, rfl⟩
  orders := fun bins ySum g hb => by
    obtain ⟨rows, e1, e2, _⟩ := mapM_rd hb
    obtain ⟨o, f1, f2⟩ := permRead (a := bins) (l := argsort (rows.map Prod.fst)) (by
      have := ha (rows.map Prod.fst)
      simpa [e2] using this)
    exact ⟨[o], g, by simp only [regressorTask, regOrder, e1, f1, bind_ok, pure_eq_ok], by simpa using f2⟩

end Verif
