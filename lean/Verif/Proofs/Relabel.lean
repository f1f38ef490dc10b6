import Verif.Proofs.ZeroWeight
import Verif.Proofs.Labels
import Verif.Spec.Relabel

set_option linter.unusedSectionVars false

/-! Permuted classes in lockstep, see Proofs/Rescale.lean. -/
namespace Verif

open Spec

variable {G : Type}

/-- A permutation of the classes. -/
structure IsClassPerm (n : Nat) (σ : Nat → Nat) : Prop where
  lt : ∀ k, k < n → σ k < n
  inj : ∀ k l, k < n → l < n → σ k = σ l → k = l

/-- Entry `σ k` of the second array is entry `k` of the first one. -/
structure PermRel (n : Nat) (σ : Nat → Nat) (y y' : List ℝ) : Prop where
  len : y.length = n
  len' : y'.length = n
  entry : ∀ k, k < n → y'.getD (σ k) 0 = y.getD k 0

theorem IsClassPerm.image {n : Nat} {σ : Nat → Nat} (h : IsClassPerm n σ) : (Finset.range n).image σ = Finset.range n := by
  refine Finset.eq_of_subset_of_card_le ?_ ?_
  · intro x hx
    obtain ⟨k, hk, rfl⟩ := Finset.mem_image.1 hx
    exact Finset.mem_range.2 (h.lt k (Finset.mem_range.1 hk))
  · rw [Finset.card_image_of_injOn fun a ha b hb e => h.inj a b (Finset.mem_range.1 ha) (Finset.mem_range.1 hb) e]

theorem PermRel.sum {n : Nat} {σ : Nat → Nat} (hσ : IsClassPerm n σ) {y y' : List ℝ} (h : PermRel n σ y y') (f : ℝ → ℝ) :
    ∑ k ∈ Finset.range n, f (y'.getD k 0) = ∑ k ∈ Finset.range n, f (y.getD k 0) := by
  conv_lhs => rw [← hσ.image]
  rw [Finset.sum_image fun a ha b hb e => hσ.inj a b (Finset.mem_range.1 ha) (Finset.mem_range.1 hb) e]
  exact Finset.sum_congr rfl fun k hk => by rw [h.entry k (Finset.mem_range.1 hk)]

theorem PermRel.classImp {n : Nat} {σ : Nat → Nat} (hσ : IsClassPerm n σ) {y y' : List ℝ} (h : PermRel n σ y y') (cr : Criterion) (w : ℝ) :
    Verif.classImp n cr w (fun k => y'.getD k 0) = Verif.classImp n cr w (fun k => y.getD k 0) := by
  cases cr with
  | gini =>
    simp only [Verif.classImp]
    rw [h.sum hσ fun v => v * v]
  | entropy =>
    simp only [Verif.classImp]
    rw [h.sum hσ fun v => if 0 < v then -(v / w * Real.log (v / w)) else 0]

theorem PermRel.replicate {n : Nat} {σ : Nat → Nat} (hσ : IsClassPerm n σ) : PermRel n σ (List.replicate n 0) (List.replicate n 0) where
  len := List.length_replicate
  len' := List.length_replicate
  entry k hk := by simp only [List.getD_eq_getElem?_getD, List.getElem?_replicate, if_pos hk, if_pos (hσ.lt k hk)]

theorem PermRel.map {n : Nat} {σ : Nat → Nat} (hσ : IsClassPerm n σ) {y y' : List ℝ} (h : PermRel n σ y y') (f : ℝ → ℝ) :
    PermRel n σ (y.map f) (y'.map f) where
  len := by rw [List.length_map, h.len]
  len' := by rw [List.length_map, h.len']
  entry k hk := by
    have := h.entry k hk
    have h1 : k < y.length := by rw [h.len]; exact hk
    have h2 : σ k < y'.length := by rw [h.len']; exact hσ.lt k hk
    simp only [List.getD_eq_getElem?_getD, List.getElem?_map, List.getElem?_eq_getElem h1, List.getElem?_eq_getElem h2, Option.map_some,
      Option.getD_some] at this ⊢
    rw [this]

theorem PermRel.zipWith {n : Nat} {σ : Nat → Nat} (hσ : IsClassPerm n σ) {y y' z z' : List ℝ} (h : PermRel n σ y y') (h2 : PermRel n σ z z')
    (f : ℝ → ℝ → ℝ) : PermRel n σ (List.zipWith f y z) (List.zipWith f y' z') where
  len := by rw [List.length_zipWith, h.len, h2.len, min_self]
  len' := by rw [List.length_zipWith, h.len', h2.len', min_self]
  entry k hk := by
    have e1 := h.entry k hk
    have e2 := h2.entry k hk
    have h1 : k < y.length := by rw [h.len]; exact hk
    have h1' : σ k < y'.length := by rw [h.len']; exact hσ.lt k hk
    have h3 : k < z.length := by rw [h2.len]; exact hk
    have h3' : σ k < z'.length := by rw [h2.len']; exact hσ.lt k hk
    simp only [List.getD_eq_getElem?_getD, List.getElem?_zipWith, List.getElem?_eq_getElem h1, List.getElem?_eq_getElem h1',
      List.getElem?_eq_getElem h3, List.getElem?_eq_getElem h3', Option.getD_some] at e1 e2 ⊢
    rw [e1, e2]

theorem PermRel.rd {n : Nat} {σ : Nat → Nat} (hσ : IsClassPerm n σ) {y y' : List ℝ} (h : PermRel n σ y y') {k : Nat} (hk : k < n) :
    ∃ x, rd y k = .ok x ∧ rd y' (σ k) = .ok x := by
  have h1 : k < y.length := by rw [h.len]; exact hk
  have h2 : σ k < y'.length := by rw [h.len']; exact hσ.lt k hk
  have := h.entry k hk
  simp only [List.getD_eq_getElem?_getD, List.getElem?_eq_getElem h1, List.getElem?_eq_getElem h2, Option.getD_some] at this
  exact ⟨y[k], rd_ok.2 (List.getElem?_eq_getElem h1), rd_ok.2 (by rw [List.getElem?_eq_getElem h2, this])⟩

theorem addClass_perm {n : Nat} {σ : Nat → Nat} (hσ : IsClassPerm n σ) {y y' : List ℝ} (h : PermRel n σ y y') {k : Nat} (hk : k < n) (v : ℝ) :
    SameResult (PermRel n σ) (addClass y v (k : ℝ)) (addClass y' v (σ k : ℝ)) := by
  unfold addClass
  rw [show Num.toNat (k : ℝ) = k from Nat.floor_natCast k, show Num.toNat (σ k : ℝ) = σ k from Nat.floor_natCast _]
  obtain ⟨x, h1, h2⟩ := h.rd hσ hk
  rw [h1, h2, bind_ok, bind_ok]
  have e1 : k < y.length := by rw [h.len]; exact hk
  have e2 : σ k < y'.length := by rw [h.len']; exact hσ.lt k hk
  unfold wr
  rw [if_pos e1, if_pos e2]
  refine ⟨by rw [List.length_set, h.len], by rw [List.length_set, h.len'], fun j hj => ?_⟩
  by_cases hjk : k = j
  · subst hjk
    simp only [List.getD_eq_getElem?_getD, List.getElem?_set_self e1, List.getElem?_set_self e2]
  · have : σ k ≠ σ j := fun e => hjk (hσ.inj k j hk hj e)
    have := h.entry j hj
    simp only [List.getD_eq_getElem?_getD, List.getElem?_set_ne hjk, List.getElem?_set_ne (by assumption : σ k ≠ σ j)] at this ⊢
    exact this

/-- Classification with permuted classes. -/
noncomputable def classPerm (R : Rng G) (argsort : List ℝ → List Nat) {n n' : Nat} (hn : n' = n) (d : ℝ) (cr : Criterion) (st : CatStrategy)
    {σ : Nat → Nat} (hσ : IsClassPerm n σ) :
    TaskSim (classifierTask R argsort n d cr st) (classifierTask R argsort n' d cr st) where
  κ := 1
  μ := 1
  lam := 1
  NZ _ := True
  RL _ l l' := ∃ k, k < n ∧ l = (k : ℝ) ∧ l' = (σ k : ℝ)
  RY _ := PermRel n σ
  RA _ := PermRel n σ
  RP _ := PermRel n σ
  κ_pos := one_pos
  μ_pos := one_pos
  mulL h _ := h
  zeroY := by subst hn; exact PermRel.replicate hσ
  addY := by
    rintro w y y' l l' h v ⟨k, hk, rfl, rfl⟩
    rw [one_mul]
    exact addClass_perm hσ h hk v
  plusY := by
    rintro w y y' v z z' h1 h2
    exact h1.zipWith hσ h2 _
  minusY := by
    rintro w y y' v z z' h1 h2
    exact h1.zipWith hσ h2 _
  zeroA := by subst hn; exact PermRel.replicate hσ
  zeroP := by subst hn; exact PermRel.replicate hσ
  addP := by
    rintro w y y' l l' h v ⟨k, hk, rfl, rfl⟩
    rw [one_mul]
    exact addClass_perm hσ h hk v
  endP := by
    subst hn
    rintro w p p' h
    rw [one_mul]
    show SameResult _ (finishClassPred n' d p w) (finishClassPred n' d p' w)
    rw [finishClassPred_real _ _ h.len, finishClassPred_real _ _ h.len']
    exact h.map hσ _
  addLoss := by
    rintro w p p' x x' l l' h hx v ⟨k, hk, rfl, rfl⟩
    show SameResult _ (addClassLoss p x v (k : ℝ)) (addClassLoss p' x' (1 * v) (σ k : ℝ))
    unfold addClassLoss
    rw [show Num.toNat (k : ℝ) = k from Nat.floor_natCast k, show Num.toNat (σ k : ℝ) = σ k from Nat.floor_natCast _]
    obtain ⟨q, h1, h2⟩ := h.rd hσ hk
    rw [h1, h2, bind_ok, bind_ok]
    refine SameResult.pure fun _ => ?_
    rw [hx trivial, one_mul, one_mul, one_mul]
  childs := by
    subst hn
    rintro w y y' v z z' h1 h2
    simp only [one_mul]
    show SameResult _ (childsImpurityClf cr n' w v y z) (childsImpurityClf cr n' w v y' z')
    rw [childs_real cr w v h1.len h2.len, childs_real cr w v h1.len' h2.len']
    show _ = _
    rw [h1.classImp hσ, h2.classImp hσ]

/-! ### The forest -/

theorem lengths_eq {n : Nat} {σ : Nat → Nat} {a a' : List (List ℝ)} (h : List.Forall₂ (PermRel n σ) a a') :
    a.map List.length = a'.map List.length := by
  induction h with
  | nil => rfl
  | cons h _ ih => rw [List.map_cons, List.map_cons, ih, h.len, h.len']

theorem addMat_perm {n : Nat} {σ : Nat → Nat} (hσ : IsClassPerm n σ) {a a' b b' : List (List ℝ)} (ha : List.Forall₂ (PermRel n σ) a a')
    (hb : List.Forall₂ (PermRel n σ) b b') : SameResult (List.Forall₂ (PermRel n σ)) (addMat a b) (addMat a' b') := by
  unfold addMat
  rw [← lengths_eq ha, ← lengths_eq hb, ← ha.length_eq]
  by_cases h : a.map List.length = b.map List.length
  · rw [if_pos h, if_pos h]
    refine SameResult.ok ?_
    have hl : a.length = b.length := by simpa using congrArg List.length h
    clear h
    induction ha generalizing b b' with
    | nil => simp
    | cons h _ ih =>
      cases hb with
      | nil => simp
      | cons h2 hb => exact .cons (h.zipWith hσ h2 _) (ih hb (by simpa using hl))
  · rw [if_neg h, if_neg h]
    by_cases h2 : b.map List.length = List.replicate a.length 1
    · exfalso
      have hl : b.length = a.length := by simpa using congrArg List.length h2
      refine h (List.ext_getElem (by simp [hl]) fun i h3 h4 => ?_)
      simp only [List.length_map] at h3 h4
      simp only [List.getElem_map]
      have e1 := (List.forall₂_iff_get.1 ha).2 i h3 (ha.length_eq ▸ h3)
      have e2 := (List.forall₂_iff_get.1 hb).2 i h4 (hb.length_eq ▸ h4)
      exact e1.len.trans e2.len.symm
    · rw [if_neg h2, if_neg h2]
      rfl

theorem proba_perm {n : Nat} {σ : Nat → Nat} (hσ : IsClassPerm n σ) {l l' : List (TreeObj ℝ (List ℝ) G)}
    (h : List.Forall₂ (TreesSim (PermRel n σ) mixV) l l') (fba : FBA) :
    SameResult (List.Forall₂ (PermRel n σ)) (predictProba n l fba) (predictProba n l' fba) := by
  unfold predictProba accumulateProba
  rw [← h.length_eq]
  refine SameResult.bind (S := List.Forall₂ (PermRel n σ)) ?_ fun a b hab => SameResult.pure ?_
  · have key : ∀ a a', List.Forall₂ (PermRel n σ) a a' → SameResult (List.Forall₂ (PermRel n σ))
        (l.foldlM (fun out o => do let p ← o.predict mixV fba; addMat out p) a) (l'.foldlM (fun out o => do let p ← o.predict mixV fba; addMat out p) a') := by
      induction h with
      | nil => exact fun a a' h => h
      | cons h _ ih =>
        intro a a' ha
        simp only [List.foldlM_cons]
        refine SameResult.bind (S := List.Forall₂ (PermRel n σ)) ?_ fun b b' hb => ih b b' hb
        exact (h.predict fba).bind fun p p' hp => addMat_perm hσ ha hp
    refine key _ _ ?_
    rw [List.forall₂_iff_get]
    refine ⟨rfl, fun i h1 h2 => ?_⟩
    simp only [List.get_eq_getElem, List.getElem_replicate]
    exact PermRel.replicate hσ
  · induction hab with
    | nil => exact .nil
    | cons h _ ih => exact .cons (h.map hσ _) ih

/-! ### The labels -/

section
variable {L V K W N : Type} [LinearOrder L] [DecidableEq V] [DecidableEq N] [LinearOrder K] [Field K] [IsStrictOrderedRing K]
  [FloorSemiring K]

/-- The new index of class number `k`. -/
def newIndex (ρ : L → L) (y : List L) (k : Nat) : Nat :=
  match (sortedUnique y)[k]? with
  | some l => (sortedUnique (y.map ρ)).idxOf (ρ l)
  | none => k

theorem newIndex_idxOf {ρ : L → L} {y : List L} {l : L} (hl : l ∈ y) :
    newIndex ρ y ((sortedUnique y).idxOf l) = (sortedUnique (y.map ρ)).idxOf (ρ l) := by
  have hm : l ∈ sortedUnique y := mem_sortedUnique.2 hl
  unfold newIndex
  rw [List.getElem?_eq_getElem (List.idxOf_lt_length_iff.2 hm), List.getElem_idxOf]

theorem dedup_length_map {α β : Type} [DecidableEq α] [DecidableEq β] {ρ : α → β} {y : List α} (hρ : ∀ l ∈ y, ∀ m ∈ y, ρ l = ρ m → l = m) :
    (y.map ρ).dedup.length = y.dedup.length := by
  have : (y.map ρ).toFinset = y.toFinset.image ρ := by
    ext x
    simp
  rw [← List.card_toFinset, ← List.card_toFinset, this]
  exact Finset.card_image_of_injOn fun a ha b hb e => hρ a (List.mem_toFinset.1 ha) b (List.mem_toFinset.1 hb) e

theorem renamed_length {ρ : L → L} {y : List L} (hρ : ∀ l ∈ y, ∀ m ∈ y, ρ l = ρ m → l = m) :
    (sortedUnique (y.map ρ)).length = (sortedUnique y).length := by
  rw [sortedUnique_length, sortedUnique_length, dedup_length_map hρ]

theorem newIndex_perm {ρ : L → L} {y : List L} (hρ : ∀ l ∈ y, ∀ m ∈ y, ρ l = ρ m → l = m) : IsClassPerm (sortedUnique y).length (newIndex ρ y) where
  lt k hk := by
    unfold newIndex
    rw [List.getElem?_eq_getElem hk, ← renamed_length hρ]
    exact List.idxOf_lt_length_iff.2 (mem_sortedUnique.2 (List.mem_map.2 ⟨_, mem_sortedUnique.1 (List.getElem_mem hk), rfl⟩))
  inj k l hk hl h := by
    unfold newIndex at h
    rw [List.getElem?_eq_getElem hk, List.getElem?_eq_getElem hl] at h
    have hm : ∀ k (hk : k < (sortedUnique y).length), ρ (sortedUnique y)[k] ∈ sortedUnique (y.map ρ) := fun k hk =>
      mem_sortedUnique.2 (List.mem_map.2 ⟨_, mem_sortedUnique.1 (List.getElem_mem hk), rfl⟩)
    have h1 : ρ (sortedUnique y)[k] = ρ (sortedUnique y)[l] := (List.idxOf_inj (hm k hk)).1 h
    have h2 := hρ _ (mem_sortedUnique.1 (List.getElem_mem hk)) _ (mem_sortedUnique.1 (List.getElem_mem hl)) h1
    have hnd : (sortedUnique y).Nodup := (sortedUnique_sorted y).imp fun h => ne_of_lt h
    exact (List.Nodup.getElem_inj_iff hnd).1 h2

theorem renamed_codes {ρ : L → L} {y : List L} :
    labelCodes (sortedUnique (y.map ρ)) (y.map ρ) = (labelCodes (sortedUnique y) y).map (newIndex ρ y) := by
  unfold labelCodes
  rw [List.map_map, List.map_map]
  exact List.map_congr_left fun l hl => (newIndex_idxOf hl).symm

theorem count_map {α β : Type} [DecidableEq α] [DecidableEq β] {ρ : α → β} {y : List α} {k : α} (hρ : ∀ l ∈ y, ρ l = ρ k → l = k) :
    (y.map ρ).count (ρ k) = y.count k := by
  unfold List.count
  rw [List.countP_map]
  refine List.countP_congr fun l hl => ?_
  simp only [Function.comp_apply, beq_iff_eq]
  exact ⟨hρ l hl, fun h => by rw [h]⟩

theorem balancedWeights_map {σ : Nat → Nat} {y : List Nat} (hσ : ∀ l ∈ y, ∀ m ∈ y, σ l = σ m → l = m) :
    balancedWeights (F := ℝ) (y.map σ) = balancedWeights y := by
  unfold balancedWeights
  rw [List.map_map]
  refine List.map_congr_left fun k hk => ?_
  rw [Function.comp_apply, List.length_map, dedup_length_map hσ, count_map fun l hl => hσ l hl k hk]

theorem class_perm {lib : Lib V K ℝ G W} {a : FitArgs N V} {y : List L} {s : World L V K ℝ (List ℝ) G W} {ρ : L → L}
    (hlib : LibOK lib a.nRows) (hp : ParamsValid s.self (nCols a.X)) (hd : DataValid lib.conv a s y.length) (ht : a.targetsOK = true)
    (hrefit : s.self.ovr = true → s.self.fitted = true → 2 < (sortedUnique y).length)
    (hdir : s.self.aggregation = true → s.self.dirichlet ≠ 0)
    (hst : StrategyOK (sortedUnique y).length s.self.strategy) (hmode : staysOvr s.self y = false)
    (hρ : ∀ l ∈ y, ∀ m ∈ y, ρ l = ρ m → l = m) :
    ∃ t t', fitClassifier lib a y s = (.ok (), t) ∧ fitClassifier lib a (y.map ρ) s = (.ok (), t') ∧
      ((∀ b ∈ t.self.isCategorical_, b = false) → ∀ eps n (E : Dataset N V),
        SameResult (SameProba ρ y t.self.classes t'.self.classes) (t.self.predictProba lib eps n E) (t'.self.predictProba lib eps n E) ∧
        t'.self.apply lib n E = t.self.apply lib n E) := by
  have hn := renamed_length hρ
  have hmode' : staysOvr s.self (y.map ρ) = false := by unfold staysOvr at hmode ⊢; rw [hn]; exact hmode
  have hc : codesOf s.self y = [labelCodes (sortedUnique y) y] := by unfold codesOf; rw [hmode]; rfl
  have hc' : codesOf s.self (y.map ρ) = [(labelCodes (sortedUnique y) y).map (newIndex ρ y)] := by unfold codesOf; rw [hmode', ← renamed_codes]; rfl
  have hσ := newIndex_perm hρ
  have hws : classWeights s.self (y.map ρ) (weightsOf a s) = classWeights s.self y (weightsOf a s) := by
    unfold classWeights
    rw [hc, hc']
    simp only [List.map_cons, List.map_nil]
    rw [balancedWeights_map fun l hl m hm => hσ.inj l m (labelCodes_lt l hl) (labelCodes_lt m hm)]
  obtain ⟨t, t', h1, h2, c1, c2, c3, c4, c5, c6, c7, c8, c9, h3⟩ := class_sim hlib hp hd ht hrefit hdir hst (List.length_map ρ) hn
    (classPerm lib.rng lib.argsort (n := if staysOvr s.self y then 2 else (sortedUnique y).length) (by rw [hmode, hmode', hn]) s.self.dirichlet s.self.criterion s.self.strategy
      (σ := newIndex ρ y) (by rw [hmode]; exact hσ)) (fun _ => trivial) rfl rfl hws
    (RF := PermRel (sortedUnique y).length (newIndex ρ y)) (by
      intro i c c' w g1 g2 g3 j k k' v e1 e2 e3
      rw [hc] at g1
      rw [hc'] at g2
      match i with
      | 0 =>
        simp only [List.getElem?_cons_zero, Option.some.injEq] at g1 g2
        subst g1 g2
        rw [List.getElem?_map, e1] at e2
        refine ⟨k, ?_, rfl, ?_⟩
        · rw [hmode]; exact labelCodes_lt k (List.mem_of_getElem? e1)
        · rw [← Option.some.inj e2]; rfl
      | i + 1 => simp at g1)
    (fun w p p' h => by
      have h : PermRel (if staysOvr s.self y then 2 else (sortedUnique y).length) (newIndex ρ y) p p' := h
      rw [hmode] at h
      exact h)
    (fun x a a' b b' h1 h2 => h1.zipWith hσ h2 _)
  refine ⟨t, t', h1, h2, fun hcat eps n E => ?_⟩
  have h3 := h3 (.inl hcat)
  refine ⟨?_, apply_of c7 h3 n E⟩
  unfold Est.predictProba
  rw [encode_eq c7, c3, c4, c5, c8, hmode, c9]
  refine SameResult.same.bind ?_
  rintro fba _ rfl
  split
  · rfl
  · refine (proba_perm hσ h3 fba).mono fun rows rows' hrows => ?_
    rw [c1, c2]
    refine hrows.imp fun row row' h l hl => ?_
    have hk := List.idxOf_lt_length_iff.2 (mem_sortedUnique.2 hl)
    obtain ⟨x, e1, e2⟩ := h.rd hσ hk
    rw [newIndex_idxOf hl] at e2
    exact ⟨x, rd_ok.1 e1, rd_ok.1 e2⟩

end

end Verif
