import Verif.Model.Inspect
import Verif.Proofs.Forest
import Verif.Spec.Leaves

/-! # Predictions depend on the leaves only -/
set_option linter.unusedSectionVars false
namespace Verif

open Spec

section
variable {L V K F P G W N N' : Type} [LinearOrder L] [DecidableEq V] [DecidableEq N] [DecidableEq N'] [LinearOrder K] [Field K] [FloorSemiring K] [Num F]

theorem range_mapM_get {α : Type} {f : Nat → M α} {n : Nat} {l : List α} (h : (List.range n).mapM f = .ok l) {i : Nat} {v : α} (hi : l[i]? = some v) :
    f i = .ok v := by
  have h2 := mapM_eq_ok.1 h
  obtain ⟨hlt, rfl⟩ := List.getElem?_eq_some_iff.1 hi
  have := h2.get (i := i) (by rw [h2.length_eq]; exact hlt) hlt
  simpa using this

theorem range_mapM_len {α : Type} {f : Nat → M α} {n : Nat} {l : List α} (h : (List.range n).mapM f = .ok l) : l.length = n := by
  have := (mapM_eq_ok.1 h).length_eq
  simpa using this.symm

/-- The value of a tree at two rows with the same leaf. -/
theorem predictRow_sameLeaf {mix : F → P → P → P} {t : TreeArr F P} {b b' : FBA} {agg : Bool} {step : F} {i j : Nat} (h : findLeaf t b i = findLeaf t b' j) :
    predictRow mix t b agg step i = predictRow mix t b' agg step j := by
  unfold predictRow
  rw [h]

theorem weightedDepthRow_leaf {t : TreeArr F P} {b b' : FBA} {step : F} {i j : Nat} (h : findLeaf t b i = findLeaf t b' j) :
    weightedDepthRow t b step i = weightedDepthRow t b' step j := by
  unfold weightedDepthRow
  rw [h]

/-- Row `i` of the one and row `j` of the other table reach the same leaf of the tree. -/
def LeafEq (b b' : FBA) (i j : Nat) (o : TreeObj F P G) : Prop := i < b.nSamples ∧ j < b'.nSamples ∧ findLeaf o.arr b i = findLeaf o.arr b' j

theorem LeafEq.get {b b' : FBA} {i j : Nat} {o : TreeObj F P G} (h : LeafEq b b' i j o) {mix : F → P → P → P} {p p' : List P} (hp : o.predict mix b = .ok p)
    (hp' : o.predict mix b' = .ok p') : ∃ v, p[i]? = some v ∧ p'[j]? = some v := by
  obtain ⟨h1, h2, h3⟩ := h
  have e := List.getElem?_eq_getElem (show i < p.length by rw [range_mapM_len hp]; exact h1)
  have e' := List.getElem?_eq_getElem (show j < p'.length by rw [range_mapM_len hp']; exact h2)
  refine ⟨_, e, e'.trans ?_⟩
  have g := range_mapM_get hp e
  have g' := range_mapM_get hp' e'
  rw [predictRow_sameLeaf h3, g'] at g
  injection g with g
  rw [g]

/-- A loop over trees that treats the rows separately. -/
theorem fold_rows {σ τ : Type} {f f' : List σ → τ → M (List σ)} {i j : Nat} : ∀ (l : List τ)
    (_ : ∀ o ∈ l, ∀ out out' r r' v, f out o = .ok r → f' out' o = .ok r' → out[i]? = some v → out'[j]? = some v → ∃ w, r[i]? = some w ∧ r'[j]? = some w)
    (out out' r r' : List σ) (v : σ), l.foldlM f out = .ok r → l.foldlM f' out' = .ok r' → out[i]? = some v → out'[j]? = some v →
    ∃ w, r[i]? = some w ∧ r'[j]? = some w
  | [], _, out, out', r, r', v, h, h', hv, hv' => by
    rw [List.foldlM_nil] at h h'
    cases h
    cases h'
    exact ⟨v, hv, hv'⟩
  | o :: l, hs, out, out', r, r', v, h, h', hv, hv' => by
    rw [List.foldlM_cons, bind_eq_ok] at h h'
    obtain ⟨q, h1, h2⟩ := h
    obtain ⟨q', h1', h2'⟩ := h'
    obtain ⟨w, hw, hw'⟩ := hs o (by simp) _ _ _ _ _ h1 h1' hv hv'
    exact fold_rows l (fun o ho => hs o (by simp [ho])) _ _ _ _ _ h2 h2' hw hw'

theorem addRows_get {α : Type} {add : α → α → α} {out p r : List α} (h : addRows add out p = .ok r) {i : Nat} {v q : α} (hv : out[i]? = some v)
    (hq : p[i]? = some q) : r[i]? = some (add v q) := by
  unfold addRows at h
  split at h
  · injection h with h
    rw [← h, List.getElem?_zipWith, hv, hq]
  · cases h

theorem addMat_get {out p r : List (List F)} (h : addMat out p = .ok r) {i : Nat} {v q : List F} (hv : out[i]? = some v) (hq : p[i]? = some q) :
    r[i]? = some (if v.length = q.length then List.zipWith Num.add v q else v.map fun x => Num.add x (q.headD Num.zero)) := by
  unfold addMat at h
  split at h
  · next hl =>
    have : (out.map List.length)[i]? = (p.map List.length)[i]? := by rw [hl]
    rw [List.getElem?_map, List.getElem?_map, hv, hq] at this
    injection h with h
    rw [← h, List.getElem?_zipWith, hv, hq]
    rw [if_pos (by simpa using this)]
  · split at h
    · next hl =>
      have : (p.map List.length)[i]? = (List.replicate out.length 1)[i]? := by rw [hl]
      have hi : i < out.length := (List.getElem?_eq_some_iff.1 hv).1
      rw [List.getElem?_map, hq, List.getElem?_replicate, if_pos hi] at this
      have h1 : q.length = 1 := by simpa using this
      injection h with h
      rw [← h, List.getElem?_zipWith, hv, hq]
      by_cases hvq : v.length = q.length
      · rw [if_pos hvq]
        rw [h1] at hvq
        obtain ⟨x, rfl⟩ := List.length_eq_one_iff.1 hvq
        obtain ⟨z, rfl⟩ := List.length_eq_one_iff.1 h1
        rfl
      · rw [if_neg hvq]
    · cases h

theorem leaf_predict {trees : List (TreeObj F F G)} {b b' : FBA} {i j : Nat} (h : ∀ o ∈ trees, LeafEq b b' i j o) (hi : i < b.nSamples) (hj : j < b'.nSamples)
    {p p' : List F} (hp : forestPredict trees b = .ok p) (hp' : forestPredict trees b' = .ok p') : p[i]? = p'[j]? := by
  unfold forestPredict at hp hp'
  rw [bind_eq_ok] at hp hp'
  obtain ⟨r, h1, h2⟩ := hp
  obtain ⟨r', h1', h2'⟩ := hp'
  obtain ⟨w, hw, hw'⟩ := fold_rows trees (fun o ho out out' r r' v hr hr' hv hv' => by
    rw [bind_eq_ok] at hr hr'
    obtain ⟨q, g1, g2⟩ := hr
    obtain ⟨q', g1', g2'⟩ := hr'
    obtain ⟨z, hz, hz'⟩ := (h o ho).get g1 g1'
    exact ⟨_, addRows_get g2 hv hz, addRows_get g2' hv' hz'⟩) _ _ _ _ Num.zero h1 h1' (by simp [hi]) (by simp [hj])
  cases h2
  cases h2'
  rw [List.getElem?_map, List.getElem?_map, hw, hw']

theorem leaf_proba {m : Nat} {trees : List (TreeObj F (List F) G)} {b b' : FBA} {i j : Nat} (h : ∀ o ∈ trees, LeafEq b b' i j o) (hi : i < b.nSamples)
    (hj : j < b'.nSamples) {p p' : List (List F)} (hp : predictProba m trees b = .ok p) (hp' : predictProba m trees b' = .ok p') : p[i]? = p'[j]? := by
  unfold predictProba accumulateProba at hp hp'
  rw [bind_eq_ok] at hp hp'
  obtain ⟨r, h1, h2⟩ := hp
  obtain ⟨r', h1', h2'⟩ := hp'
  obtain ⟨w, hw, hw'⟩ := fold_rows trees (fun o ho out out' r r' v hr hr' hv hv' => by
    rw [bind_eq_ok] at hr hr'
    obtain ⟨q, g1, g2⟩ := hr
    obtain ⟨q', g1', g2'⟩ := hr'
    obtain ⟨z, hz, hz'⟩ := (h o ho).get g1 g1'
    exact ⟨_, addMat_get g2 hv hz, addMat_get g2' hv' hz'⟩) _ _ _ _ (List.replicate m Num.zero) h1 h1' (by simp [hi]) (by simp [hj])
  cases h2
  cases h2'
  rw [List.getElem?_map, List.getElem?_map, hw, hw']

theorem zip_mapM_get {α β γ : Type} {f : α × β → M γ} {l : List α} {l' : List β} {r : List γ} (h : (l.zip l').mapM f = .ok r) {i : Nat} {v : α} {q : β}
    (hv : l[i]? = some v) (hq : l'[i]? = some q) : ∃ w, r[i]? = some w ∧ f (v, q) = .ok w := by
  have h2 := mapM_eq_ok.1 h
  have hz : (l.zip l')[i]? = some (v, q) := List.getElem?_zip_eq_some.2 ⟨hv, hq⟩
  obtain ⟨hlt, he⟩ := List.getElem?_eq_some_iff.1 hz
  have hlt' : i < r.length := by rw [← h2.length_eq]; exact hlt
  have := h2.get (i := i) hlt hlt'
  refine ⟨_, List.getElem?_eq_getElem hlt', ?_⟩
  rw [← he]
  simpa using this

theorem leaf_ovr {eps : F} {m ne : Nat} {trees : List (TreeObj F (List F) G)} {b b' : FBA} {i j : Nat} (h : ∀ o ∈ trees, LeafEq b b' i j o)
    (hi : i < b.nSamples) (hj : j < b'.nSamples) {p p' : List (List F)} (hp : predictProbaOvr eps m ne trees b = .ok p)
    (hp' : predictProbaOvr eps m ne trees b' = .ok p') : p[i]? = p'[j]? := by
  unfold predictProbaOvr at hp hp'
  rw [bind_eq_ok] at hp hp'
  obtain ⟨r, h1, h2⟩ := hp
  obtain ⟨r', h1', h2'⟩ := hp'
  obtain ⟨w, hw, hw'⟩ := fold_rows trees.zipIdx (fun x ho out out' r r' v hr hr' hv hv' => by
    obtain ⟨o, k⟩ := x
    have ho : o ∈ trees := by
      have := List.mem_zipIdx ho
      rw [this.2.2]
      exact List.getElem_mem _
    dsimp only at hr hr'
    rw [bind_eq_ok] at hr hr'
    obtain ⟨q, g1, g2⟩ := hr
    obtain ⟨q', g1', g2'⟩ := hr'
    obtain ⟨z, hz, hz'⟩ := (h o ho).get g1 g1'
    split at g2
    · split at g2'
      · obtain ⟨w, a1, a2⟩ := zip_mapM_get g2 hv hz
        obtain ⟨w', a1', a2'⟩ := zip_mapM_get g2' hv' hz'
        rw [a2] at a2'
        injection a2' with a2'
        exact ⟨w, a1, a2' ▸ a1'⟩
      · cases g2'
    · cases g2) _ _ _ _ (List.replicate m Num.zero) h1 h1' (by simp [hi]) (by simp [hj])
  cases h2
  cases h2'
  rw [List.getElem?_map, List.getElem?_map, hw, hw']

/-- The number of rows of a sum over trees. -/
theorem fold_length {σ τ : Type} {f : List σ → τ → M (List σ)} (hs : ∀ out o r, f out o = .ok r → r.length = out.length) :
    ∀ (l : List τ) (out r : List σ), l.foldlM f out = .ok r → r.length = out.length
  | [], out, r, h => by
    rw [List.foldlM_nil] at h
    cases h
    rfl
  | o :: l, out, r, h => by
    rw [List.foldlM_cons, bind_eq_ok] at h
    obtain ⟨q, h1, h2⟩ := h
    rw [fold_length hs l _ _ h2, hs _ _ _ h1]

theorem forestPredict_length {trees : List (TreeObj F F G)} {b : FBA} {p : List F} (hp : forestPredict trees b = .ok p) : p.length = b.nSamples := by
  unfold forestPredict at hp
  rw [bind_eq_ok] at hp
  obtain ⟨r, h1, h2⟩ := hp
  cases h2
  rw [List.length_map, fold_length (fun out o r hr => by
    rw [bind_eq_ok] at hr
    obtain ⟨q, -, g2⟩ := hr
    unfold addRows at g2
    split at g2
    · next hl => cases g2; simp [hl]
    · cases g2) _ _ _ h1, List.length_replicate]

theorem predictProba_length' {m : Nat} {trees : List (TreeObj F (List F) G)} {b : FBA} {p : List (List F)} (hp : predictProba m trees b = .ok p) :
    p.length = b.nSamples := by
  unfold predictProba accumulateProba at hp
  rw [bind_eq_ok] at hp
  obtain ⟨r, h1, h2⟩ := hp
  cases h2
  rw [List.length_map, fold_length (fun out o r hr => by
    rw [bind_eq_ok] at hr
    obtain ⟨q, -, g2⟩ := hr
    unfold addMat at g2
    split at g2
    · next hl =>
      have := congrArg List.length hl
      simp only [List.length_map] at this
      cases g2
      simp [this]
    · split at g2
      · next hl =>
        have := congrArg List.length hl
        simp only [List.length_map, List.length_replicate] at this
        cases g2
        simp [this]
      · cases g2) _ _ _ h1, List.length_replicate]

theorem predictProbaOvr_length' {eps : F} {m ne : Nat} {trees : List (TreeObj F (List F) G)} {b : FBA} {p : List (List F)}
    (hp : predictProbaOvr eps m ne trees b = .ok p) : p.length = b.nSamples := by
  unfold predictProbaOvr at hp
  rw [bind_eq_ok] at hp
  obtain ⟨r, h1, h2⟩ := hp
  cases h2
  rw [List.length_map, fold_length (fun out x r hr => by
    obtain ⟨o, k⟩ := x
    dsimp only at hr
    rw [bind_eq_ok] at hr
    obtain ⟨q, -, g2⟩ := hr
    split at g2
    · next hl =>
      have := (mapM_eq_ok.1 g2).length_eq
      rw [← this, List.length_zip, hl, min_self]
    · cases g2) _ _ _ h1, List.length_replicate]

/-- What `apply` says about two rows. -/
theorem leaves_eq {lib : Lib V K F G W} {e : Est L V K F P G} {n n' : Nat} {X : Dataset N V} {X' : Dataset N' V} {A A' : List (List Nat)} {i j : Nat}
    (hA : e.apply lib n X = .ok A) (hA' : e.apply lib n' X' = .ok A') (hs : SameLeaves A A' i j) :
    ∃ b b', e.encode lib n X = .ok b ∧ e.encode lib n' X' = .ok b' ∧ ∀ o ∈ e.trees, LeafEq b b' i j o := by
  unfold Est.apply at hA hA'
  rw [bind_eq_ok] at hA hA'
  obtain ⟨b, h1, h2⟩ := hA
  obtain ⟨b', h1', h2'⟩ := hA'
  refine ⟨b, b', h1, h1', fun o ho => ?_⟩
  obtain ⟨t, ht, rfl⟩ := List.getElem_of_mem ho
  have g := mapM_eq_ok.1 h2
  have g' := mapM_eq_ok.1 h2'
  have ha : t < A.length := by rw [← g.length_eq]; exact ht
  have ha' : t < A'.length := by rw [← g'.length_eq]; exact ht
  have k := g.get (i := t) ht ha
  have k' := g'.get (i := t) ht ha'
  obtain ⟨leaf, q, q'⟩ := hs t _ _ (List.getElem?_eq_getElem ha) (List.getElem?_eq_getElem ha')
  have k : treeApply e.trees[t].arr b = .ok A[t] := by simpa using k
  have k' : treeApply e.trees[t].arr b' = .ok A'[t] := by simpa using k'
  refine ⟨?_, ?_, ?_⟩
  · rw [← range_mapM_len k]; exact (List.getElem?_eq_some_iff.1 q).1
  · rw [← range_mapM_len k']; exact (List.getElem?_eq_some_iff.1 q').1
  · rw [range_mapM_get k q, range_mapM_get k' q']

end

end Verif
