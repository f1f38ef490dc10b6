import Verif.Model.Setters
import Verif.Proofs.Forest

set_option linter.unusedSectionVars false

/-! Changing `step` after `fit`. -/
namespace Verif

open Spec

variable {F Y P G : Type} [Num F]

/-! ### Growing does not read `step` -/

/-- The state after the loop of `grow`. -/
def growRaw (R : Rng G) (T : Task F Y P G) (c : Ctx F) (gb : Garbage F) (k : Work G) : M (GState F P G) := do
  let t ← resizeTree T.zeroP TreeArr.empty (some 2047)
  let recs ← (Records.init gb 10).push gb
    { parent := none, depth := 0, isLeft := false, impurity := none
      sT := 0, eT := k.partTrain.length, sV := 0, eV := k.partValid.length }
  growLoop R T c gb (2 * k.partTrain.length + 1) { tree := t, recs := recs, work := k }

/-- The end of `grow`. -/
def growEnd (c : Ctx F) (s : GState F P G) : M (TreeArr F P × Work G) :=
  if c.aggregation then do
    let nodes ← computeTreeWeights s.tree.nodes s.tree.nodeCount c.step
    return ({ s.tree with nodes := nodes }, s.work)
  else return (s.tree, s.work)

theorem fitTree_eq (R : Rng G) (T : Task F Y P G) (c : Ctx F) (gb : Garbage F) (seed : Nat) (train valid : List Nat) :
    fitTree R T c gb seed train valid = growRaw R T c gb (initWork R c gb seed train valid) >>= growEnd c := by
  unfold fitTree grow growRaw
  simp only [bind_assoc]
  rfl

theorem tryBins_step (T : Task F Y P G) (c : Ctx F) (v : F) (nc : NodeCtx F Y P) (h : Hist F Y) (f : Nat) (b : Bool) (cs o : List Nat)
    (l : List Nat) (a : TryAcc F Y) (best : Split F) :
    tryBins T { c with step := v } nc h f b cs o l a best = tryBins T c nc h f b cs o l a best := by
  induction l generalizing a best with
  | nil => rfl
  | cons x l ih =>
    unfold tryBins
    simp only [ih]
    rfl

theorem growStep_step (R : Rng G) (T : Task F Y P G) (c : Ctx F) (v : F) (gb : Garbage F) (s : GState F P G) :
    growStep R T { c with step := v } gb s = growStep R T c gb s := by
  have h1 : ∀ w a b d e, computeNodeContext R T { c with step := v } w a b d e = computeNodeContext R T c w a b d e := fun _ _ _ _ _ => rfl
  have h2 : ∀ r nc w, chooseSplit T { c with step := v } r nc w = chooseSplit T c r nc w := by
    intro r nc w
    have h3 : ∀ s g, findNodeSplit T { c with step := v } nc s g = findNodeSplit T c nc s g := by
      intro s g
      have h4 : ∀ hh f b g, findBestAlong T { c with step := v } nc hh f b g = findBestAlong T c nc hh f b g := by
        intro hh f b g
        unfold findBestAlong tryOrder
        simp only [tryBins_step]
      unfold findNodeSplit
      simp only [h4]
      rfl
    unfold chooseSplit
    simp only [h3]
    rfl
  unfold growStep
  simp only [h1, h2]
  rfl

theorem growLoop_step (R : Rng G) (T : Task F Y P G) (c : Ctx F) (v : F) (gb : Garbage F) (n : Nat) (s : GState F P G) :
    growLoop R T { c with step := v } gb n s = growLoop R T c gb n s := by
  induction n generalizing s with
  | zero => rfl
  | succ n ih =>
    unfold growLoop
    simp only [growStep_step, ih]

theorem growRaw_step (R : Rng G) (T : Task F Y P G) (c : Ctx F) (v : F) (gb : Garbage F) (seed : Nat) (train valid : List Nat) :
    growRaw R T { c with step := v } gb (initWork R { c with step := v } gb seed train valid) =
      growRaw R T c gb (initWork R c gb seed train valid) := by
  unfold growRaw
  simp only [growLoop_step]
  rfl

/-! ### Weights -/

/-- Equal up to the weights. -/
def SameBut (ns ns' : List (Node F)) : Prop :=
  ns'.length = ns.length ∧ ∀ (j : Nat) n, ns[j]? = some n → ∃ x, ns'[j]? = some { n with logW := x }

theorem SameBut.refl (ns : List (Node F)) : SameBut ns ns := ⟨rfl, fun _ n h => ⟨n.logW, h⟩⟩

theorem SameBut.trans {a b c : List (Node F)} (h1 : SameBut a b) (h2 : SameBut b c) : SameBut a c := by
  refine ⟨h2.1.trans h1.1, fun j n h => ?_⟩
  obtain ⟨x, hx⟩ := h1.2 j n h
  obtain ⟨y, hy⟩ := h2.2 j _ hx
  exact ⟨y, hy⟩

theorem SameBut.symm {a b : List (Node F)} (h : SameBut a b) : SameBut b a := by
  refine ⟨h.1.symm, fun j n hn => ?_⟩
  have hlt : j < a.length := by rw [← h.1]; exact (List.getElem?_eq_some_iff.1 hn).1
  obtain ⟨x, hx⟩ := h.2 j _ (List.getElem?_eq_getElem hlt)
  rw [hn] at hx
  injection hx with hx
  exact ⟨a[j].logW, by rw [hx]; exact List.getElem?_eq_getElem hlt⟩

theorem SameBut.set {ns : List (Node F)} {k : Nat} {n : Node F} (h : ns[k]? = some n) (x : Option F) :
    SameBut ns (ns.set k { n with logW := x }) := by
  refine ⟨by simp, fun j m hm => ?_⟩
  obtain ⟨hlt, _⟩ := List.getElem?_eq_some_iff.1 h
  by_cases hj : k = j
  · subst hj
    rw [h] at hm
    injection hm with hm
    subst hm
    exact ⟨x, List.getElem?_set_self hlt⟩
  · exact ⟨m.logW, by rw [List.getElem?_set_ne hj]; exact hm⟩

theorem weightStep_same {step : F} {ns ns' : List (Node F)} {k : Nat} (h : weightStep step ns k = .ok ns') : SameBut ns ns' := by
  unfold weightStep at h
  rw [bind_eq_ok] at h
  obtain ⟨n, h1, h⟩ := h
  have hn := rd_ok.1 h1
  have hlt := (List.getElem?_eq_some_iff.1 hn).1
  have hwr : ∀ x, wr ns k { n with logW := x } = .ok ns' → SameBut ns ns' := by
    intro x hx
    rw [wr_of_lt _ hlt] at hx
    injection hx with hx
    exact hx ▸ SameBut.set hn x
  simp only at h
  split at h
  · exact hwr _ h
  · rw [bind_eq_ok] at h
    obtain ⟨l, _, h⟩ := h
    rw [bind_eq_ok] at h
    obtain ⟨r, _, h⟩ := h
    rw [bind_eq_ok] at h
    obtain ⟨ln, _, h⟩ := h
    rw [bind_eq_ok] at h
    obtain ⟨rn, _, h⟩ := h
    split at h
    · exact hwr _ h
    · exact absurd h (by simp)

theorem weights_same {step : F} {ns ns' : List (Node F)} {k : Nat} (h : computeTreeWeights ns k step = .ok ns') : SameBut ns ns' := by
  unfold computeTreeWeights at h
  exact foldlM_inv_of_ok (I := fun _ s => SameBut ns s) (SameBut.refl _) h
    (fun _ _ _ _ _ _ hs he => hs.trans (weightStep_same he))

theorem Repr.sameBut {arr : TreeArr F P} {b : Nat} {ns : List (Node F)} (hs : SameBut arr.nodes ns) :
    ∀ {t : GTree F Y P} {k : Nat}, Repr arr b t k → Repr { arr with nodes := ns } b t k
  | .leaf a, k, h => by
    obtain ⟨n, h1, h2, h3⟩ := h
    obtain ⟨x, hx⟩ := hs.2 k n h1.entry
    exact ⟨_, h1.setLogW hx, h2, h3⟩
  | .node a l r, k, h => by
    obtain ⟨⟨n, h1, h2, h3⟩, hr, hl⟩ := h
    obtain ⟨x, hx⟩ := hs.2 k n h1.entry
    exact ⟨⟨_, h1.setLogW hx, h2, h3⟩, Repr.sameBut hs hr, Repr.sameBut hs hl⟩

/-- `compute_tree_weights` does not depend on the weights that it overwrites. -/
theorem weights_eq (step : F) {arr : TreeArr F P} {b : Nat} {t : GTree F Y P} (hsh : Shape t) (h : Repr arr b t 0)
    {ns : List (Node F)} (hs : SameBut arr.nodes ns) (hout : ∀ j : Nat, t.size ≤ j → ns[j]? = arr.nodes[j]?) :
    ∃ ns', computeTreeWeights arr.nodes t.size step = .ok ns' ∧ computeTreeWeights ns t.size step = .ok ns' := by
  obtain ⟨n1, a1, a2, a3, a4, a5⟩ := weights_spec step t arr b 0 hsh h
  obtain ⟨n2, b1, b2, b3, b4, b5⟩ := weights_spec step t { arr with nodes := ns } b 0 hsh (Repr.sameBut hs h)
  simp only at b1 b2 b3 b4
  have e1 : computeTreeWeights arr.nodes t.size step = .ok n1 := by
    unfold computeTreeWeights; rw [List.range_eq_range']; exact a1
  have e2 : computeTreeWeights ns t.size step = .ok n2 := by
    unfold computeTreeWeights; rw [List.range_eq_range']; exact b1
  refine ⟨n1, e1, ?_⟩
  rw [e2]
  congr 1
  have s1 := weights_same e1
  have s2 := weights_same e2
  apply List.ext_getElem?
  intro j
  by_cases hj : j < t.size
  · obtain ⟨u, hu⟩ := exists_subAt t 0 j (Nat.zero_le _) (by omega)
    obtain ⟨m1, q1, q2⟩ := (a5.sub hu).root
    obtain ⟨m2, r1, r2⟩ := (b5.sub hu).root
    obtain ⟨x, hx⟩ := (s1.symm.trans (hs.trans s2)).2 j m1 q1
    rw [r1] at hx
    injection hx with hx
    rw [q1, r1, hx]
    rw [hx] at r2
    simp only at r2
    rw [r2, ← q2]
  · rw [b3 j (by omega), a3 j (by omega), hout j (by omega)]

/-- A successful fit, in two phases. -/
theorem fitTree_raw {R : Rng G} {T : Task F Y P G} {c : Ctx F} {gb : Garbage F} {seed : Nat} {train valid : List Nat}
    {arr : TreeArr F P} {w : Work G} (hf : fitTree R T c gb seed train valid = .ok (arr, w)) :
    ∃ s, growRaw R T c gb (initWork R c gb seed train valid) = .ok s ∧ s.work = w ∧
      ((c.aggregation = true ∧ ∃ ns, computeTreeWeights s.tree.nodes s.tree.nodeCount c.step = .ok ns ∧
          arr = { s.tree with nodes := ns } ∧ SameBut s.tree.nodes ns) ∨
        (c.aggregation = false ∧ arr = s.tree)) := by
  rw [fitTree_eq, bind_eq_ok] at hf
  obtain ⟨s, h1, h2⟩ := hf
  unfold growEnd at h2
  cases hc : c.aggregation with
  | true =>
    rw [hc, if_pos rfl, bind_eq_ok] at h2
    obtain ⟨ns, h3, h2⟩ := h2
    injection h2 with h2
    injection h2 with h4 h5
    exact ⟨s, h1, h5, .inl ⟨rfl, ns, h3, h4.symm, weights_same h3⟩⟩
  | false =>
    rw [hc] at h2
    simp only [Bool.false_eq_true, if_false, pure_eq_ok] at h2
    injection h2 with h2
    injection h2 with h4 h5
    exact ⟨s, h1, h5, .inr ⟨rfl, h4.symm⟩⟩

/-- Weights are written below the node count only. -/
theorem weights_out {step : F} {ns ns' : List (Node F)} {k : Nat} (h : computeTreeWeights ns k step = .ok ns') :
    ∀ j : Nat, k ≤ j → ns'[j]? = ns[j]? := by
  unfold computeTreeWeights at h
  refine foldlM_inv_of_ok (I := fun _ s => ∀ j : Nat, k ≤ j → s[j]? = ns[j]?) (fun _ _ => rfl) h
    (fun pre x post s s1 hl hs he j hj => ?_)
  have hx : x < k := by
    have : x ∈ (List.range k).reverse := by rw [hl]; simp
    simpa using this
  rw [← hs j hj]
  unfold weightStep at he
  rw [bind_eq_ok] at he
  obtain ⟨n, _, h⟩ := he
  have hwr : ∀ y, wr s x y = .ok s1 → s1[j]? = s[j]? := by
    intro y hy
    obtain ⟨_, rfl⟩ := wr_ok.1 hy
    rw [List.getElem?_set_ne (by omega)]
  simp only at h
  split at h
  · exact hwr _ h
  · rw [bind_eq_ok] at h
    obtain ⟨l, _, h⟩ := h
    rw [bind_eq_ok] at h
    obtain ⟨r, _, h⟩ := h
    rw [bind_eq_ok] at h
    obtain ⟨ln, _, h⟩ := h
    rw [bind_eq_ok] at h
    obtain ⟨rn, _, h⟩ := h
    split at h
    · exact hwr _ h
    · exact absurd h (by simp)

section
variable {R : Rng G} {T : F → Task F Y P G} {lab : F → Prop} {okY : Y → Prop} {okP : P → Prop} {c : Ctx F} {D : Data F}
  {gb : Garbage F} {seed : Nat} {d : F} {train valid : List Nat}

/-- Setting `step` on a fitted tree is fitting with that step. -/
theorem setStep_fit (hT : TaskSafe (T d) lab okY okP) (h : FitInput c D lab train valid) {o : TreeObj F P G}
    (hf : TreeObj.fit R T c gb seed d train valid = .ok o) {v : F} (hv : neF c.step v = false → c.step = v) :
    ∃ o', o.setStep v = .ok o' ∧ TreeObj.fit R T { c with step := v } gb seed d train valid = .ok o' := by
  unfold TreeObj.fit at hf
  rw [bind_eq_ok] at hf
  obtain ⟨⟨arr, w⟩, h1, h2⟩ := hf
  simp only [pure_eq_ok] at h2
  injection h2 with h2
  subst h2
  cases hne : neF c.step v with
  | false =>
    have hcv := hv hne
    subst hcv
    refine ⟨_, by simp only [TreeObj.setStep, hne]; rfl, ?_⟩
    unfold TreeObj.fit
    have : ({ c with step := c.step } : Ctx F) = c := rfl
    rw [this, h1, bind_ok]
    rfl
  | true =>
    obtain ⟨t, hF⟩ := fitted_of hT h h1
    obtain ⟨s, r1, r2, hcase⟩ := fitTree_raw h1
    have hraw : growRaw R (T d) { c with step := v } gb (initWork R { c with step := v } gb seed train valid) = .ok s := by
      rw [growRaw_step]; exact r1
    rcases hcase with ⟨ha, ns, e1, e2, e3⟩ | ⟨ha, e2⟩
    · have hcount : s.tree.nodeCount = t.size := by have := hF.count; rw [e2] at this; exact this
      have hrep : Repr s.tree s.tree.bpEnd t 0 := by
        have := hF.repr
        rw [e2] at this
        exact Repr.sameBut (arr := { s.tree with nodes := ns }) e3.symm this
      obtain ⟨ns', q1, q2⟩ := weights_eq v hF.ok.shape hrep e3 (fun j hj => weights_out e1 j (by omega))
      refine ⟨{ arr := { s.tree with nodes := ns' }, aggregation := c.aggregation, step := v, dirichlet := d, ctx := some { c with step := v }, work := w }, ?_, ?_⟩
      · unfold TreeObj.setStep
        simp only [hne, if_true, ha, e2, hcount, q2, bind_ok]
        rfl
      · unfold TreeObj.fit
        rw [fitTree_eq, hraw, bind_ok]
        simp only [growEnd, ha, if_true, hcount, q1, bind_ok, r2, pure_eq_ok]
    · refine ⟨{ arr := arr, aggregation := c.aggregation, step := v, dirichlet := d, ctx := some { c with step := v }, work := w }, ?_, ?_⟩
      · simp [TreeObj.setStep, hne, ha]
      · unfold TreeObj.fit
        rw [fitTree_eq, hraw, bind_ok]
        simp only [growEnd, ha, Bool.false_eq_true, if_false, bind_ok, r2, pure_eq_ok, e2]

theorem mapM_fuse {α β γ : Type} {f : α → M β} {g : α → M γ} {h : β → M γ} {l : List α} {r : List β} (hf : l.mapM f = .ok r)
    (hh : ∀ x ∈ l, ∀ y, f x = .ok y → ∃ z, h y = .ok z ∧ g x = .ok z) : ∃ r', r.mapM h = .ok r' ∧ l.mapM g = .ok r' := by
  induction l generalizing r with
  | nil =>
    simp only [List.mapM_nil, pure_eq_ok] at hf
    injection hf with hf
    subst hf
    exact ⟨[], rfl, rfl⟩
  | cons x l ih =>
    rw [List.mapM_cons, bind_eq_ok] at hf
    obtain ⟨y, h1, hf⟩ := hf
    rw [bind_eq_ok] at hf
    obtain ⟨ys, h2, hf⟩ := hf
    simp only [pure_eq_ok] at hf
    injection hf with hf
    subst hf
    obtain ⟨z, h3, h4⟩ := hh x (by simp) y h1
    obtain ⟨zs, h5, h6⟩ := ih h2 (fun x hx => hh x (by simp [hx]))
    exact ⟨z :: zs, by rw [List.mapM_cons, h3, h5]; rfl, by rw [List.mapM_cons, h4, h6]; rfl⟩

theorem buildTree_setStep {draw : Nat → List Nat} {depth : Nat} (hT : TaskSafe (T d) lab okY okP) (h : ForestInput c D lab)
    (hlen : c.w.length = D.n) (hd : DrawsOK D.n draw) {v : F} (hv : neF c.step v = false → c.step = v) {o : TreeObj F P G}
    (hf : buildTree R T draw depth c gb d seed = .ok o) :
    ∃ o', o.setStep v = .ok o' ∧ buildTree R T draw depth { c with step := v } gb d seed = .ok o' := by
  obtain ⟨b, w, hB⟩ := buildTree_inv hd h hlen hf
  unfold buildTree at hf
  rw [bind_eq_ok] at hf
  obtain ⟨b', h1, hf⟩ := hf
  rw [bind_eq_ok] at hf
  obtain ⟨w', h2, hf⟩ := hf
  have hp : IsPartition D.n b' := by rw [h.holds.n] at h1; exact (genTV_ok hd _ _ _ h1).1
  obtain ⟨o', e1, e2⟩ := setStep_fit hT (boot_input h hlen hp h2) hf (v := v) hv
  refine ⟨o', e1, ?_⟩
  unfold buildTree
  rw [h1, bind_ok, h2, bind_ok]
  exact e2

theorem fitForest_setStep {draw : Nat → List Nat} {depth : Nat} (hT : TaskSafe (T d) lab okY okP) (h : ForestInput c D lab)
    (hlen : c.w.length = D.n) (hd : DrawsOK D.n draw) {v : F} (hv : neF c.step v = false → c.step = v)
    {gbs : Nat → Garbage F} {seeds : List Nat} {ts : List (TreeObj F P G)}
    (hf : fitForest R T draw depth c gbs d seeds = .ok ts) :
    ∃ ts', ts.mapM (TreeObj.setStep v) = .ok ts' ∧ fitForest R T draw depth { c with step := v } gbs d seeds = .ok ts' := by
  unfold fitForest at hf ⊢
  exact mapM_fuse hf fun x _ y hy => buildTree_setStep hT h hlen hd hv hy

end

end Verif
