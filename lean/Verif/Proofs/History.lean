import Verif.Proofs.DirFit

set_option linter.unusedSectionVars false

/-! Histories of parameter changes on forests. -/
namespace Verif

open Spec

variable {F Y P G : Type} [Num F]

theorem mapM_fuse₂ {α β : Type} {S : β → β → Prop} {f : α → M β} {g : α → M β} {h : β → M β} {l : List α} {r r0 : List β}
    (hf : l.mapM f = .ok r0) (hr : List.Forall₂ S r r0)
    (hh : ∀ x ∈ l, ∀ y y0, S y y0 → f x = .ok y0 → ∃ z z0, h y = .ok z ∧ g x = .ok z0 ∧ S z z0) :
    ∃ r' r0', r.mapM h = .ok r' ∧ l.mapM g = .ok r0' ∧ List.Forall₂ S r' r0' := by
  induction l generalizing r r0 with
  | nil =>
    simp only [List.mapM_nil, pure_eq_ok] at hf
    injection hf with hf
    subst hf
    cases hr
    exact ⟨[], [], rfl, rfl, .nil⟩
  | cons x l ih =>
    rw [List.mapM_cons, bind_eq_ok] at hf
    obtain ⟨y, h1, hf⟩ := hf
    rw [bind_eq_ok] at hf
    obtain ⟨ys, h2, hf⟩ := hf
    simp only [pure_eq_ok] at hf
    injection hf with hf
    subst hf
    cases hr with
    | cons hy hys =>
      obtain ⟨z, z0, h3, h4, h5⟩ := hh x (by simp) _ y hy h1
      obtain ⟨zs, zs0, h6, h7, h8⟩ := ih h2 hys (fun x hx => hh x (by simp [hx]))
      exact ⟨z :: zs, z0 :: zs0, by rw [List.mapM_cons, h3, h6]; rfl, by rw [List.mapM_cons, h4, h7]; rfl, .cons h5 h8⟩

theorem SameTree.all (ts : List (TreeObj F P G)) : List.Forall₂ SameTree ts ts := List.forall₂_same.2 fun _ _ => SameTree.refl _

/-! ### Trees -/

section
variable {R : Rng G} {argsort : List ℝ → List Nat} {n : Nat} {cr : Criterion} {st : CatStrategy} {c : Ctx ℝ} {D : Data ℝ}
  {gb : Garbage ℝ} {seed : Nat} {draw : Nat → List Nat} {depth : Nat}

theorem buildTree_change (hA : ArgsortPerm argsort) (hS : StrategyOK n st) (h : ForestInput c D (ClassLabel n))
    (hlen : c.w.length = D.n) (hd : DrawsOK D.n draw) {d v : ℝ} {o f : TreeObj ℝ (List ℝ) G} (ho : SameTree o f)
    (hf : buildTree R (fun d => classifierTask R argsort n d cr st) draw depth c gb d seed = .ok f) :
    (∃ o' f', o.setDirichlet (fun d => classifierTask R argsort n d cr st) v = .ok o' ∧
      buildTree R (fun d => classifierTask R argsort n d cr st) draw depth c gb v seed = .ok f' ∧ SameTree o' f') ∧
    ∃ o' f', o.setStep v = .ok o' ∧
      buildTree R (fun d => classifierTask R argsort n d cr st) draw depth { c with step := v } gb d seed = .ok f' ∧ SameTree o' f' := by
  unfold buildTree at hf
  rw [bind_eq_ok] at hf
  obtain ⟨b', h1, hf⟩ := hf
  rw [bind_eq_ok] at hf
  obtain ⟨w', h2, hf⟩ := hf
  have hp : IsPartition D.n b' := by rw [h.holds.n] at h1; exact (genTV_ok hd _ _ _ h1).1
  have hin := boot_input h hlen hp h2
  constructor
  · obtain ⟨o', f', e1, e2, e3⟩ := setDirichlet_fit hA hS hin (v := v) ho hf
    refine ⟨o', f', e1, ?_, e3⟩
    unfold buildTree
    rw [h1, bind_ok, h2, bind_ok]
    exact e2
  · obtain ⟨o', f', e1, e2, e3⟩ := setStep_fit' hA hS hin (v := v) ho hf
    refine ⟨o', f', e1, ?_, e3⟩
    unfold buildTree
    rw [h1, bind_ok, h2, bind_ok]
    exact e2

end

/-! ### Histories -/

/-- Changing a parameter of all trees is fitting all trees with the new value. -/
structure Closed (T : F → Task F Y P G) (fitAll : F → F → M (List (TreeObj F P G))) : Prop where
  step : ∀ {s d : F} {ts ts0} (v : F), Num.le s Num.zero = false → fitAll s d = .ok ts0 → List.Forall₂ SameTree ts ts0 →
    ∃ ts' ts0', ts.mapM (TreeObj.setStep v) = .ok ts' ∧ fitAll v d = .ok ts0' ∧ List.Forall₂ SameTree ts' ts0'
  dir : ∀ {s d : F} {ts ts0} (v : F), fitAll s d = .ok ts0 → List.Forall₂ SameTree ts ts0 →
    ∃ ts' ts0', ts.mapM (TreeObj.setDirichlet T v) = .ok ts' ∧ fitAll s v = .ok ts0' ∧ List.Forall₂ SameTree ts' ts0'
  same : ∀ {d v : F}, neF d v = false → d = v

theorem history {T : F → Task F Y P G} {fitAll : F → F → M (List (TreeObj F P G))} (hC : Closed T fitAll) (hist : List (Change F))
    (hv : ∀ x ∈ hist, x.Valid) {f : ForestObj F P G} (hs : Num.le f.step Num.zero = false) {ts ts0 : List (TreeObj F P G)}
    (ht : f.trees = some ts) (h0 : fitAll f.step f.dirichlet = .ok ts0) (hsame : List.Forall₂ SameTree ts ts0) :
    ∃ f' ts' ts0', hist.foldlM (Change.apply T) f = .ok f' ∧ f'.step = lastStep f.step hist ∧
      f'.dirichlet = lastDirichlet f.dirichlet hist ∧ f'.aggregation = f.aggregation ∧ f'.trees = some ts' ∧
      fitAll f'.step f'.dirichlet = .ok ts0' ∧ List.Forall₂ SameTree ts' ts0' := by
  induction hist generalizing f ts ts0 with
  | nil => exact ⟨f, ts, ts0, rfl, rfl, rfl, rfl, ht, h0, hsame⟩
  | cons x hist ih =>
    have hx := hv x (by simp)
    have hrest : ∀ y ∈ hist, y.Valid := fun y hy => hv y (by simp [hy])
    rw [List.foldlM_cons]
    cases x with
    | step v =>
      simp only [Change.Valid] at hx
      obtain ⟨ts', ts0', e1, e2, e3⟩ := hC.step v hs h0 hsame
      have ea : Change.apply T f (.step v) = .ok { f with step := v, trees := some ts' } := by
        simp only [Change.apply, ForestObj.setStep, hx, ht, e1, bind_ok, pure_eq_ok]
        rfl
      rw [ea, bind_ok]
      exact ih hrest (f := { f with step := v, trees := some ts' }) hx rfl e2 e3
    | dirichlet v =>
      simp only [Change.Valid] at hx
      cases hne : neF f.dirichlet v with
      | false =>
        have hd := hC.same hne
        have ea : Change.apply T f (.dirichlet v) = .ok f := by
          simp only [Change.apply, ForestObj.setDirichlet, hx, ht, hne]
          rw [← hd, ← ht]
          rfl
        rw [ea, bind_ok]
        simp only [lastStep, lastDirichlet, ← hd]
        exact ih hrest hs ht h0 hsame
      | true =>
        obtain ⟨ts', ts0', e1, e2, e3⟩ := hC.dir v h0 hsame
        have ea : Change.apply T f (.dirichlet v) = .ok { f with dirichlet := v, trees := some ts' } := by
          simp only [Change.apply, ForestObj.setDirichlet, hx, ht, hne, e1, bind_ok, pure_eq_ok]
          rfl
        rw [ea, bind_ok]
        exact ih hrest (f := { f with dirichlet := v, trees := some ts' }) hs rfl e2 e3

/-- Changes of `step` only, with exact equality. -/
theorem history_step {fitAll : F → F → M (List (TreeObj F P G))}
    (hC : ∀ {s d : F} {ts} (v : F), Num.le s Num.zero = false → fitAll s d = .ok ts →
      ∃ ts', ts.mapM (TreeObj.setStep v) = .ok ts' ∧ fitAll v d = .ok ts') (hist : List F)
    (hv : ∀ x ∈ hist, Num.le x Num.zero = false) {f : ForestObj F P G} (hs : Num.le f.step Num.zero = false)
    {ts : List (TreeObj F P G)} (ht : f.trees = some ts) (h0 : fitAll f.step f.dirichlet = .ok ts) :
    ∃ ts', hist.foldlM (fun f v => ForestObj.setStep v f) f = .ok { f with step := hist.getLastD f.step, trees := some ts' } ∧
      fitAll (hist.getLastD f.step) f.dirichlet = .ok ts' := by
  induction hist generalizing f ts with
  | nil => exact ⟨ts, by rw [← ht]; rfl, h0⟩
  | cons v hist ih =>
    have hx := hv v (by simp)
    obtain ⟨ts', e1, e2⟩ := hC v hs h0
    have ea : ForestObj.setStep v f = .ok { f with step := v, trees := some ts' } := by
      simp only [ForestObj.setStep, hx, ht, e1, bind_ok, pure_eq_ok]
      rfl
    rw [List.foldlM_cons, ea, bind_ok]
    have := ih (fun y hy => hv y (by simp [hy])) (f := { f with step := v, trees := some ts' }) hx rfl e2
    simpa only [List.getLastD_cons] using this

/-! ### Predictions do not read the losses without aggregation -/

theorem noLoss_rd {ns ns' : List (Node F)} (h : ns.map noLoss = ns'.map noLoss) (k : Nat) :
    (rd ns k).map noLoss = (rd ns' k).map noLoss := by
  have h1 := congrArg (fun l => l[k]?) h
  simp only [List.getElem?_map] at h1
  unfold rd
  cases h2 : ns[k]? with
  | none => rw [h2] at h1; cases h3 : ns'[k]? with
    | none => rfl
    | some b => rw [h3] at h1; simp at h1
  | some a => rw [h2] at h1; cases h3 : ns'[k]? with
    | none => rw [h3] at h1; simp at h1
    | some b =>
      rw [h3] at h1
      simp only [Option.map_some, Option.some.injEq] at h1
      exact congrArg Except.ok h1

theorem findLeafFrom_noLoss {t : TreeArr F P} {ns' : List (Node F)} (h : t.nodes.map noLoss = ns'.map noLoss) (fba : FBA) (i fuel k : Nat) :
    findLeafFrom t fba i fuel k = findLeafFrom { t with nodes := ns' } fba i fuel k := by
  induction fuel generalizing k with
  | zero => rfl
  | succ fuel ih =>
    unfold findLeafFrom
    have hr := noLoss_rd h k
    simp only
    cases h1 : rd t.nodes k with
    | error e => cases h2 : rd ns' k with
      | error e' => rw [h1, h2] at hr; injection hr with hr; rw [hr]; rfl
      | ok b => rw [h1, h2] at hr; injection hr
    | ok a => cases h2 : rd ns' k with
      | error e' => rw [h1, h2] at hr; injection hr
      | ok b =>
        rw [h1, h2] at hr
        injection hr with hr
        rw [bind_ok, bind_ok]
        have hb : b = { a with loss := b.loss } := by
          have : b = { noLoss b with loss := b.loss } := rfl
          rw [this, ← hr]
          rfl
        rw [hb]
        simp only
        have hc : childOf { t with nodes := ns' } fba i { a with loss := b.loss } = childOf t fba i a := rfl
        rw [hc]
        split
        · rfl
        · cases childOf t fba i a with
          | error e => rfl
          | ok k' => rw [bind_ok, bind_ok]; exact ih k'

theorem _root_.Verif.Spec.SameTree.predict {o o' : TreeObj F P G} (h : SameTree o o') (mix : F → P → P → P) (fba : FBA) :
    o.predict mix fba = o'.predict mix fba := by
  cases ha : o.aggregation with
  | true => rw [h.agg ha]
  | false =>
    have hr := h.rest
    unfold TreeObj.predict treePredict
    rw [← hr]
    simp only [ha]
    congr 1
    funext i
    unfold predictRow findLeaf
    rw [findLeafFrom_noLoss h.nodes]
    rfl

end Verif
