import Verif.Proofs.EstEnd
import Verif.Proofs.Leaves

/-! # Predictions in any arithmetic: completion and shapes -/
set_option linter.unusedSectionVars false
namespace Verif

open Spec

section
variable {F Y P G : Type} [Num F]

theorem aggOf_any {step : F} {val : GNode F Y P → P} {mix : F → P → P → P} {Q : P → Prop} (hmix : ∀ α p q, Q p → Q q → Q (mix α p q)) (x : Nat → Nat) :
    ∀ (t : GTree F Y P) (k : Nat), (∀ u j, SubAt t k u j → Q (val u.root)) → Q (aggOf step val mix x t)
  | .leaf a, k, h => h _ k (.refl _ _)
  | .node a l r, k, h => by
    simp only [aggOf]
    refine hmix _ _ _ (h _ k (.refl _ _)) ?_
    split
    · exact aggOf_any hmix x l (k + 1 + r.size) fun u j hu => h u j (.left hu)
    · exact aggOf_any hmix x r (k + 1) fun u j hu => h u j (.right hu)

variable {R : Rng G} {T : F → Task F Y P G} {c : Ctx F} {D : Data F} {lab : F → Prop} {gb : Garbage F} {d : F} {seed : Nat} {b : Boot} {w : List F} {fba : FBA}
  {okY : Y → Prop} {okP : P → Prop} {o : TreeObj F P G}

/-- A tree answers all rows. -/
theorem Built.predict_any (hs : TaskSafe (T d) lab okY okP) {mix : F → P → P → P} (hmix : ∀ α p q, okP p → okP q → okP (mix α p q))
    (hb : Built R T c D lab gb d seed o b w) (hx : RowsOK fba D.d) :
    ∃ p, o.predict mix fba = .ok p ∧ p.length = fba.nSamples ∧ ∀ v ∈ p, okP v := by
  obtain ⟨t, hF⟩ := fitted_of hs hb.input hb.fit
  have hQ : ∀ u j, SubAt t 0 u j → okP u.root.nc.yPred := fun u j hu => by
    obtain ⟨_, _, hu'⟩ := hF.facts.below hu
    obtain ⟨_, _, hok, _⟩ := hu'.ok.facts.stats
    exact hok.okP
  refine mapM_range fun i hi => ?_
  rw [hb.agg, hb.step]
  have hx := hx i hi
  choose! x hx using hx
  cases hc : c.aggregation with
  | false => exact ⟨_, predictRow_leaf hF.facts hx mix c.step, hQ _ _ (leafNode_sub x t 0)⟩
  | true => exact ⟨_, predictRow_agg hF.facts (hF.weights hc) hx mix, aggOf_any hmix x t 0 hQ⟩

theorem Built.apply_any (hs : TaskSafe (T d) lab okY okP) (hb : Built R T c D lab gb d seed o b w) (hx : RowsOK fba D.d) :
    ∃ p, treeApply o.arr fba = .ok p ∧ p.length = fba.nSamples ∧ ∀ k ∈ p, k < o.arr.nodeCount ∧ ∃ nd, o.arr.nodes[k]? = some nd ∧ nd.isLeaf = true := by
  obtain ⟨t, hF⟩ := fitted_of hs hb.input hb.fit
  refine mapM_range fun i hi => ?_
  have hx := hx i hi
  choose! x hx using hx
  obtain ⟨v1, n, v2, v3⟩ := hF.facts.leafOf_visits x t 0 (.refl _ _) .root
  exact ⟨_, hF.facts.findLeaf hx, v2.1, n, v2.2, v3⟩

theorem Built.depth_any (hs : TaskSafe (T d) lab okY okP) (hb : Built R T c D lab gb d seed o b w) (hc : c.aggregation = true) (hx : RowsOK fba D.d) :
    ∃ p, (List.range fba.nSamples).mapM (weightedDepthRow o.arr fba o.step) = .ok p ∧ p.length = fba.nSamples := by
  obtain ⟨t, hF⟩ := fitted_of hs hb.input hb.fit
  have := mapM_range (n := fba.nSamples) (f := weightedDepthRow o.arr fba o.step) (Q := fun _ => True) fun i hi => by
    rw [hb.step]
    have hx := hx i hi
    choose! x hx using hx
    exact ⟨_, weightedDepthRow_agg hF.facts (hF.weights hc) hx, trivial⟩
  obtain ⟨p, h1, h2, -⟩ := this
  exact ⟨p, h1, h2⟩

/-! From the trees to the forest. -/

theorem reg_any {trees : List (TreeObj F F G)} (h : ∀ o ∈ trees, ∃ p, o.predict mixF fba = .ok p ∧ p.length = fba.nSamples ∧ ∀ v ∈ p, True) :
    ∃ out, forestPredict trees fba = .ok out ∧ out.length = fba.nSamples := by
  obtain ⟨out, e1, e2, -⟩ := fold_add (add := (Num.add : F → F → F)) (step := addRows Num.add) (pr := fun o => TreeObj.predict mixF o fba)
    (N := fba.nSamples) (Q := fun _ => True) (K := fun _ _ => True) (fun _ _ _ _ _ => trivial)
    (fun k out p h1 h2 _ _ => addRows_eq _ (h1.trans h2.symm)) trees h 0 (List.replicate fba.nSamples Num.zero) (by simp) (fun _ _ => trivial)
  unfold forestPredict
  rw [e1]
  exact ⟨_, rfl, by simp [e2]⟩

theorem proba_any {n : Nat} {trees : List (TreeObj F (List F) G)}
    (h : ∀ o ∈ trees, ∃ p, o.predict mixV fba = .ok p ∧ p.length = fba.nSamples ∧ ∀ v ∈ p, v.length = n) :
    ∃ out, predictProba n trees fba = .ok out ∧ out.length = fba.nSamples ∧ ∀ p ∈ out, p.length = n := by
  obtain ⟨out, e1, e2, e3⟩ := fold_add (add := List.zipWith (Num.add : F → F → F)) (step := addMat)
    (pr := fun o => TreeObj.predict mixV o fba) (N := fba.nSamples) (Q := fun v => v.length = n)
    (K := fun _ v => v.length = n)
    (fun k v q h1 h2 => by simp [h1, h2])
    (fun k out p h1 h2 h3 h4 => addMat_eq (h1.trans h2.symm) h3 h4)
    trees h
    0 (List.replicate fba.nSamples (List.replicate n Num.zero)) (by simp) (fun v hv => by
      rw [List.eq_of_mem_replicate hv]
      simp)
  unfold predictProba accumulateProba
  rw [e1]
  refine ⟨_, rfl, by simp [e2], fun p hp => ?_⟩
  obtain ⟨u, hu, rfl⟩ := List.mem_map.1 hp
  rw [List.length_map, e3 u hu]

theorem fold_ovr_any {τ : Type} {pr : τ → M (List (List F))} {N n E : Nat} (trees : List (τ × Nat))
    (h : ∀ o ∈ trees, o.2 / E < n ∧ ∃ p, pr o.1 = .ok p ∧ p.length = N ∧ ∀ v ∈ p, v.length = 2) (out : List (List F))
    (hl : out.length = N) (ho : ∀ v ∈ out, v.length = n) :
    ∃ out', trees.foldlM (fun out (o : τ × Nat) => do
        let p ← pr o.1
        if out.length = p.length then (out.zip p).mapM fun (x : List F × List F) => addCol (o.2 / E) x.1 x.2
        else .error .valueError) out = .ok out' ∧ out'.length = N ∧ ∀ v ∈ out', v.length = n := by
  induction trees generalizing out with
  | nil => exact ⟨out, rfl, hl, ho⟩
  | cons o trees ih =>
    obtain ⟨hi, p, h1, h2, h3⟩ := h o (by simp)
    have hrow : ∀ x ∈ out.zip p, ∃ r, addCol (o.2 / E) x.1 x.2 = .ok r ∧ r.length = n := by
      intro x hx
      obtain ⟨m1, m2⟩ := List.of_mem_zip hx
      have r1 := ho _ m1
      have q1 := h3 _ m2
      have hlt1 : 1 < x.2.length := by omega
      have hlt2 : o.2 / E < x.1.length := by omega
      refine ⟨x.1.set (o.2 / E) (Num.add x.1[o.2 / E] x.2[1]), ?_, by simp [r1]⟩
      unfold addCol
      rw [rd_of_lt hlt1, bind_ok, rd_of_lt hlt2, bind_ok, wr_of_lt _ hlt2]
    obtain ⟨r, e0⟩ := mapM_total (f := fun (x : List F × List F) => addCol (o.2 / E) x.1 x.2) (l := out.zip p) fun x hx => by
      obtain ⟨r, hr, _⟩ := hrow x hx; exact ⟨r, hr⟩
    have hlen := (mapM_eq_ok.1 e0).length_eq
    obtain ⟨out', e1, e2, e3⟩ := ih (fun o ho => h o (by simp [ho])) r (by rw [← hlen]; simp [hl, h2]) (fun v hv => by
      obtain ⟨x, hx, hx2⟩ := mapM_mem_inv e0 hv
      obtain ⟨r', hr, hr2⟩ := hrow x hx
      rw [hr] at hx2
      injection hx2 with hx2
      exact hx2 ▸ hr2)
    refine ⟨out', ?_, e2, e3⟩
    rw [List.foldlM_cons, h1, bind_ok, if_pos (by rw [hl, h2]), e0, bind_ok]
    exact e1

theorem normRow_length {eps : F} {n : Nat} {row : List F} : (normRow eps n row).length = row.length := by
  unfold normRow
  simp only
  split <;> simp

theorem ovr_any {eps : F} {n E : Nat} {trees : List (TreeObj F (List F) G)} (hl : trees.length = n * E)
    (h : ∀ o ∈ trees, ∃ p, o.predict mixV fba = .ok p ∧ p.length = fba.nSamples ∧ ∀ v ∈ p, v.length = 2) :
    ∃ out, predictProbaOvr eps n E trees fba = .ok out ∧ out.length = fba.nSamples ∧ ∀ p ∈ out, p.length = n := by
  obtain ⟨out, e1, e2, e3⟩ := fold_ovr_any (pr := fun o => TreeObj.predict mixV o fba) (N := fba.nSamples) (n := n) (E := E)
    trees.zipIdx (fun o ho => by
      have hlt : o.2 < n * E := by rw [← hl]; exact (List.mem_zipIdx ho).2.1.trans_eq (by simp)
      refine ⟨Nat.div_lt_of_lt_mul (by rw [Nat.mul_comm]; exact hlt), h o.1 ?_⟩
      have := (List.mem_zipIdx ho).2.2
      rw [this]; exact List.getElem_mem _)
    (List.replicate fba.nSamples (List.replicate n Num.zero)) (by simp) (fun v hv => by
      rw [List.eq_of_mem_replicate hv]
      simp)
  unfold predictProbaOvr
  rw [e1]
  refine ⟨_, rfl, by simp [e2], fun p hp => ?_⟩
  obtain ⟨u, hu, rfl⟩ := List.mem_map.1 hp
  rw [normRow_length, e3 u hu]

/-- `np.argmax` of a row that is not empty is an index, whatever the comparisons say. -/
theorem argmax_any {row : List F} (h : row ≠ []) : ∃ k, argmax row = .ok k ∧ k < row.length := by
  match row, h with
  | a :: l, _ =>
    refine ⟨_, rfl, ?_⟩
    have key : ∀ (xs : List (F × Nat)) (b : F × Nat), b.2 < (a :: l).length → (∀ x ∈ xs, x.2 < (a :: l).length) →
        (xs.foldl (fun (b : F × Nat) (x : F × Nat) => if Num.lt b.1 x.1 then x else b) b).2 < (a :: l).length := by
      intro xs
      induction xs with
      | nil => exact fun b hb _ => hb
      | cons x xs ih =>
        intro b hb hx
        rw [List.foldl_cons]
        refine ih _ ?_ fun y hy => hx y (by simp [hy])
        split
        · exact hx x (by simp)
        · exact hb
    refine key _ _ (by simp) fun x hx => ?_
    have := (List.mem_zipIdx hx).2.1
    simpa using this

theorem labels_any {L : Type} {classes : List L} (hc : classes ≠ []) {proba : List (List F)} (h : ∀ p ∈ proba, p.length = classes.length) :
    ∃ labels, predictLabels classes proba = .ok labels ∧ labels.length = proba.length ∧ ∀ l ∈ labels, l ∈ classes := by
  have hstep : ∀ p ∈ proba, ∃ l, (do let k ← argmax p; rd classes k : M L) = .ok l ∧ l ∈ classes := fun p hp => by
    obtain ⟨k, h1, h2⟩ := argmax_any (row := p) (by
      intro h0
      have := h p hp
      rw [h0] at this
      exact hc (List.length_eq_zero_iff.1 this.symm))
    rw [h p hp] at h2
    exact ⟨classes[k], by rw [h1, bind_ok, rd_of_lt h2], List.getElem_mem _⟩
  obtain ⟨labels, e⟩ := mapM_total (l := proba) (f := fun p => (do let k ← argmax p; rd classes k : M L)) fun p hp => by
    obtain ⟨l, hl, -⟩ := hstep p hp
    exact ⟨l, hl⟩
  refine ⟨labels, e, ((mapM_eq_ok.1 e).length_eq).symm, fun l hl => ?_⟩
  obtain ⟨p, hp, h1⟩ := mapM_mem_inv e hl
  obtain ⟨l', h2, h3⟩ := hstep p hp
  rw [h1] at h2
  injection h2 with h2
  exact h2 ▸ h3

end

section
variable {L V K F Y P G W N : Type} [LinearOrder L] [DecidableEq V] [DecidableEq N] [LinearOrder K] [Field K] [IsStrictOrderedRing K] [FloorSemiring K] [Num F]
  {okY : Y → Prop} {okP : P → Prop}

/-- What every tree of a fitted forest answers. -/
theorem FitFacts.any {lib : Lib V K F G W} {a : FitArgs N V} {p : FitData F Y P G} {lab : F → Prop} {okW : List F → Prop} {e e' : Est L V K F P G}
    (hlib : LibOK lib a.nRows) (hs : TaskSafe (p.task e.dirichlet) lab okY okP) {mix : F → P → P → P} (hmix : ∀ α p q, okP p → okP q → okP (mix α p q))
    (h : FitFacts lib a p lab okW e e') {fba : FBA} (hx : RowsOK fba (nCols a.X)) :
    ∀ o ∈ e'.trees, (∃ q, o.predict mix fba = .ok q ∧ q.length = fba.nSamples ∧ ∀ v ∈ q, okP v) ∧
      (∃ q, treeApply o.arr fba = .ok q ∧ q.length = fba.nSamples ∧ ∀ k ∈ q, k < o.arr.nodeCount ∧ ∃ nd, o.arr.nodes[k]? = some nd ∧ nd.isLeaf = true) ∧
      (o.aggregation = true → ∃ q, (List.range fba.nSamples).mapM (weightedDepthRow o.arr fba o.step) = .ok q ∧ q.length = fba.nSamples) := by
  intro o ho
  obtain ⟨c, gb, seed, D, hin, hlen, hn, hdd, -, -, -, hbt⟩ := h.trees o ho
  obtain ⟨bt, w, hB⟩ := buildTree_inv (D := D) (by rw [hn]; exact hlib.boot) hin hlen hbt
  rw [← hdd] at hx
  exact ⟨hB.predict_any hs hmix hx, hB.apply_any hs hx, fun hc => hB.depth_any hs (hB.agg ▸ hc) hx⟩

theorem apply_any {lib : Lib V K F G W} {e : Est L V K F P G} {n : Nat} {X : Dataset N V} {fba : FBA} (hb : e.encode lib n X = .ok fba) (hrows : fba.nSamples = n)
    (h : ∀ o ∈ e.trees, ∃ q, treeApply o.arr fba = .ok q ∧ q.length = fba.nSamples ∧ ∀ k ∈ q, k < o.arr.nodeCount ∧ ∃ nd, o.arr.nodes[k]? = some nd ∧ nd.isLeaf = true) :
    ∃ A, e.apply lib n X = .ok A ∧ A.length = e.trees.length ∧ ∀ (t : Nat) (o : TreeObj F P G) (l : List Nat), e.trees[t]? = some o →
      A[t]? = some l → l.length = n ∧ ∀ k ∈ l, k < o.arr.nodeCount ∧ ∃ nd, o.arr.nodes[k]? = some nd ∧ nd.isLeaf = true := by
  obtain ⟨A, hA⟩ := mapM_total (l := e.trees) (f := fun o => treeApply o.arr fba) fun o ho => by
    obtain ⟨q, h1, -⟩ := h o ho
    exact ⟨q, h1⟩
  have g := mapM_eq_ok.1 hA
  refine ⟨A, by unfold Est.apply; rw [hb, bind_ok]; exact hA, g.length_eq.symm, fun t o l ho hl => ?_⟩
  obtain ⟨ht, rfl⟩ := List.getElem?_eq_some_iff.1 ho
  obtain ⟨ht', rfl⟩ := List.getElem?_eq_some_iff.1 hl
  have k := g.get (i := t) ht ht'
  simp only [List.get_eq_getElem] at k
  obtain ⟨q, h1, h2, h3⟩ := h _ (List.getElem_mem ht)
  rw [k] at h1
  injection h1 with h1
  rw [h1]
  exact ⟨h2.trans hrows, h3⟩

end

end Verif
