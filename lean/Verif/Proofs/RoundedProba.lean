import Verif.Spec.Rounding
import Verif.Proofs.EstEnd

/-! Predictions of classifiers in an arithmetic with rounding. -/
set_option linter.unusedSectionVars false
namespace Verif

open Spec

section
variable {F : Type} [LinearOrder F] [Num F] {N : Nat}

theorem Spec.FloatLaws.add_nonneg (hF : FloatLaws F N) {a b : F} (ha : Num.zero ≤ a) (hb : Num.zero ≤ b) : Num.zero ≤ Num.add a b := by
  have := hF.add_mono _ _ _ _ ha hb
  rwa [hF.zero_add] at this

theorem Spec.FloatLaws.le_add_right (hF : FloatLaws F N) {a b : F} (hb : Num.zero ≤ b) : a ≤ Num.add a b := by
  have := hF.add_mono _ _ _ _ (le_refl a) hb
  rwa [hF.add_zero] at this

theorem Spec.FloatLaws.le_add_left (hF : FloatLaws F N) {a b : F} (ha : Num.zero ≤ a) : b ≤ Num.add a b := by
  have := hF.add_mono _ _ _ _ ha (le_refl b)
  rwa [hF.zero_add] at this

theorem Spec.FloatLaws.mul_nonneg (hF : FloatLaws F N) {a b : F} (ha : Num.zero ≤ a) (hb : Num.zero ≤ b) : Num.zero ≤ Num.mul a b := by
  have := hF.mul_mono _ _ _ _ (le_refl _) ha (le_refl _) hb
  rwa [hF.zero_mul] at this

theorem Spec.FloatLaws.div_mem (hF : FloatLaws F N) {a b : F} (ha : Num.zero ≤ a) (hab : a ≤ b) (hb : Num.zero < b) :
    Num.zero ≤ Num.div a b ∧ Num.div a b ≤ Num.one := by
  have h1 := hF.div_mono _ _ _ hb ha
  have h2 := hF.div_mono _ _ _ hb hab
  rw [hF.zero_div _ hb] at h1
  rw [hF.div_self _ hb] at h2
  exact ⟨h1, h2⟩

theorem Spec.FloatLaws.ofNat_nonneg (hF : FloatLaws F N) (k : Nat) : (Num.zero : F) ≤ Num.ofNat k := by
  have := hF.ofNat_mono 0 k (Nat.zero_le _)
  rwa [hF.ofNat_zero] at this

theorem Spec.FloatLaws.one_le_ofNat (hF : FloatLaws F N) {k : Nat} (h : 0 < k) : (Num.one : F) ≤ Num.ofNat k := by
  have := hF.ofNat_mono 1 k h
  rwa [hF.ofNat_one] at this

theorem Spec.FloatLaws.ofNat_pos (hF : FloatLaws F N) {k : Nat} (h : 0 < k) : (Num.zero : F) < Num.ofNat k :=
  hF.zero_lt_one.trans_le (hF.one_le_ofNat h)

theorem Spec.FloatLaws.le_mul_ofNat (hF : FloatLaws F N) {a : F} (ha : Num.zero ≤ a) {k : Nat} (h : 0 < k) : a ≤ Num.mul a (Num.ofNat k) := by
  have := hF.mul_mono _ _ _ _ ha (le_refl a) hF.zero_lt_one.le (hF.one_le_ofNat h)
  rwa [hF.mul_one] at this

theorem Spec.FloatLaws.le_ofNat_mul (hF : FloatLaws F N) {a : F} (ha : Num.zero ≤ a) {k : Nat} (h : 0 < k) : a ≤ Num.mul (Num.ofNat k) a := by
  have := hF.mul_mono _ _ _ _ hF.zero_lt_one.le (hF.one_le_ofNat h) ha (le_refl a)
  rwa [hF.one_mul] at this

/-! ## Nodes -/

variable {D : Data F}

theorem sumW_last (l : List Nat) (i : Nat) : sumW D (l ++ [i]) = Num.add (sumW D l) (D.w i) := by
  simp [sumW]

theorem Spec.FloatLaws.sumW_nonneg (hF : FloatLaws F N) {l : List Nat} (hw : ∀ i ∈ l, Num.zero ≤ D.w i) : Num.zero ≤ sumW D l := by
  induction l using List.reverseRecOn with
  | nil => exact le_refl _
  | append_singleton l i ih =>
    rw [sumW_last]
    exact hF.add_nonneg (ih fun j hj => hw j (by simp [hj])) (hw i (by simp))

theorem Spec.FloatLaws.sumW_pos (hF : FloatLaws F N) {l : List Nat} (hw : ∀ i ∈ l, Num.zero < D.w i) (hl : l ≠ []) : Num.zero < sumW D l := by
  induction l using List.reverseRecOn with
  | nil => exact absurd rfl hl
  | append_singleton l i ih =>
    rw [sumW_last]
    exact (hw i (by simp)).trans_le (hF.le_add_left (hF.sumW_nonneg fun j hj => (hw j (by simp [hj])).le))

theorem finishClassPred_all {n : Nat} {d w : F} {p q : List F} {Q : F → Prop} (hp : p.length = n)
    (hQ : ∀ v ∈ p, Q (Num.div (Num.add v d) (Num.add w (Num.mul (Num.ofNat n) d)))) (h : finishClassPred n d p w = .ok q) :
    q.length = n ∧ ∀ x ∈ q, Q x := by
  have := foldlM_inv_of_ok (fun (pre : List Nat) (q : List F) => pre.length ≤ n ∧ q.length = n ∧
      ∀ (k : Nat) x, q[k]? = some x → (k < pre.length → Q x) ∧ (pre.length ≤ k → x ∈ p)) ⟨by simp, hp, fun k x hx => ⟨fun h => by simp at h, fun _ => List.mem_of_getElem? hx⟩⟩ h
    (by
      intro pre k post q q' hs hI hq
      have hk : k = pre.length := by
        have : (List.range n)[pre.length]? = some k := by rw [hs]; simp
        rw [List.getElem?_range (by have := congrArg List.length hs; simp at this; omega)] at this
        injection this with this; exact this.symm
      have hkn : k < n := List.mem_range.1 (by rw [hs]; simp)
      have hkq : k < q.length := by omega
      rw [rd_of_lt hkq, bind_ok, wr_of_lt _ hkq] at hq
      injection hq with hq
      subst hq
      refine ⟨by simp; omega, by simp [hI.2.1], fun j x hx => ?_⟩
      rw [List.getElem?_set] at hx
      by_cases hj : k = j
      · subst hj
        rw [if_pos rfl, if_pos hkq] at hx
        injection hx with hx
        refine ⟨fun _ => ?_, fun h => by simp at h; omega⟩
        rw [← hx]
        exact hQ _ ((hI.2.2 k _ (List.getElem?_eq_getElem hkq)).2 hk.ge)
      · rw [if_neg hj] at hx
        obtain ⟨h1, h2⟩ := hI.2.2 j x hx
        refine ⟨fun h => h1 (by simp at h; omega), fun h => h2 (by simp at h; omega)⟩)
  refine ⟨this.2.1, fun x hx => ?_⟩
  obtain ⟨k, hk, rfl⟩ := List.getElem_of_mem hx
  exact (this.2.2 k _ (List.getElem?_eq_getElem hk)).1 (by simp; omega)

variable {G : Type} {R : Rng G} {argsort : List F → List Nat}

/-- The prediction of a node consists of numbers between 0 and 1. -/
theorem Spec.FloatLaws.nodePred (hF : FloatLaws F N) {n : Nat} {d : F} {cr : Criterion} {s : CatStrategy} {l : List Nat} {p : List F} (hn : 0 < n)
    (hw : ∀ i ∈ l, Num.zero ≤ D.w i) (hd : Num.zero ≤ d) (hpos : Num.zero < d ∨ Num.zero < sumW D l)
    (h : Spec.nodePred (classifierTask R argsort n d cr s) D l = .ok p) : UnitVector n p := by
  unfold Spec.nodePred at h
  rw [bind_eq_ok] at h
  obtain ⟨q, h1, h2⟩ := h
  have hq := foldlM_inv_of_ok (fun (pre : List Nat) (q : List F) => q.length = n ∧ ∀ x ∈ q, Num.zero ≤ x ∧ x ≤ sumW D pre)
    ⟨by simp [classifierTask], fun x hx => by
      simp only [classifierTask] at hx
      rw [List.eq_of_mem_replicate hx]; exact ⟨le_refl _, le_refl _⟩⟩ h1
    (by
      intro pre i post q q' hs ⟨hl, hI⟩ hq
      have hi : i ∈ l := by rw [hs]; simp
      simp only [classifierTask, addClass] at hq
      rw [bind_eq_ok] at hq
      obtain ⟨v, hv, hq⟩ := hq
      rw [rd_ok] at hv
      have hlt := (List.getElem?_eq_some_iff.1 hv).1
      rw [wr_of_lt _ hlt] at hq
      injection hq with hq
      subst hq
      obtain ⟨v0, v1⟩ := hI v (List.mem_of_getElem? hv)
      refine ⟨by simp [hl], fun x hx => ?_⟩
      rw [sumW_last]
      rcases List.mem_or_eq_of_mem_set hx with hx | rfl
      · exact ⟨(hI x hx).1, (hI x hx).2.trans (hF.le_add_right (hw i hi))⟩
      · exact ⟨hF.add_nonneg v0 (hw i hi), hF.add_mono _ _ _ _ v1 (le_refl _)⟩)
  refine finishClassPred_all hq.1 (fun v hv => ?_) h2
  obtain ⟨v0, v1⟩ := hq.2 v hv
  have hdn := hF.le_ofNat_mul hd hn
  have hdn0 := hd.trans hdn
  refine hF.div_mem (hF.add_nonneg v0 hd) (hF.add_mono _ _ _ _ v1 hdn) ?_
  rcases hpos with h0 | h0
  · exact h0.trans_le (hdn.trans (hF.le_add_left (v0.trans v1)))
  · exact h0.trans_le (hF.le_add_right hdn0)

/-! ## Trees -/

variable {c : Ctx F} {gb : Garbage F} {d : F} {seed : Nat} {b : Boot} {w : List F} {fba : FBA}

theorem Spec.FloatLaws.boot_nonneg (hF : FloatLaws F N) (hw : ∀ i, i < D.n → Num.zero ≤ D.w i) : ∀ i, i < D.n → Num.zero ≤ (bootData D b).w i := by
  intro i hi
  have := hw i hi
  simp only [bootData]
  split
  · exact hF.mul_nonneg this (hF.ofNat_nonneg _)
  · exact this

theorem Spec.FloatLaws.boot_pos (hF : FloatLaws F N) (hb : IsPartition D.n b) (hw : ∀ i, i < D.n → Num.zero < D.w i) :
    ∀ i, i < D.n → Num.zero < (bootData D b).w i := by
  intro i hi
  have h0 := hw i hi
  simp only [bootData]
  split
  · rename_i m hm
    have : 0 < m := by
      by_cases hi' : i ∈ b.train
      · obtain ⟨c, h1, h2⟩ := (lookup_zip_mem (i := i) hb.2.2.2.1).1 hi'
        rw [hm] at h2
        injection h2 with h2
        rw [h2]; exact hb.2.2.2.2.1 c h1
      · rw [(lookup_zip_mem (i := i) hb.2.2.2.1).2 hi'] at hm
        exact absurd hm (by simp)
    exact h0.trans_le (hF.le_mul_ofNat h0.le this)
  · exact h0

/-- Predictions of one tree without aggregation. -/
theorem Spec.FloatLaws.predict_class (hF : FloatLaws F N) (ha : ArgsortPerm argsort) {n : Nat} {cr : Criterion} {s : CatStrategy} (hs : StrategyOK n s)
    {o : TreeObj F (List F) G} (hd : Num.zero ≤ d)
    (hb : Built R (fun d => classifierTask R argsort n d cr s) c D (ClassLabel n) gb d seed o b w) (hagg : c.aggregation = false)
    (hw : ∀ i, i < D.n → Num.zero ≤ D.w i) (hpos : Num.zero < d ∨ ∀ i, i < D.n → Num.zero < D.w i) (hx : RowsOK fba D.d) :
    ∃ p, o.predict mixV fba = .ok p ∧ p.length = fba.nSamples ∧ ∀ v ∈ p, UnitVector n v := by
  obtain ⟨t, hFi⟩ := fitted_of (classifier_safe R ha n d cr hs) hb.input hb.fit
  refine mapM_range fun i hi' => ?_
  rw [hb.agg, hb.step, hagg]
  have hx := hx i hi'
  choose! x hx using hx
  refine ⟨_, predictRow_leaf hFi.facts hx mixV c.step, ?_⟩
  obtain ⟨_, _, hu'⟩ := hFi.facts.below (leafNode_sub x t 0)
  obtain ⟨_, _, hok, _⟩ := hu'.ok.facts.stats
  have hlt := fun i hi => (hu'.ok.facts.okTrain i hi).1
  have hlab := fun i hi => (hu'.ok.facts.okTrain i hi).2
  have hn0 : 0 < n := by
    obtain ⟨i, hi⟩ := List.exists_mem_of_ne_nil _ hu'.ok.facts.nonempty
    exact Nat.lt_of_le_of_lt (Nat.zero_le _) (hlab i hi)
  exact hF.nodePred hn0 (fun i hi => hF.boot_nonneg hw i (hlt i hi)) hd
    (hpos.imp id fun h0 => hF.sumW_pos (fun i hi => hF.boot_pos hb.part h0 i (hlt i hi)) hu'.ok.facts.nonempty) hok.yPred

/-! ## Forests -/

theorem Spec.FloatLaws.proba_of_rows (hF : FloatLaws F N) {trees : List (TreeObj F (List F) G)} {n : Nat} (ht : trees ≠ []) (hN : trees.length ≤ N)
    (h : ∀ o ∈ trees, ∃ p, o.predict mixV fba = .ok p ∧ p.length = fba.nSamples ∧ ∀ v ∈ p, UnitVector n v) :
    ∃ out, predictProba n trees fba = .ok out ∧ out.length = fba.nSamples ∧ ∀ p ∈ out, UnitVector n p := by
  obtain ⟨out, e1, e2, e3⟩ := fold_add (add := List.zipWith (Num.add : F → F → F)) (step := addMat)
    (pr := fun o => TreeObj.predict mixV o fba) (N := fba.nSamples) (Q := UnitVector n)
    (K := fun k v => v.length = n ∧ ∀ x ∈ v, Num.zero ≤ x ∧ (k ≤ N → x ≤ Num.ofNat k))
    (fun k v q h1 h2 => by
      refine ⟨by simp [h1.1, h2.1], fun x hx => ?_⟩
      obtain ⟨a, ha, b, hb, rfl⟩ := mem_zipWith hx
      refine ⟨hF.add_nonneg (h1.2 a ha).1 (h2.2 b hb).1, fun hk => ?_⟩
      rw [← hF.ofNat_succ k hk]
      exact hF.add_mono _ _ _ _ ((h1.2 a ha).2 (by omega)) (h2.2 b hb).2)
    (fun k out p h1 h2 h3 h4 => addMat_eq (h1.trans h2.symm) (fun v hv => (h3 v hv).1) (fun v hv => (h4 v hv).1))
    trees h
    0 (List.replicate fba.nSamples (List.replicate n Num.zero)) (by simp) (fun v hv => by
      rw [List.eq_of_mem_replicate hv]
      refine ⟨by simp, fun x hx => ?_⟩
      rw [List.eq_of_mem_replicate hx]; exact ⟨le_refl _, fun _ => (hF.ofNat_zero).ge⟩)
  unfold predictProba accumulateProba
  rw [e1]
  refine ⟨_, rfl, by simp [e2], fun p hp => ?_⟩
  obtain ⟨u, hu, rfl⟩ := List.mem_map.1 hp
  obtain ⟨k1, k2⟩ := e3 u hu
  refine ⟨by simp [k1], fun x hx => ?_⟩
  obtain ⟨v, hv, rfl⟩ := List.mem_map.1 hx
  have h2 := (k2 v hv).2 (by omega)
  rw [Nat.zero_add] at h2
  exact hF.div_mem (k2 v hv).1 h2 (hF.ofNat_pos (List.length_pos_iff.2 ht))

theorem Spec.FloatLaws.le_foldl (hF : FloatLaws F N) : ∀ (row : List F) (a : F), (∀ x ∈ row, Num.zero ≤ x) → Num.zero ≤ a →
    a ≤ row.foldl Num.add a ∧ ∀ x ∈ row, x ≤ row.foldl Num.add a := by
  intro row
  induction row with
  | nil => intro a _ _; simp
  | cons y row ih =>
    intro a h ha
    have hy := h y (by simp)
    obtain ⟨h1, h2⟩ := ih (Num.add a y) (fun x hx => h x (by simp [hx])) (hF.add_nonneg ha hy)
    rw [List.foldl_cons]
    refine ⟨(hF.le_add_right hy).trans h1, fun x hx => ?_⟩
    rcases List.mem_cons.1 hx with rfl | hx
    · exact (hF.le_add_left ha).trans h1
    · exact h2 x hx

theorem Spec.FloatLaws.normRow (hF : FloatLaws F N) {n : Nat} (hn : 0 < n) {eps : F} (he : Num.zero ≤ eps) {row : List F} (hl : row.length = n)
    (h0 : ∀ x ∈ row, Num.zero ≤ x) : UnitVector n (Verif.normRow eps n row) := by
  unfold Verif.normRow
  simp only
  split
  · refine ⟨by simp [hl], fun x hx => ?_⟩
    obtain ⟨v, hv, rfl⟩ := List.mem_map.1 hx
    exact hF.div_mem hF.zero_lt_one.le (hF.one_le_ofNat hn) (hF.ofNat_pos hn)
  · rename_i hc
    rw [hF.le, decide_eq_true_eq, not_le] at hc
    refine ⟨by simp [hl], fun x hx => ?_⟩
    obtain ⟨v, hv, rfl⟩ := List.mem_map.1 hx
    exact hF.div_mem (h0 v hv) ((hF.le_foldl row _ h0 (le_refl _)).2 v hv) (he.trans_lt hc)

theorem Spec.FloatLaws.fold_ovr (hF : FloatLaws F N) {τ : Type} {pr : τ → M (List (List F))} {m n E : Nat} (trees : List (τ × Nat))
    (h : ∀ o ∈ trees, o.2 / E < n ∧ ∃ p, pr o.1 = .ok p ∧ p.length = m ∧ ∀ v ∈ p, UnitVector 2 v) (out : List (List F))
    (hl : out.length = m) (ho : ∀ v ∈ out, v.length = n ∧ ∀ x ∈ v, Num.zero ≤ x) :
    ∃ out', trees.foldlM (fun out (o : τ × Nat) => do
        let p ← pr o.1
        if out.length = p.length then (out.zip p).mapM fun (x : List F × List F) => addCol (o.2 / E) x.1 x.2
        else .error .valueError) out = .ok out' ∧ out'.length = m ∧ ∀ v ∈ out', v.length = n ∧ ∀ x ∈ v, Num.zero ≤ x := by
  induction trees generalizing out with
  | nil => exact ⟨out, rfl, hl, ho⟩
  | cons o trees ih =>
    obtain ⟨hi, p, h1, h2, h3⟩ := h o (by simp)
    have hrow : ∀ x ∈ out.zip p, ∃ r, addCol (o.2 / E) x.1 x.2 = .ok r ∧ r.length = n ∧ ∀ y ∈ r, Num.zero ≤ y := by
      intro x hx
      obtain ⟨r1, r2⟩ := ho x.1 (List.of_mem_zip hx).1
      obtain ⟨q1, q2⟩ := h3 x.2 (List.of_mem_zip hx).2
      have hlt1 : 1 < x.2.length := by omega
      have hlt2 : o.2 / E < x.1.length := by omega
      refine ⟨x.1.set (o.2 / E) (Num.add x.1[o.2 / E] x.2[1]), ?_, by simp [r1], fun y hy => ?_⟩
      · unfold addCol
        rw [rd_of_lt hlt1, bind_ok, rd_of_lt hlt2, bind_ok, wr_of_lt _ hlt2]
      · rcases List.mem_or_eq_of_mem_set hy with hy | rfl
        · exact r2 y hy
        · exact hF.add_nonneg (r2 _ (List.getElem_mem _)) (q2 _ (List.getElem_mem _)).1
    obtain ⟨r, e0⟩ := mapM_total (f := fun (x : List F × List F) => addCol (o.2 / E) x.1 x.2) (l := out.zip p) fun x hx => by
      obtain ⟨r, hr, _⟩ := hrow x hx; exact ⟨r, hr⟩
    have hlen := (mapM_eq_ok.1 e0).length_eq
    obtain ⟨out', e1, e2, e3⟩ := ih (fun o ho => h o (by simp [ho])) r (by rw [← hlen]; simp [hl, h2]) (fun v hv => by
      obtain ⟨x, hx, hx2⟩ := mapM_mem_inv e0 hv
      obtain ⟨r', hr, hr2⟩ := hrow x hx
      rw [hr] at hx2
      injection hx2 with hx2
      exact hx2 ▸ hr2)
    refine ⟨out', ?_, e2, e3⟩
    rw [List.foldlM_cons, h1, bind_ok, if_pos (by rw [hl, h2]), e0, bind_ok]
    exact e1

theorem Spec.FloatLaws.probaOvr_of_rows (hF : FloatLaws F N) {trees : List (TreeObj F (List F) G)} {n E : Nat} (hn : 0 < n) {eps : F} (he : Num.zero ≤ eps)
    (hl : trees.length = n * E)
    (h : ∀ o ∈ trees, ∃ p, o.predict mixV fba = .ok p ∧ p.length = fba.nSamples ∧ ∀ v ∈ p, UnitVector 2 v) :
    ∃ out, predictProbaOvr eps n E trees fba = .ok out ∧ out.length = fba.nSamples ∧ ∀ p ∈ out, UnitVector n p := by
  obtain ⟨out, e1, e2, e3⟩ := hF.fold_ovr (pr := fun o => TreeObj.predict mixV o fba) (m := fba.nSamples) (n := n) (E := E)
    trees.zipIdx (fun o ho => by
      have hlt : o.2 < n * E := by rw [← hl]; exact (List.mem_zipIdx ho).2.1.trans_eq (by simp)
      refine ⟨Nat.div_lt_of_lt_mul (by rw [Nat.mul_comm]; exact hlt), h o.1 ?_⟩
      have := (List.mem_zipIdx ho).2.2
      rw [this]; exact List.getElem_mem _)
    (List.replicate fba.nSamples (List.replicate n Num.zero)) (by simp) (fun v hv => by
      rw [List.eq_of_mem_replicate hv]
      refine ⟨by simp, fun x hx => ?_⟩
      rw [List.eq_of_mem_replicate hx])
  unfold predictProbaOvr
  rw [e1]
  refine ⟨_, rfl, by simp [e2], fun p hp => ?_⟩
  obtain ⟨u, hu, rfl⟩ := List.mem_map.1 hp
  exact hF.normRow hn he (e3 u hu).1 (e3 u hu).2

end

/-! ## Estimators -/

section
variable {L V K F G W N : Type} [LinearOrder L] [DecidableEq V] [DecidableEq N] [LinearOrder K] [Field K] [IsStrictOrderedRing K]
  [FloorSemiring K] [LinearOrder F] [Num F] {M : Nat}

theorem Spec.FloatLaws.balanced_nonneg (hF : FloatLaws F M) (y : List Nat) : ∀ w ∈ (balancedWeights y : List F), Num.zero ≤ w := by
  intro w hw
  obtain ⟨k, hk, rfl⟩ := List.mem_map.1 hw
  have h2 : 0 < y.dedup.length := List.length_pos_of_mem (List.mem_dedup.2 hk)
  have h3 : 0 < y.count k := List.count_pos_iff.2 hk
  have hpos : (Num.zero : F) < Num.mul (Num.ofNat y.dedup.length) (Num.ofNat (y.count k)) :=
    (hF.ofNat_pos h2).trans_le (hF.le_mul_ofNat (hF.ofNat_pos h2).le h3)
  have := hF.div_mono _ _ _ hpos (hF.ofNat_nonneg y.length)
  rwa [hF.zero_div _ hpos] at this

theorem Spec.FloatLaws.weightsOf_sign (hF : FloatLaws F M) {P : Type} {a : FitArgs N V} {s : World L V K F P G W} (h : ∀ w ∈ s.weights, Num.zero ≤ w) :
    (∀ w ∈ weightsOf a s, Num.zero ≤ w) ∧ ((∀ w ∈ s.weights, Num.zero < w) → ∀ w ∈ weightsOf a s, Num.zero < w) := by
  unfold weightsOf
  cases a.weights with
  | none => constructor <;> intros <;> rename_i w hw <;> rw [List.eq_of_mem_replicate hw] <;> first | exact hF.zero_lt_one.le | exact hF.zero_lt_one
  | some b => exact ⟨h, fun h => h⟩

theorem Spec.FloatLaws.classWeights_sign (hF : FloatLaws F M) {P : Type} {e : Est L V K F P G} {y : List L} {sw : List F} (h0 : ∀ w ∈ sw, Num.zero ≤ w) :
    ∀ ws ∈ classWeights e y sw, (∀ w ∈ ws, Num.zero ≤ w) ∧ (e.balanced = false → (∀ w ∈ sw, Num.zero < w) → ∀ w ∈ ws, Num.zero < w) := by
  intro ws hws
  unfold classWeights at hws
  split at hws
  · rename_i hb
    obtain ⟨c, _, rfl⟩ := List.mem_map.1 hws
    refine ⟨fun w hw => ?_, fun h => by rw [hb] at h; cases h⟩
    obtain ⟨a, ha, b, hb, rfl⟩ := mem_zipWith hw
    exact hF.mul_nonneg (h0 a ha) (hF.balanced_nonneg _ b hb)
  · obtain ⟨c, _, rfl⟩ := List.mem_map.1 hws
    exact ⟨h0, fun _ h => h⟩

theorem getD_all {Q : F → Prop} {l : List F} (h : ∀ v ∈ l, Q v) {i : Nat} (hi : i < l.length) : Q (l.getD i Num.zero) := by
  rw [List.getD_eq_getElem?_getD, List.getElem?_eq_getElem hi]
  exact h _ (List.getElem_mem hi)

/-- Every tree of a classifier fitted without aggregation gives numbers between 0 and 1. -/
theorem Spec.FloatLaws.fit_predict (hF : FloatLaws F M) {lib : Lib V K F G W} {a : FitArgs N V} {y : List L} {sw : List F} {m : Nat} {d : F}
    {e0 e' e : Est L V K F (List F) G} {okW : List F → Prop} (hm : m = if staysOvr e y then 2 else (sortedUnique y).length) (hlib : LibOK lib a.nRows)
    (hst : StrategyOK m e.strategy) (hd : Num.zero ≤ d) (hd0 : e0.dirichlet = d) (hagg : e0.aggregation = false)
    (hw : ∀ w ∈ classWeights e y sw, (∀ v ∈ w, Num.zero ≤ v) ∧ (Num.zero < d ∨ ∀ v ∈ w, Num.zero < v))
    (h : FitFacts lib a (preparedOf lib e y sw) (ClassLabel m) okW e0 e') {fba : FBA} (hx : RowsOK fba (nCols a.X)) :
    ∀ o ∈ e'.trees, ∃ p, o.predict mixV fba = .ok p ∧ p.length = fba.nSamples ∧ ∀ v ∈ p, UnitVector m v := by
  intro o ho
  subst hm hd0
  obtain ⟨train, htr, hn, hdd, hall⟩ := h.indexed
  obtain ⟨i, hi, rfl⟩ := List.getElem_of_mem ho
  obtain ⟨c, gb, seed, y', w', -, -, hw', hyl, hwl, hcw, hca, -, hin, hbt⟩ := hall i _ (List.getElem?_eq_getElem hi)
  obtain ⟨bt, w, hB⟩ := buildTree_inv (by change DrawsOK train.nSamples _; rw [hn]; exact hlib.boot) hin (by change c.w.length = train.nSamples; rw [hcw, hwl, hn]) hbt
  obtain ⟨hw0, hw1⟩ := hw w' (List.mem_of_getElem? hw')
  refine hF.predict_class hlib.argsort hst hd hB (hca.trans hagg) (fun i hi => ?_) (hw1.imp id fun h1 i hi => ?_) (by change RowsOK fba train.nFeatures; rw [hdd]; exact hx)
  · exact getD_all hw0 (by change i < train.nSamples at hi; omega)
  · exact getD_all h1 (by change i < train.nSamples at hi; omega)

end

end Verif
