import Verif.Model.Forest
import Verif.Spec.Forest
import Verif.Proofs.Ctw
import Verif.Proofs.RealPred
import Verif.Proofs.Encoder

set_option linter.unusedSectionVars false

/-! Forests: fit of all trees, and predictions over the real numbers. -/
namespace Verif

open Spec

variable {F Y P G : Type} [Num F]

theorem lookup_zip_mem {l : List Nat} {m : List Nat} {i : Nat} (h : m.length = l.length) :
    (i ∈ l → ∃ c ∈ m, (l.zip m).lookup i = some c) ∧ (i ∉ l → (l.zip m).lookup i = none) := by
  induction l generalizing m with
  | nil => simp
  | cons a l ih =>
    cases m with
    | nil => simp at h
    | cons c m =>
      simp only [List.length_cons, add_left_inj] at h
      simp only [List.zip_cons_cons, List.lookup_cons]
      by_cases hi : i = a
      · subst hi; simp
      · have hb : (i == a) = false := by simpa using hi
        rw [hb]
        obtain ⟨h1, h2⟩ := ih h
        constructor
        · intro hm
          obtain ⟨c', e1, e2⟩ := h1 (by simpa [hi] using hm)
          exact ⟨c', by simp [e1], e2⟩
        · intro hm
          exact h2 (by simp at hm; exact hm.2)

theorem bootWeights_aux (l : List (Nat × Nat)) (hn : (l.map Prod.fst).Nodup) (w : List F) (hl : ∀ p ∈ l, p.1 < w.length) :
    ∃ w', l.foldlM (fun (w : List F) (p : Nat × Nat) => do
        let x ← rd w p.1
        wr w p.1 (Num.mul x (Num.ofNat p.2))) w = .ok w' ∧ w'.length = w.length ∧
      ∀ i : Nat, w'[i]? = (w[i]?).map fun x => match l.lookup i with | some m => Num.mul x (Num.ofNat m) | none => x := by
  induction l generalizing w with
  | nil => exact ⟨w, rfl, rfl, fun i => by cases w[i]? <;> rfl⟩
  | cons p l ih =>
    have hp := hl p (by simp)
    simp only [List.map_cons, List.nodup_cons] at hn
    obtain ⟨w', e1, e2, e3⟩ := ih hn.2 (w.set p.1 (Num.mul w[p.1] (Num.ofNat p.2)))
      (fun q hq => by rw [List.length_set]; exact hl q (by simp [hq]))
    refine ⟨w', ?_, by rw [e2, List.length_set], fun i => ?_⟩
    · rw [List.foldlM_cons, rd_of_lt hp, bind_ok, wr_of_lt _ hp, bind_ok]
      exact e1
    · rw [e3 i, List.getElem?_set, List.lookup_cons]
      by_cases hi : p.1 = i
      · subst hi
        have hb : (p.1 == p.1) = true := by simp
        have hno : l.lookup p.1 = none := by
          rw [List.lookup_eq_none_iff]
          intro q hq
          have : q.1 ≠ p.1 := fun h0 => hn.1 (h0 ▸ List.mem_map_of_mem hq)
          simpa using fun h0 => this h0.symm
        simp [hno, hp]
      · have hb : (i == p.1) = false := by simpa using fun h => hi h.symm
        simp only [hi, if_false, hb]

theorem bootWeights_spec {n : Nat} {b : Boot} (hb : IsPartition n b) {w : List F} (hw : w.length = n) :
    ∃ w', bootWeights b w = .ok w' ∧ w'.length = n ∧ ∀ i : Nat, w'[i]? = (w[i]?).map fun x =>
      match (b.train.zip b.trainCount).lookup i with | some m => Num.mul x (Num.ofNat m) | none => x := by
  have hnd : (b.train ++ b.valid).Nodup := hb.1.nodup_iff.2 List.nodup_range
  obtain ⟨w', h1, h2, h3⟩ := bootWeights_aux (b.train.zip b.trainCount)
    (by rw [List.map_fst_zip (by rw [hb.2.2.2.1])]; exact (List.nodup_append.1 hnd).1) w
    (fun p hp => by
      have := (List.of_mem_zip hp).1
      rw [hw]
      exact List.mem_range.1 (hb.1.mem_iff.1 (List.mem_append_left _ this)))
  exact ⟨w', h1, by rw [h2, hw], h3⟩

section
variable {R : Rng G} {T : F → Task F Y P G} {draw : Nat → List Nat} {depth : Nat} {c : Ctx F} {D : Data F} {lab : F → Prop}
  {gb : Garbage F} {d : F} {seed : Nat}

/-- The bootstrapped data are valid input of a tree fit. -/
theorem boot_input (h : ForestInput c D lab) (hlen : c.w.length = D.n) {b : Boot} (hb : IsPartition D.n b) {w : List F}
    (hw : bootWeights b c.w = .ok w) : FitInput { c with w := w } (bootData D b) lab b.train b.valid := by
  obtain ⟨w', e1, e2, e3⟩ := bootWeights_spec hb hlen
  rw [hw] at e1
  injection e1 with e1
  subst e1
  have hlt : ∀ i ∈ b.train ++ b.valid, i < D.n := fun i hi => List.mem_range.1 (hb.1.mem_iff.1 hi)
  have hnd : (b.train ++ b.valid).Nodup := hb.1.nodup_iff.2 List.nodup_range
  obtain ⟨n1, n2, _⟩ := List.nodup_append.1 hnd
  have hh := h.holds
  refine ⟨⟨hh.n, hh.d, hh.value, hh.bound, hh.y, ?_, hh.cat⟩, ⟨h.params.feats, h.params.minSplit⟩, ?_, ?_, n1, n2, hb.2.1⟩
  · intro i hi
    change w[i]? = _
    rw [e3 i, hh.w i hi]
    rfl
  · exact fun i hi => ⟨hlt i (by simp [hi]), h.labels i (hlt i (by simp [hi]))⟩
  · exact fun i hi => ⟨hlt i (by simp [hi]), h.labels i (hlt i (by simp [hi]))⟩

/-- A tree of a fitted forest. -/
structure Built (R : Rng G) (T : F → Task F Y P G) (c : Ctx F) (D : Data F) (lab : F → Prop) (gb : Garbage F) (d : F) (seed : Nat)
    (o : TreeObj F P G) (b : Boot) (w : List F) : Prop where
  part : IsPartition D.n b
  weights : bootWeights b c.w = .ok w
  input : FitInput { c with w := w } (bootData D b) lab b.train b.valid
  fit : fitTree R (T d) { c with w := w } gb seed b.train b.valid = .ok (o.arr, o.work)
  agg : o.aggregation = c.aggregation
  step : o.step = c.step
  dir : o.dirichlet = d
  ctx : o.ctx = some { c with w := w }

theorem buildTree_boot (hd : DrawsOK D.n draw) (h : ForestInput c D lab) (hlen : c.w.length = D.n) {o : TreeObj F P G}
    (hb : buildTree R T draw depth c gb d seed = .ok o) :
    ∃ b w, generateTrainValid draw D.n depth seed = .ok b ∧ Built R T c D lab gb d seed o b w := by
  unfold buildTree at hb
  rw [bind_eq_ok] at hb
  obtain ⟨b, h1, hb⟩ := hb
  rw [bind_eq_ok] at hb
  obtain ⟨w, h2, hb⟩ := hb
  unfold TreeObj.fit at hb
  rw [bind_eq_ok] at hb
  obtain ⟨⟨arr, k⟩, h3, hb⟩ := hb
  injection hb with hb
  subst hb
  rw [h.holds.n] at h1
  have hp := (genTV_ok hd _ _ _ h1).1
  exact ⟨b, w, h1, hp, h2, boot_input h hlen hp h2, h3, rfl, rfl, rfl, rfl⟩

theorem buildTree_inv (hd : DrawsOK D.n draw) (h : ForestInput c D lab) (hlen : c.w.length = D.n) {o : TreeObj F P G}
    (hb : buildTree R T draw depth c gb d seed = .ok o) : ∃ b w, Built R T c D lab gb d seed o b w := by
  obtain ⟨b, w, -, h⟩ := buildTree_boot hd h hlen hb
  exact ⟨b, w, h⟩

theorem fitForest_inv {gbs : Nat → Garbage F} {seeds : List Nat} {trees : List (TreeObj F P G)}
    (hf : fitForest R T draw depth c gbs d seeds = .ok trees) :
    trees.length = seeds.length ∧ ∀ o ∈ trees, ∃ s i, s ∈ seeds ∧ buildTree R T draw depth c (gbs i) d s = .ok o := by
  unfold fitForest at hf
  refine ⟨by rw [← (mapM_eq_ok.1 hf).length_eq]; simp, fun o ho => ?_⟩
  obtain ⟨⟨s, i⟩, h1, h2⟩ := mapM_mem_inv hf ho
  exact ⟨s, i, by simpa using (List.mem_zipIdx h1).2.2 ▸ List.getElem_mem _, h2⟩

end

/-! ## Over the real numbers -/

theorem boot_weight_nonneg {D : Data ℝ} {b : Boot} (hw : ∀ i, i < D.n → 0 ≤ D.w i) : ∀ i, i < D.n → 0 ≤ (bootData D b).w i := by
  intro i hi
  have := hw i hi
  simp only [bootData]
  split
  · simp only [Num.mul, Num.ofNat]; positivity
  · exact this

theorem boot_weight_pos {D : Data ℝ} {b : Boot} (hb : IsPartition D.n b) (hw : ∀ i, i < D.n → 0 < D.w i) :
    ∀ i, i < D.n → 0 < (bootData D b).w i := by
  intro i hi
  have h0 := hw i hi
  simp only [bootData]
  split
  · rename_i m hm
    have : 0 < m := by
      by_cases hi' : i ∈ b.train
      · obtain ⟨c, h1, h2⟩ := (lookup_zip_mem (i := i) hb.2.2.2.1).1 hi'
        rw [hm] at h2
        injection h2 with h2
        rw [h2]; exact hb.2.2.2.2.1 c h1
      · have := (lookup_zip_mem (i := i) hb.2.2.2.1).2 hi'
        rw [hm] at this; exact absurd this (by simp)
    have : (0 : ℝ) < m := by exact_mod_cast this
    simp only [Num.mul, Num.ofNat]; positivity
  · exact h0

theorem sum_zipWith_mix (α : ℝ) : ∀ (a b : List ℝ), a.length = b.length →
    (mixV α a b).sum = α * a.sum + (1 - α) * b.sum := by
  intro a
  induction a with
  | nil => intro b h; cases b <;> simp_all [mixV]
  | cons x a ih =>
    intro b h
    cases b with
    | nil => simp at h
    | cons y b =>
      have := ih b (by simpa using h)
      simp only [mixV] at this
      simp only [mixV, List.zipWith_cons_cons, List.sum_cons, this, mixF_real]
      ring

theorem mem_zipWith {α β γ : Type} {f : α → β → γ} : ∀ {a : List α} {b : List β} {x : γ}, x ∈ List.zipWith f a b →
    ∃ u ∈ a, ∃ v ∈ b, x = f u v := by
  intro a
  induction a with
  | nil => intro b x h; simp at h
  | cons u a ih =>
    intro b x h
    cases b with
    | nil => simp at h
    | cons v b =>
      simp only [List.zipWith_cons_cons, List.mem_cons] at h
      rcases h with rfl | h
      · exact ⟨u, by simp, v, by simp, rfl⟩
      · obtain ⟨u', h1, v', h2, h3⟩ := ih h
        exact ⟨u', by simp [h1], v', by simp [h2], h3⟩

theorem Distribution.mix {n : Nat} {a b : List ℝ} {α : ℝ} (h0 : 0 < α) (h1 : α < 1) (ha : Distribution n a)
    (hb : Distribution n b) : Distribution n (mixV α a b) := by
  obtain ⟨a1, a2, a3⟩ := ha
  obtain ⟨b1, b2, b3⟩ := hb
  refine ⟨by simp [mixV, a1, b1], fun x hx => ?_, ?_⟩
  · obtain ⟨u, hu, v, hv, rfl⟩ := mem_zipWith hx
    obtain ⟨u0, u1⟩ := a2 u hu
    obtain ⟨v0, v1⟩ := b2 v hv
    rw [mixF_real]
    constructor <;> nlinarith
  · rw [sum_zipWith_mix _ _ _ (by rw [a1, b1]), a3, b3]; ring

theorem aggOf_distribution {Q : Type} {step : ℝ} {g : GNode ℝ Y Q → List ℝ} {x : Nat → Nat} {n : Nat} :
    ∀ (t : GTree ℝ Y Q) (k : Nat), (∀ u j, SubAt t k u j → Distribution n (g u.root)) →
      Distribution n (aggOf step g mixV x t) := by
  intro t
  induction t with
  | leaf a => exact fun k h => h _ k (.refl _ _)
  | node a l r ihl ihr =>
    intro k h
    obtain ⟨a0, a1⟩ := alphaOf_mem step a l r
    simp only [aggOf]
    refine Distribution.mix a0 a1 (h _ k (.refl _ _)) ?_
    split
    · exact ihl (k + 1 + r.size) fun u j hu => h u j (.left hu)
    · exact ihr (k + 1) fun u j hu => h u j (.right hu)

/-- A weighted mean of labels lies between bounds for the labels. -/
theorem mean_mem {D : Data ℝ} {l : List Nat} {lo hi : ℝ} (hl : l ≠ []) (hw : ∀ i ∈ l, 0 < D.w i)
    (hy : ∀ i ∈ l, lo ≤ D.y i ∧ D.y i ≤ hi) : lo ≤ mean D l ∧ mean D l ≤ hi := by
  have ht := totalW_pos hw hl
  have key : ∀ l : List Nat, (∀ i ∈ l, 0 < D.w i) → (∀ i ∈ l, lo ≤ D.y i ∧ D.y i ≤ hi) →
      lo * totalW D l ≤ (l.map fun i => D.w i * D.y i).sum ∧ (l.map fun i => D.w i * D.y i).sum ≤ hi * totalW D l := by
    intro l
    induction l with
    | nil => simp [totalW]
    | cons i l ih =>
      intro h1 h2
      obtain ⟨i1, i2⟩ := ih (fun j hj => h1 j (by simp [hj])) (fun j hj => h2 j (by simp [hj]))
      have w0 := h1 i (by simp)
      obtain ⟨y0, y1⟩ := h2 i (by simp)
      simp only [totalW, List.map_cons, List.sum_cons] at i1 i2 ⊢
      constructor <;> nlinarith
  obtain ⟨k1, k2⟩ := key l hw hy
  unfold mean
  rw [le_div_iff₀ ht, div_le_iff₀ ht]
  exact ⟨k1, k2⟩

/-- Prediction of a tree for a row: the values at the nodes all satisfy `Q`, and `Q` is convex. -/
theorem predictRow_inv {T : Task ℝ Y P G} {c : Ctx ℝ} {D : Data ℝ} {lab : ℝ → Prop} {okP : P → Prop} {R : Rng G} {gb : Garbage ℝ}
    {seed : Nat} {train valid : List Nat} {arr : TreeArr ℝ P} {w : Work G} {t : GTree ℝ Y P}
    (hF : Fitted R T c D lab okP gb seed train valid arr w t) (mix : ℝ → P → P → P) (Q : P → Prop)
    (hagg : (∀ u j, SubAt t 0 u j → Q u.root.nc.yPred) → ∀ x, Q (aggOf c.step (fun a => a.nc.yPred) mix x t))
    (hQ : ∀ u j, SubAt t 0 u j → Q u.root.nc.yPred) {fba : FBA} {i : Nat}
    (hx : ∀ j, j < D.d → ∃ v, fba.getValue i j = .ok v) :
    ∃ p, predictRow mix arr fba c.aggregation c.step i = .ok p ∧ Q p := by
  choose! x hx using hx
  cases hc : c.aggregation with
  | false => exact ⟨_, predictRow_leaf hF.facts hx mix c.step, hQ _ _ (leafNode_sub x t 0)⟩
  | true => exact ⟨_, predictRow_agg hF.facts (hF.weights hc) hx mix, hagg hQ x⟩

/-- `List.mapM` over a range. -/
theorem mapM_range {α : Type} {f : Nat → M α} {n : Nat} {Q : α → Prop} (h : ∀ i, i < n → ∃ v, f i = .ok v ∧ Q v) :
    ∃ l, (List.range n).mapM f = .ok l ∧ l.length = n ∧ ∀ v ∈ l, Q v := by
  obtain ⟨l, hl⟩ := mapM_total (f := f) (l := List.range n) fun i hi => by
    obtain ⟨v, h1, _⟩ := h i (List.mem_range.1 hi); exact ⟨v, h1⟩
  have h2 := mapM_eq_ok.1 hl
  refine ⟨l, hl, by rw [← h2.length_eq]; simp, fun v hv => ?_⟩
  obtain ⟨i, h3, h4⟩ := mapM_mem_inv hl hv
  obtain ⟨v', h5, h6⟩ := h i (List.mem_range.1 h3)
  rw [h4] at h5
  injection h5 with h5
  exact h5 ▸ h6

/-- The accumulation over trees keeps an invariant that counts the trees. -/
theorem fold_add {α τ : Type} {add : α → α → α} {step : List α → List α → M (List α)} {pr : τ → M (List α)} {N : Nat} {Q : α → Prop}
    {K : Nat → α → Prop} (hK : ∀ k v q, K k v → Q q → K (k + 1) (add v q))
    (hstep : ∀ k out p, out.length = N → p.length = N → (∀ v ∈ out, K k v) → (∀ v ∈ p, Q v) → step out p = .ok (List.zipWith add out p))
    (trees : List τ) (h : ∀ o ∈ trees, ∃ p, pr o = .ok p ∧ p.length = N ∧ ∀ v ∈ p, Q v) (k : Nat) (out : List α) (hl : out.length = N)
    (ho : ∀ v ∈ out, K k v) :
    ∃ out', trees.foldlM (fun out o => do let p ← pr o; step out p) out = .ok out' ∧ out'.length = N ∧
      ∀ v ∈ out', K (k + trees.length) v := by
  induction trees generalizing k out with
  | nil => exact ⟨out, rfl, hl, ho⟩
  | cons o trees ih =>
    obtain ⟨p, h1, h2, h3⟩ := h o (by simp)
    obtain ⟨out', e1, e2, e3⟩ := ih (fun o ho => h o (by simp [ho])) (k + 1) (List.zipWith add out p) (by simp [hl, h2])
      (fun v hv => by
        obtain ⟨a, ha, q, hq, rfl⟩ := mem_zipWith hv
        exact hK k a q (ho a ha) (h3 q hq))
    refine ⟨out', ?_, e2, fun v hv => ?_⟩
    · rw [List.foldlM_cons, h1, bind_ok, hstep k out p hl h2 ho h3, bind_ok]
      exact e1
    · have := e3 v hv
      rw [List.length_cons]
      convert this using 1
      omega

theorem addRows_eq {α : Type} (add : α → α → α) {out p : List α} (h : out.length = p.length) :
    addRows add out p = .ok (List.zipWith add out p) := by
  rw [addRows, if_pos h]

theorem map_length_eq {α : Type} {n : Nat} {out p : List (List α)} (h : out.length = p.length) (h1 : ∀ v ∈ out, v.length = n) (h2 : ∀ v ∈ p, v.length = n) :
    out.map List.length = p.map List.length := by
  rw [List.eq_replicate_of_mem (l := out.map List.length) (a := n) (by simpa using h1),
    List.eq_replicate_of_mem (l := p.map List.length) (a := n) (by simpa using h2), List.length_map, List.length_map, h]

theorem addMat_eq {F : Type} [Num F] {n : Nat} {out p : List (List F)} (h : out.length = p.length) (h1 : ∀ v ∈ out, v.length = n) (h2 : ∀ v ∈ p, v.length = n) :
    addMat out p = .ok (List.zipWith (List.zipWith Num.add) out p) := by
  rw [addMat, if_pos (map_length_eq h h1 h2)]

section
variable {G : Type} {R : Rng G} {argsort : List ℝ → List Nat} {c : Ctx ℝ} {D : Data ℝ} {gb : Garbage ℝ} {d : ℝ} {seed : Nat}
  {b : Boot} {w : List ℝ} {fba : FBA}

/-- Predictions of one tree of a regression forest. -/
theorem Built.predict_reg (ha : ArgsortPerm argsort) {o : TreeObj ℝ ℝ G}
    (hb : Built R (fun _ => regressorTask argsort) c D (fun _ => True) gb d seed o b w) (hw : ∀ i, i < D.n → 0 < D.w i)
    {lo hi : ℝ} (hy : ∀ i, i < D.n → lo ≤ D.y i ∧ D.y i ≤ hi) (hx : RowsOK fba D.d) :
    ∃ p, o.predict mixF fba = .ok p ∧ p.length = fba.nSamples ∧ ∀ v ∈ p, lo ≤ v ∧ v ≤ hi := by
  obtain ⟨t, hF⟩ := fitted_of (regressor_safe ha) hb.input hb.fit
  refine mapM_range fun i hi' => ?_
  rw [hb.agg, hb.step]
  refine predictRow_inv hF mixF (fun p => lo ≤ p ∧ p ≤ hi) (fun hq x => aggOf_mem t 0 hq) (fun u j hu => ?_) (hx i hi')
  obtain ⟨_, _, hu'⟩ := hF.facts.below hu
  obtain ⟨_, _, hok, _⟩ := hu'.ok.facts.stats
  have hlt : ∀ i ∈ u.root.train, i < D.n := fun i hi => (hu'.ok.facts.okTrain i hi).1
  have := hok.yPred
  rw [nodePred_reg] at this
  injection this with this
  rw [← this]
  exact mean_mem hu'.ok.facts.nonempty (fun i hi => boot_weight_pos hb.part hw i (hlt i hi)) (fun i hi => hy i (hlt i hi))

/-- Predictions of one tree of a classification forest. -/
theorem Built.predict_class (ha : ArgsortPerm argsort) {n : Nat} {cr : Criterion} {s : CatStrategy} (hs : StrategyOK n s)
    {o : TreeObj ℝ (List ℝ) G} (hd : 0 ≤ d)
    (hb : Built R (fun d => classifierTask R argsort n d cr s) c D (ClassLabel n) gb d seed o b w)
    (hw : ∀ i, i < D.n → 0 ≤ D.w i) (hpos : 0 < d ∨ ∀ i, i < D.n → 0 < D.w i) (hx : RowsOK fba D.d) :
    ∃ p, o.predict mixV fba = .ok p ∧ p.length = fba.nSamples ∧ ∀ v ∈ p, Distribution n v := by
  obtain ⟨t, hF⟩ := fitted_of (classifier_safe R ha n d cr hs) hb.input hb.fit
  refine mapM_range fun i hi' => ?_
  rw [hb.agg, hb.step]
  refine predictRow_inv hF mixV (Distribution n) (fun hq x => aggOf_distribution t 0 hq) (fun u j hu => ?_) (hx i hi')
  obtain ⟨_, _, hu'⟩ := hF.facts.below hu
  obtain ⟨_, _, hok, _⟩ := hu'.ok.facts.stats
  have hlt : ∀ i ∈ u.root.train, i < D.n := fun i hi => (hu'.ok.facts.okTrain i hi).1
  have hlab : ∀ i ∈ u.root.train, ClassLabel n ((bootData D b).y i) := fun i hi => (hu'.ok.facts.okTrain i hi).2
  have := hok.yPred
  rw [nodePred_class R hlab] at this
  injection this with this
  rw [← this]
  have hwr : ∀ i ∈ u.root.train, 0 ≤ (bootData D b).w i := fun i hi => boot_weight_nonneg hw i (hlt i hi)
  have hn0 : 0 < n := by
    obtain ⟨i, hi⟩ := List.exists_mem_of_ne_nil _ hu'.ok.facts.nonempty
    exact Nat.lt_of_le_of_lt (Nat.zero_le _) (hlab i hi)
  have hnr : (0 : ℝ) < n := by exact_mod_cast hn0
  have hpos' : 0 < totalW (bootData D b) u.root.train + n * d := by
    rcases hpos with h0 | h0
    · have := totalW_nonneg hwr; positivity
    · have := totalW_pos (fun i hi => boot_weight_pos hb.part h0 i (hlt i hi)) hu'.ok.facts.nonempty
      positivity
  have h0 : ∀ x ∈ classPred n d (bootData D b) u.root.train, 0 ≤ x := classPred_nonneg hwr hd
  have h1 := classPred_sum hlab hpos'
  exact ⟨classPred_length, fun x hx => ⟨h0 x hx, le_one_of_sum h0 h1 x hx⟩, h1⟩

end

theorem sum_zipWith_add : ∀ (a b : List ℝ), a.length = b.length → (List.zipWith (fun x y => x + y) a b).sum = a.sum + b.sum := by
  intro a
  induction a with
  | nil => intro b h; cases b <;> simp_all
  | cons x a ih =>
    intro b h
    cases b with
    | nil => simp at h
    | cons y b =>
      simp only [List.zipWith_cons_cons, List.sum_cons, ih b (by simpa using h)]
      ring

theorem foldl_add_real (l : List ℝ) (a : ℝ) : l.foldl Num.add a = a + l.sum := by
  induction l generalizing a with
  | nil => simp
  | cons x l ih => rw [List.foldl_cons, ih, List.sum_cons]; simp only [Num.add]; ring

theorem distribution_of {p : List ℝ} {n : Nat} (hl : p.length = n) (h0 : ∀ x ∈ p, 0 ≤ x) (hs : p.sum = 1) : Distribution n p :=
  ⟨hl, fun x hx => ⟨h0 x hx, le_one_of_sum h0 hs x hx⟩, hs⟩

theorem sum_map_div (l : List ℝ) (a : ℝ) : (l.map fun v => v / a).sum = l.sum / a := by
  induction l with
  | nil => simp
  | cons x l ih => simp only [List.map_cons, List.sum_cons, ih]; ring

theorem distribution_div {p : List ℝ} {n : Nat} {a : ℝ} (hl : p.length = n) (h0 : ∀ x ∈ p, 0 ≤ x) (hs : p.sum = a) (ha : 0 < a) :
    Distribution n (p.map fun v => v / a) := by
  refine distribution_of (by simp [hl]) (fun x hx => ?_) ?_
  · obtain ⟨v, hv, rfl⟩ := List.mem_map.1 hx
    exact div_nonneg (h0 v hv) ha.le
  · rw [sum_map_div, hs, div_self ha.ne']

theorem normRow_distribution {n : Nat} (hn : 0 < n) {eps : ℝ} (he : 0 ≤ eps) {row : List ℝ} (hl : row.length = n)
    (h0 : ∀ x ∈ row, 0 ≤ x) : Distribution n (normRow eps n row) := by
  have hnr : (0 : ℝ) < n := by exact_mod_cast hn
  unfold normRow
  simp only [foldl_add_real]
  split
  · refine distribution_of (by simp [hl]) (fun x hx => ?_) ?_
    · obtain ⟨v, hv, rfl⟩ := List.mem_map.1 hx
      simp only [Num.div, Num.one, Num.ofNat]; positivity
    · have : (row.map fun _ => (Num.div Num.one (Num.ofNat n) : ℝ)) = List.replicate n (1 / (n : ℝ)) := by
        rw [List.map_const', hl]; rfl
      rw [this, List.sum_replicate, nsmul_eq_mul]
      field_simp
  · rename_i hc
    have hz : (Num.zero : ℝ) + row.sum = row.sum := by simp [Num.zero]
    rw [hz] at hc ⊢
    refine distribution_div hl h0 rfl (lt_of_le_of_lt he ?_)
    simpa [Num.le] using hc

/-- The accumulation of one-versus-rest scores. -/
theorem fold_ovr {τ : Type} {pr : τ → M (List (List ℝ))} {N n E : Nat} (trees : List (τ × Nat))
    (h : ∀ o ∈ trees, o.2 / E < n ∧ ∃ p, pr o.1 = .ok p ∧ p.length = N ∧ ∀ v ∈ p, Distribution 2 v) (out : List (List ℝ))
    (hl : out.length = N) (ho : ∀ v ∈ out, v.length = n ∧ ∀ x ∈ v, 0 ≤ x) :
    ∃ out', trees.foldlM (fun out (o : τ × Nat) => do
        let p ← pr o.1
        if out.length = p.length then (out.zip p).mapM fun (x : List ℝ × List ℝ) => addCol (o.2 / E) x.1 x.2
        else .error .valueError) out = .ok out' ∧ out'.length = N ∧ ∀ v ∈ out', v.length = n ∧ ∀ x ∈ v, 0 ≤ x := by
  induction trees generalizing out with
  | nil => exact ⟨out, rfl, hl, ho⟩
  | cons o trees ih =>
    obtain ⟨hi, p, h1, h2, h3⟩ := h o (by simp)
    have hrow : ∀ x ∈ out.zip p, ∃ r, addCol (o.2 / E) x.1 x.2 = .ok r ∧ r.length = n ∧ ∀ y ∈ r, 0 ≤ y := by
      intro x hx
      obtain ⟨m1, m2⟩ := List.of_mem_zip hx
      obtain ⟨r1, r2⟩ := ho _ m1
      obtain ⟨q1, q2, _⟩ := h3 _ m2
      have hlt1 : 1 < x.2.length := by omega
      have hlt2 : o.2 / E < x.1.length := by omega
      refine ⟨x.1.set (o.2 / E) (x.1[o.2 / E] + x.2[1]), ?_, by simp [r1], fun y hy => ?_⟩
      · unfold addCol
        rw [rd_of_lt hlt1, bind_ok, rd_of_lt hlt2, bind_ok, wr_of_lt _ hlt2]
        rfl
      · rcases List.mem_or_eq_of_mem_set hy with hy | rfl
        · exact r2 y hy
        · exact add_nonneg (r2 _ (List.getElem_mem _)) (q2 _ (List.getElem_mem _)).1
    obtain ⟨r, e0⟩ := mapM_total (f := fun (x : List ℝ × List ℝ) => addCol (o.2 / E) x.1 x.2) (l := out.zip p) fun x hx => by
      obtain ⟨r, hr, _⟩ := hrow x hx; exact ⟨r, hr⟩
    have hlen := (mapM_eq_ok.1 e0).length_eq
    obtain ⟨out', e1, e2, e3⟩ := ih (fun o ho => h o (by simp [ho])) r (by rw [← hlen]; simp [hl, h2]) (fun v hv => by
      obtain ⟨x, hx, hx2⟩ := mapM_mem_inv e0 hv
      obtain ⟨r', hr, hr2⟩ := hrow x hx
      rw [hr] at hx2
      injection hx2 with hx2
      exact hx2 ▸ hr2)
    refine ⟨out', ?_, e2, e3⟩
    rw [List.foldlM_cons, h1, bind_ok, if_pos (by rw [hl, h2]), e0, bind_ok]
    exact e1

/-! From the predictions of the trees to those of the forest. -/

theorem reg_of_rows {G : Type} {trees : List (TreeObj ℝ ℝ G)} {fba : FBA} {lo hi : ℝ} (ht : trees ≠ [])
    (h : ∀ o ∈ trees, ∃ p, o.predict mixF fba = .ok p ∧ p.length = fba.nSamples ∧ ∀ v ∈ p, lo ≤ v ∧ v ≤ hi) :
    ∃ out, forestPredict trees fba = .ok out ∧ out.length = fba.nSamples ∧ ∀ v ∈ out, lo ≤ v ∧ v ≤ hi := by
  obtain ⟨out, e1, e2, e3⟩ := fold_add (add := (Num.add : ℝ → ℝ → ℝ)) (step := addRows Num.add) (pr := fun o => TreeObj.predict mixF o fba)
    (N := fba.nSamples) (Q := fun v => lo ≤ v ∧ v ≤ hi) (K := fun k v => k * lo ≤ v ∧ v ≤ k * hi)
    (fun k v q h1 h2 => by simp only [Num.add]; push_cast; constructor <;> linarith [h1.1, h1.2, h2.1, h2.2])
    (fun k out p h1 h2 _ _ => addRows_eq _ (h1.trans h2.symm))
    trees h
    0 (List.replicate fba.nSamples Num.zero) (by simp) (fun v hv => by rw [List.eq_of_mem_replicate hv]; simp [Num.zero])
  have hn : (0 : ℝ) < trees.length := by exact_mod_cast List.length_pos_iff.2 ht
  unfold forestPredict
  rw [e1]
  refine ⟨_, rfl, by simp [e2], fun v hv => ?_⟩
  obtain ⟨u, hu, rfl⟩ := List.mem_map.1 hv
  obtain ⟨k1, k2⟩ := e3 u hu
  rw [Nat.zero_add] at k1 k2
  simp only [Num.div, Num.ofNat]
  rw [le_div_iff₀ hn, div_le_iff₀ hn]
  constructor <;> linarith

theorem proba_of_rows {G : Type} {trees : List (TreeObj ℝ (List ℝ) G)} {fba : FBA} {n : Nat} (ht : trees ≠ [])
    (h : ∀ o ∈ trees, ∃ p, o.predict mixV fba = .ok p ∧ p.length = fba.nSamples ∧ ∀ v ∈ p, Distribution n v) :
    ∃ out, predictProba n trees fba = .ok out ∧ out.length = fba.nSamples ∧ ∀ p ∈ out, Distribution n p := by
  obtain ⟨out, e1, e2, e3⟩ := fold_add (add := List.zipWith (Num.add : ℝ → ℝ → ℝ)) (step := addMat)
    (pr := fun o => TreeObj.predict mixV o fba) (N := fba.nSamples) (Q := Distribution n)
    (K := fun k v => v.length = n ∧ (∀ x ∈ v, 0 ≤ x) ∧ v.sum = k)
    (fun k v q h1 h2 => by
      refine ⟨by simp [h1.1, h2.1], fun x hx => ?_, ?_⟩
      · obtain ⟨a, ha, b, hb, rfl⟩ := mem_zipWith hx
        exact add_nonneg (h1.2.1 a ha) (h2.2.1 b hb).1
      · have := sum_zipWith_add v q (by rw [h1.1, h2.1])
        rw [h1.2.2, h2.2.2] at this
        push_cast
        exact this)
    (fun k out p h1 h2 h3 h4 => addMat_eq (h1.trans h2.symm) (fun v hv => (h3 v hv).1) (fun v hv => (h4 v hv).1))
    trees h
    0 (List.replicate fba.nSamples (List.replicate n Num.zero)) (by simp) (fun v hv => by
      rw [List.eq_of_mem_replicate hv]
      refine ⟨by simp, fun x hx => ?_, by simp [Num.zero]⟩
      rw [List.eq_of_mem_replicate hx]; simp [Num.zero])
  have hn : (0 : ℝ) < trees.length := by exact_mod_cast List.length_pos_iff.2 ht
  unfold predictProba accumulateProba
  rw [e1]
  refine ⟨_, rfl, by simp [e2], fun p hp => ?_⟩
  obtain ⟨u, hu, rfl⟩ := List.mem_map.1 hp
  obtain ⟨k1, k2, k3⟩ := e3 u hu
  rw [Nat.zero_add] at k3
  exact distribution_div k1 k2 k3 hn

theorem probaOvr_of_rows {G : Type} {trees : List (TreeObj ℝ (List ℝ) G)} {fba : FBA} {n E : Nat} (hn : 0 < n) {eps : ℝ} (he : 0 ≤ eps)
    (hl : trees.length = n * E)
    (h : ∀ o ∈ trees, ∃ p, o.predict mixV fba = .ok p ∧ p.length = fba.nSamples ∧ ∀ v ∈ p, Distribution 2 v) :
    ∃ out, predictProbaOvr eps n E trees fba = .ok out ∧ out.length = fba.nSamples ∧ ∀ p ∈ out, Distribution n p := by
  obtain ⟨out, e1, e2, e3⟩ := fold_ovr (pr := fun o => TreeObj.predict mixV o fba) (N := fba.nSamples) (n := n) (E := E)
    trees.zipIdx (fun o ho => by
      have hlt : o.2 < n * E := by rw [← hl]; exact (List.mem_zipIdx ho).2.1.trans_eq (by simp)
      refine ⟨Nat.div_lt_of_lt_mul (by rw [Nat.mul_comm]; exact hlt), h o.1 ?_⟩
      have := (List.mem_zipIdx ho).2.2
      rw [this]; exact List.getElem_mem _)
    (List.replicate fba.nSamples (List.replicate n Num.zero)) (by simp) (fun v hv => by
      rw [List.eq_of_mem_replicate hv]
      refine ⟨by simp, fun x hx => ?_⟩
      rw [List.eq_of_mem_replicate hx]; simp [Num.zero])
  unfold predictProbaOvr
  rw [e1]
  refine ⟨_, rfl, by simp [e2], fun p hp => ?_⟩
  obtain ⟨u, hu, rfl⟩ := List.mem_map.1 hp
  obtain ⟨k1, k2⟩ := e3 u hu
  exact normRow_distribution hn he k1 k2

/-- `np.argmax` over the real numbers. -/
theorem argmax_real {row : List ℝ} (h : row ≠ []) : ∃ k, argmax row = .ok k ∧ ∃ hk : k < row.length,
    (∀ (j : Nat) (hj : j < row.length), row[j] ≤ row[k]) ∧ ∀ (j : Nat) (hj : j < k), row[j] < row[k] := by
  have key : ∀ (m : Nat), m ≤ row.length → ∀ a, row[0]? = some a →
      ∃ (k : Nat) (hk : k < row.length), ((row.take m).zipIdx.foldl (fun (b : ℝ × Nat) (x : ℝ × Nat) => if Num.lt b.1 x.1 then x else b) (a, 0)) = (row[k], k) ∧
        (∀ (j : Nat) (hj : j < row.length), j < m → row[j] ≤ row[k]) ∧ ∀ (j : Nat) (hj : j < k), row[j] < row[k] := by
    intro m
    induction m with
    | zero =>
      intro _ a ha
      obtain ⟨h0, e⟩ := List.getElem?_eq_some_iff.1 ha
      exact ⟨0, h0, by simp [e], by simp, by simp⟩
    | succ m ih =>
      intro hm a ha
      obtain ⟨k, hk, e1, e2, e3⟩ := ih (by omega) a ha
      have hlt : m < row.length := by omega
      have ht : row.take (m + 1) = row.take m ++ [row[m]] := by rw [List.take_succ_eq_append_getElem hlt]
      rw [ht, List.zipIdx_append, List.foldl_append, e1]
      simp only [List.length_take, Nat.zero_add, List.zipIdx_cons, List.zipIdx_nil, List.foldl_cons, List.foldl_nil,
        min_eq_left hlt.le]
      by_cases hc : row[k] < row[m]
      · refine ⟨m, hlt, by simp [Num.lt, hc], fun j hj hjm => ?_, fun j hj => ?_⟩
        · rcases Nat.lt_succ_iff_lt_or_eq.1 hjm with h' | rfl
          · exact (e2 j hj h').trans hc.le
          · exact le_refl _
        · exact lt_of_le_of_lt (e2 j (by omega) hj) hc
      · refine ⟨k, hk, by simp [Num.lt, hc], fun j hj hjm => ?_, e3⟩
        rcases Nat.lt_succ_iff_lt_or_eq.1 hjm with h' | rfl
        · exact e2 j hj h'
        · exact not_lt.1 hc
  cases hr : row with
  | nil => exact absurd hr h
  | cons a l =>
    obtain ⟨k, hk, e1, e2, e3⟩ := key row.length le_rfl a (by simp [hr])
    rw [List.take_length] at e1
    rw [← hr]
    refine ⟨k, ?_, hk, fun j hj => e2 j hj hj, e3⟩
    subst hr
    simp only [argmax]
    exact congrArg (fun x => Except.ok x.2) e1

section
variable {G : Type} {R : Rng G} {T : F → Task F Y P G} {okY : Y → Prop} {okP : P → Prop} {lab : F → Prop}
  {draw : Nat → List Nat} {depth : Nat} {c : Ctx F} {D : Data F} {d : F} {seed : Nat}

theorem buildTree_ok (hT : TaskSafe (T d) lab okY okP) (h : ForestInput c D lab) (hlen : c.w.length = D.n) (gb : Garbage F) {b : Boot}
    (hb : IsPartition D.n b) (hg : generateTrainValid draw D.n depth seed = .ok b) :
    ∃ o, buildTree R T draw depth c gb d seed = .ok o := by
  obtain ⟨w, e1, _⟩ := bootWeights_spec hb hlen
  obtain ⟨arr, k, t, e2, _⟩ := fitTree_spec R hT gb seed (boot_input h hlen hb e1)
  refine ⟨{ arr := arr, aggregation := c.aggregation, step := c.step, dirichlet := d, ctx := some { c with w := w }, work := k }, ?_⟩
  unfold buildTree
  rw [h.holds.n, hg, bind_ok, e1, bind_ok]
  unfold TreeObj.fit
  rw [e2, bind_ok]
  rfl

theorem fitForest_ok (hT : TaskSafe (T d) lab okY okP) (h : ForestInput c D lab) (hlen : c.w.length = D.n) (hd : DrawsOK D.n draw)
    (gbs : Nat → Garbage F) {seeds : List Nat} (hg : ∀ s ∈ seeds, ∃ b, generateTrainValid draw D.n depth s = .ok b) :
    ∃ trees, fitForest R T draw depth c gbs d seeds = .ok trees := by
  unfold fitForest
  refine mapM_total fun x hx => ?_
  obtain ⟨b, hb⟩ := hg x.1 (by
    have := (List.mem_zipIdx hx).2.2
    rw [this]; exact List.getElem_mem _)
  exact buildTree_ok hT h hlen _ (genTV_ok hd _ _ _ hb).1 hb

end

end Verif
