import Verif.Proofs.OutOfBag
import Verif.Proofs.EstEnd
import Verif.Proofs.EndToEnd
import Verif.Proofs.EncoderReject
import Verif.Model.Inspect
import Verif.Proofs.Labels

/-! Two fits of an estimator whose labels and weights agree on the rows drawn for a tree. -/
set_option linter.unusedSectionVars false
namespace Verif

open Spec

theorem BootstrapOf.unique {draw : Nat → List Nat} {n seed : Nat} {d d' : List Nat} (h : BootstrapOf draw n seed d) (h' : BootstrapOf draw n seed d') :
    d' = d := by
  obtain ⟨m, e, ⟨i, hi, hni⟩, h3⟩ := h
  obtain ⟨m', e', ⟨i', hi', hni'⟩, h3'⟩ := h'
  rcases Nat.lt_trichotomy m m' with hlt | rfl | hlt
  · exact absurd (e ▸ h3' m hlt i hi) hni
  · rw [e, e']
  · exact absurd (e' ▸ h3 m' hlt i' hi') hni'

theorem _root_.Verif.Spec.AgreeOn.mono {α : Type} {B B' : List Nat} {a a' : List α} (h : AgreeOn B a a') (hs : ∀ i ∈ B', i ∈ B) : AgreeOn B' a a' :=
  fun i hi => h i (hs i hi)

theorem _root_.Verif.Spec.AgreeOn.map {α β : Type} {B : List Nat} {a a' : List α} (h : AgreeOn B a a') (f : α → β) : AgreeOn B (a.map f) (a'.map f) := by
  intro i hi
  rw [List.getElem?_map, List.getElem?_map, h i hi]

theorem _root_.Verif.Spec.AgreeOn.zipWith {α β γ : Type} {B : List Nat} {a a' : List α} {b b' : List β} (h : AgreeOn B a a') (h' : AgreeOn B b b')
    (f : α → β → γ) : AgreeOn B (List.zipWith f a b) (List.zipWith f a' b') := by
  intro i hi
  rw [List.getElem?_zipWith, List.getElem?_zipWith, h i hi, h' i hi]

section
variable {F Y P G : Type} [Num F]

theorem bootWeights_oob (b : Boot) {B : List Nat} {w w' : List F} (h : AgreeOn B w w') :
    RelM (AgreeOn B) (bootWeights b w) (bootWeights b w') := by
  unfold bootWeights
  refine RelM.foldlM (fun u u' p hu => ?_) h
  by_cases hp : p.1 ∈ B
  · refine RelM.bind (S := fun x y => x = y) (fun x x' hx hx' => ?_) fun x x' hx => ?_
    · rw [hu.rd hp] at hx
      exact Except.ok.inj (hx.symm.trans hx')
    · subst hx
      intro v v' hv hv' i hi
      obtain ⟨l1, rfl⟩ := wr_ok.1 hv
      obtain ⟨l2, rfl⟩ := wr_ok.1 hv'
      rw [List.getElem?_set, List.getElem?_set]
      by_cases hpi : p.1 = i
      · subst hpi; simp [l1, l2]
      · simp [hpi, hu i hi]
  · refine RelM.any.bind fun x x' _ => ?_
    intro v v' hv hv' i hi
    obtain ⟨l1, rfl⟩ := wr_ok.1 hv
    obtain ⟨l2, rfl⟩ := wr_ok.1 hv'
    have hpi : p.1 ≠ i := fun e => hp (e ▸ hi)
    rw [List.getElem?_set, List.getElem?_set]
    simp [hpi, hu i hi]

theorem buildTree_oob {R : Rng G} {T : F → Task F Y P G} {draw : Nat → List Nat} {depth : Nat} {c : Ctx F} {y' w' : List F} {gb : Garbage F} {d : F}
    {seed : Nat} {o o' : TreeObj F P G} {draws : List Nat} (hb : BootstrapOf draw c.fba.nSamples seed draws) (hy : AgreeOn draws c.y y')
    (hw : AgreeOn draws c.w w') (h : buildTree R T draw depth c gb d seed = .ok o)
    (h' : buildTree R T draw depth { c with y := y', w := w' } gb d seed = .ok o') : SameGrowth o o' := by
  unfold buildTree TreeObj.fit at h h'
  simp only [bind_eq_ok] at h h'
  obtain ⟨b, hgen, w1, hw1, ⟨arr, k⟩, hf, h⟩ := h
  obtain ⟨b', hgen', w1', hw1', ⟨arr', k'⟩, hf', h'⟩ := h'
  obtain rfl : b = b' := Except.ok.inj (hgen.symm.trans hgen')
  obtain ⟨draws', hb', hbe⟩ := genTV_explicit hgen
  obtain rfl : draws' = draws := BootstrapOf.unique hb hb'
  have hsub : ∀ i ∈ b.train, i ∈ draws' := by
    intro i hi
    rw [hbe] at hi
    simpa using (List.mem_filter.1 hi).2
  have hw2 := bootWeights_oob b hw _ _ hw1 hw1'
  obtain ⟨e1, e2, e3, e4⟩ := fitTree_oob R (T d) gb (c := { c with w := w1 }) (hy.mono hsub) (hw2.mono hsub) hf hf'
  injection h with h
  injection h' with h'
  subst h h' e1
  have f : ∀ {α : Type} (g : TreeArr F P → α), g { arr' with nodes := arr.nodes } = g arr := fun g => congrArg g e2
  exact ⟨e3, f TreeArr.yPred, f TreeArr.nodeCount, f TreeArr.binParts, f TreeArr.bpEnd, rfl, rfl, rfl, rfl, rfl, e4⟩

end

section
variable {L V K F Y P G W N : Type} [LinearOrder L] [DecidableEq V] [DecidableEq N] [LinearOrder K] [Field K] [IsStrictOrderedRing K]
  [FloorSemiring K] [Num F]

theorem encoderTransform_nSamples {cv : Conv V K} {cfg : EncCfg K} {enc : List (FitCol V K)} {words : Nat → Word} {n : Nat} {X : Dataset N V} {fba : FBA}
    (h : encoderTransform cv cfg enc words n X = .ok fba) : fba.nSamples = n := by
  have hfill : ∀ {b b' : FBA} {j : Nat} {col : List Nat}, b.fillColumn j col = .ok b' → b'.nSamples = b.nSamples := by
    intro b b' j col h
    unfold FBA.fillColumn at h
    simp only [bind_eq_ok] at h
    obtain ⟨_, _, _, _, _, _, _, _, _, _, _, _, h⟩ := h
    cases h
    rfl
  cases X with
  | frame X =>
    simp only [encoderTransform, transformDataFrame] at h
    split at h
    · cases h
    rw [bind_eq_ok] at h
    obtain ⟨mv, -, h⟩ := h
    refine foldlM_keep FBA.nSamples (fun b p b' hb => ?_) h
    simp only [bind_eq_ok] at hb
    obtain ⟨_, _, _, _, _, _, hb⟩ := hb
    exact hfill hb
  | array kind X =>
    simp only [encoderTransform, transformArray] at h
    split at h
    · cases h
    split at h
    · cases h
    rw [bind_eq_ok] at h
    obtain ⟨mv, -, h⟩ := h
    refine foldlM_keep FBA.nSamples (fun b p b' hb => ?_) h
    simp only [bind_eq_ok] at hb
    obtain ⟨_, _, _, _, _, _, hb⟩ := hb
    split at hb <;>
    · rw [bind_eq_ok] at hb
      obtain ⟨_, _, hb⟩ := hb
      exact hfill hb

theorem buildTree_aggregation {R : Rng G} {T : F → Task F Y P G} {draw : Nat → List Nat} {depth : Nat} {c : Ctx F} {gb : Garbage F} {d : F} {seed : Nat}
    {o : TreeObj F P G} (h : buildTree R T draw depth c gb d seed = .ok o) : o.aggregation = c.aggregation := by
  unfold buildTree TreeObj.fit at h
  simp only [bind_eq_ok] at h
  obtain ⟨b, -, w, -, ⟨arr, k⟩, -, h⟩ := h
  injection h with h
  rw [← h]

/-- The trees of two runs of the second half of `fit` with different labels and weights. -/
theorem fitRest_oob {lib : Lib V K F G W} {a : FitArgs N V} {p p' : FitData F Y P G} {s s' s1 s2 : World L V K F P G W} (hself : s'.self = s.self)
    (hnp : s'.np = s.np) (hT : p'.task = p.task) (ho : p'.ovr = p.ovr) (h1 : fitRest lib a p s = (.ok (), s1)) (h2 : fitRest lib a p' s' = (.ok (), s2)) :
    { s2.self with trees := s1.self.trees } = s1.self ∧ s2.self.trees.length = s1.self.trees.length ∧ (∀ o ∈ s1.self.trees, o.aggregation = s.self.aggregation) ∧
    ∀ (i seed : Nat) (draws : List Nat) (o o' : TreeObj F P G), s1.self.seeds[i]? = some seed → BootstrapOf (lib.boot a.nRows) a.nRows seed draws →
      (∀ (k : Nat) y y', p.ys[k]? = some y → p'.ys[k]? = some y' → AgreeOn draws y y') →
      (∀ (k : Nat) w w', p.ws[k]? = some w → p'.ws[k]? = some w' → AgreeOn draws w w') →
      s1.self.trees[i]? = some o → s2.self.trees[i]? = some o' → SameGrowth o o' := by
  obtain ⟨o, rfl⟩ := fitRest_inv h1
  obtain ⟨o', rfl⟩ := fitRest_inv h2
  obtain ⟨e', w0', np'⟩ := s'
  simp only at hself hnp
  subst hself hnp
  have hic : o'.ic = o.ic := Except.ok.inj (o'.hic.symm.trans o.hic)
  have hmf : o'.mf = o.mf := Except.ok.inj (o'.hmf.symm.trans o.hmf)
  have henc : o'.enc = o.enc := by
    have := o'.henc
    rw [hic] at this
    exact Except.ok.inj (this.symm.trans o.henc)
  have hfba : o'.fba = o.fba := by
    have := o'.hfba
    rw [hic, henc] at this
    exact Except.ok.inj (this.symm.trans o.hfba)
  have hl : o'.trees.length = o.trees.length := by
    have e1 := (mapM_eq_ok.1 o.htrees).length_eq
    have e2 := (mapM_eq_ok.1 o'.htrees).length_eq
    rw [← e1, ← e2]
  refine ⟨by simp only [Outcome.est, hic, henc, hmf], hl, fun t ht => ?_, fun i seed draws t t' hi hb hy hw ht ht' => ?_⟩
  · obtain ⟨i, hi⟩ := List.mem_iff_getElem?.1 ht
    simp only [Outcome.est] at hi
    obtain ⟨sd, dp, y, w, -, -, -, -, g5⟩ := growTrees_getElem? o.htrees hi
    exact buildTree_aggregation g5
  simp only [Outcome.est] at hi ht ht'
  obtain ⟨sd, dp, y, w, g1, g2, g3, g4, g5⟩ := growTrees_getElem? o.htrees ht
  obtain ⟨sd', dp', y', w', g1', g2', g3', g4', g5'⟩ := growTrees_getElem? o'.htrees ht'
  have hsd : sd = seed := Option.some.inj (g1.symm.trans hi)
  have hsd' : sd' = seed := Option.some.inj (g1'.symm.trans hi)
  have e2 : dp' = dp := Option.some.inj (g2'.symm.trans g2)
  subst hsd hsd' e2
  rw [ho] at g3' g4'
  rw [hfba, hmf, henc, hT] at g5'
  refine buildTree_oob ?_ (hy _ _ _ g3 g3') (hw _ _ _ g4 g4') g5 g5'
  rw [show FBA.nSamples _ = a.nRows from encoderTransform_nSamples o.hfba]
  exact hb

theorem fitChecks_inv {a : FitArgs N V} {k : Nat} {s s1 : World L V K F P G W} {sw : List F} (h : fitChecks a k s = (.ok sw, s1)) :
    k = a.nRows ∧ (a.weights ≠ none → s.weights.length = a.nRows) ∧ sw = weightsOf a s ∧ s1 = { s with self := withCategorical a.categorical s.self } := by
  by_cases hk : k = a.nRows
  swap
  · rw [fitChecks_rows hk] at h; cases h
  by_cases hw : a.weights ≠ none → s.weights.length = a.nRows
  swap
  · push Not at hw
    rw [fitChecks_weights hk hw.1 hw.2] at h; cases h
  rw [fitChecks_ok hk hw] at h
  cases h
  exact ⟨hk, hw, rfl, rfl⟩

theorem prepClassifier_inv {lib : Lib V K F G W} {a : FitArgs N V} {y : List L} {sw : List F} {s s1 : World L V K F (List F) G W}
    {p : FitData F (List F) (List F) G} (hy : y ≠ []) (h : prepClassifier lib a y sw s = (.ok p, s1)) :
    p = preparedOf lib s.self y sw ∧ s1 = { s with self := preparedEst s.self y, weights := callerWeights s.self a y s.weights sw } := by
  have ht : a.targetsOK = true := by
    cases ht : a.targetsOK with
    | true => rfl
    | false =>
      unfold prepClassifier at h
      rw [ht, Py.bind_of_error (s' := s) (e := .valueError) (by
        unfold encodeY
        rw [Py.bind_of_ok (Py.read_apply _ _), Py.bind_of_error (Py.raiseIf_true (b := !false) _ rfl)])] at h
      cases h
  have hf : s.self.ovr = true → s.self.fitted = true → 2 < (sortedUnique y).length := by
    intro ho hfit
    by_contra h2
    unfold prepClassifier at h
    rw [ht, Py.bind_of_error (encodeY_refit hy ho hfit (by omega))] at h
    cases h
  have hd : s.self.aggregation = true → ¬(Num.le s.self.dirichlet Num.zero = true ∧ Num.le Num.zero s.self.dirichlet = true) := by
    intro ha hd
    unfold prepClassifier at h
    rw [ht, Py.bind_of_ok (encodeY_ok hy hf), Py.bind_of_ok (Py.read_apply _ _)] at h
    simp only at h
    rw [Py.bind_of_error (Py.raiseIf_true _ (by
      change (s.self.aggregation && (Num.le s.self.dirichlet Num.zero && Num.le Num.zero s.self.dirichlet)) = true
      rw [ha, hd.1, hd.2]; rfl))] at h
    cases h
  rw [prepClassifier_ok ht hy hf hd] at h
  cases h
  exact ⟨rfl, rfl⟩

theorem sortedUnique_congr {y y' : List L} (h : ∀ l, l ∈ y' ↔ l ∈ y) : sortedUnique y' = sortedUnique y :=
  List.Perm.eq_of_pairwise (le := (· < ·)) (fun _ _ _ _ h1 h2 => absurd (h1.trans h2) (lt_irrefl _)) (sortedUnique_sorted _) (sortedUnique_sorted _)
    ((List.perm_ext_iff_of_nodup (sortedUnique_sorted _).nodup (sortedUnique_sorted _).nodup).2 fun l => by
      rw [mem_sortedUnique, mem_sortedUnique, h])

theorem balancedWeights_oob {B : List Nat} {k k' : List Nat} (hp : k'.Perm k) (h : AgreeOn B k k') :
    AgreeOn B (balancedWeights k : List F) (balancedWeights k') := by
  unfold balancedWeights
  rw [hp.length_eq, hp.dedup.length_eq]
  have : (fun j => (Num.div (Num.ofNat k.length) (Num.mul (Num.ofNat k.dedup.length) (Num.ofNat (k'.count j))) : F)) =
      fun j => Num.div (Num.ofNat k.length) (Num.mul (Num.ofNat k.dedup.length) (Num.ofNat (k.count j))) := by
    funext j; rw [hp.count_eq]
  rw [this]
  exact h.map _

/-- The codes of the labels, and whether they are a rearrangement. -/
theorem codesOf_oob {e : Est L V K F P G} {y y' : List L} (hc : ∀ l, l ∈ y' ↔ l ∈ y) {B : List Nat} (h : AgreeOn B y y') {k : Nat} {v v' : List Nat}
    (hv : (codesOf e y)[k]? = some v) (hv' : (codesOf e y')[k]? = some v') : AgreeOn B v v' ∧ (y'.Perm y → v'.Perm v) := by
  have hs := sortedUnique_congr hc
  unfold codesOf staysOvr at hv hv'
  rw [hs] at hv'
  split at hv
  · rename_i hov
    rw [if_pos hov] at hv'
    rw [List.getElem?_map, Option.map_eq_some_iff] at hv hv'
    obtain ⟨m, hm, rfl⟩ := hv
    obtain ⟨m', hm', rfl⟩ := hv'
    obtain rfl := Option.some.inj (hm.symm.trans hm')
    exact ⟨h.map _, fun hp => hp.map _⟩
  · rename_i hov
    rw [if_neg hov] at hv'
    cases k with
    | succ k => simp at hv
    | zero =>
      simp only [List.getElem?_cons_zero, Option.some.injEq] at hv hv'
      subst hv hv'
      exact ⟨h.map _, fun hp => hp.map _⟩

theorem classWeights_oob {e : Est L V K F P G} {y y' : List L} {sw sw' : List F} (hc : ∀ l, l ∈ y' ↔ l ∈ y) (hbal : e.balanced = true → y'.Perm y)
    {B : List Nat} (h : AgreeOn B y y') (hw : AgreeOn B sw sw') {k : Nat} {v v' : List F}
    (hv : (classWeights e y sw)[k]? = some v) (hv' : (classWeights e y' sw')[k]? = some v') : AgreeOn B v v' := by
  unfold classWeights at hv hv'
  cases hb : e.balanced with
  | false =>
    simp only [hb, Bool.false_eq_true, if_false, List.getElem?_map, Option.map_eq_some_iff] at hv hv'
    obtain ⟨-, -, rfl⟩ := hv
    obtain ⟨-, -, rfl⟩ := hv'
    exact hw
  | true =>
    simp only [hb, if_true, List.getElem?_map, Option.map_eq_some_iff] at hv hv'
    obtain ⟨c, hc1, rfl⟩ := hv
    obtain ⟨c', hc2, rfl⟩ := hv'
    obtain ⟨g1, g2⟩ := codesOf_oob hc h hc1 hc2
    exact hw.zipWith (balancedWeights_oob (g2 (hbal hb)) g1) _

theorem weightsOf_oob {a : FitArgs N V} {s s' : World L V K F P G W} {B : List Nat} (h : a.weights ≠ none → AgreeOn B s.weights s'.weights) :
    AgreeOn B (weightsOf a s) (weightsOf a s') := by
  unfold weightsOf
  cases hw : a.weights with
  | none => exact fun _ _ => rfl
  | some b => exact h (by simp [hw])

theorem fitClassifier_oob {lib : Lib V K F G W} {a : FitArgs N V} {y y' : List L} {s s' s1 s2 : World L V K F (List F) G W} (hself : s'.self = s.self)
    (hnp : s'.np = s.np) (hy : y ≠ []) (hc : ∀ l, l ∈ y' ↔ l ∈ y) (hbal : s.self.balanced = true → y'.Perm y)
    (h1 : fitClassifier lib a y s = (.ok (), s1)) (h2 : fitClassifier lib a y' s' = (.ok (), s2)) :
    { s2.self with trees := s1.self.trees } = s1.self ∧ s2.self.trees.length = s1.self.trees.length ∧ (∀ o ∈ s1.self.trees, o.aggregation = s.self.aggregation) ∧
    ∀ (i seed : Nat) (draws : List Nat) (o o' : TreeObj F (List F) G), s1.self.seeds[i]? = some seed →
      BootstrapOf (lib.boot a.nRows) a.nRows seed draws → AgreeOn draws y y' → (a.weights ≠ none → AgreeOn draws s.weights s'.weights) →
      s1.self.trees[i]? = some o → s2.self.trees[i]? = some o' → SameGrowth o o' := by
  have hy' : y' ≠ [] := by
    rintro rfl
    cases y with
    | nil => exact hy rfl
    | cons l t => exact absurd ((hc l).2 (by simp)) (by simp)
  unfold fitClassifier at h1 h2
  obtain ⟨sw, t1, g1, h1⟩ := Py.bind_inv h1
  obtain ⟨p, t2, g2, h1⟩ := Py.bind_inv h1
  obtain ⟨sw', t1', g1', h2⟩ := Py.bind_inv h2
  obtain ⟨p', t2', g2', h2⟩ := Py.bind_inv h2
  obtain ⟨-, -, rfl, rfl⟩ := fitChecks_inv g1
  obtain ⟨-, -, rfl, rfl⟩ := fitChecks_inv g1'
  obtain ⟨rfl, rfl⟩ := prepClassifier_inv hy g2
  obtain ⟨rfl, rfl⟩ := prepClassifier_inv hy' g2'
  have hsu := sortedUnique_congr hc
  have key := fitRest_oob (by rw [hself]; unfold preparedEst encodedEst staysOvr; rw [hsu]) (by exact hnp)
    (by rw [hself]; unfold preparedOf staysOvr; rw [hsu]) (by rw [hself]; unfold preparedOf staysOvr; rw [hsu]) h1 h2
  refine ⟨key.1, key.2.1, key.2.2.1, fun i seed draws o o' hi hb hyy hww => key.2.2.2 i seed draws o o' hi hb ?_ ?_⟩
  · intro k v v' hv hv'
    simp only [preparedOf, List.getElem?_map, Option.map_eq_some_iff, hself] at hv hv'
    obtain ⟨c, hc1, rfl⟩ := hv
    obtain ⟨c', hc2, rfl⟩ := hv'
    exact (codesOf_oob hc hyy hc1 hc2).1.map _
  · intro k v v' hv hv'
    simp only [preparedOf, hself] at hv hv'
    exact classWeights_oob hc (hbal) hyy (weightsOf_oob hww) hv hv'

theorem single_oob {α : Type} {B : List Nat} {a a' v v' : List α} (h : AgreeOn B a a') {k : Nat} (hv : [a][k]? = some v) (hv' : [a'][k]? = some v') :
    AgreeOn B v v' := by
  cases k with
  | succ k => simp at hv
  | zero =>
    simp only [List.getElem?_cons_zero, Option.some.injEq] at hv hv'
    subst hv hv'
    exact h

theorem prepRegressor_inv {lib : Lib V K F G W} {y sw : List F} {s s1 : World L V K F F G W} {p : FitData F (F × F) F G}
    (h : prepRegressor lib y sw s = (.ok p, s1)) : p = ⟨fun _ => regressorTask lib.argsort, false, [y], [sw]⟩ ∧ s1 = s := by
  obtain ⟨h1, h2⟩ := Prod.mk.inj h
  exact ⟨(Except.ok.inj h1).symm, h2.symm⟩

theorem fitRegressor_oob {lib : Lib V K F G W} {a : FitArgs N V} {y y' : List F} {s s' s1 s2 : World L V K F F G W} (hself : s'.self = s.self)
    (hnp : s'.np = s.np) (h1 : fitRegressor lib a y s = (.ok (), s1)) (h2 : fitRegressor lib a y' s' = (.ok (), s2)) :
    { s2.self with trees := s1.self.trees } = s1.self ∧ s2.self.trees.length = s1.self.trees.length ∧ (∀ o ∈ s1.self.trees, o.aggregation = s.self.aggregation) ∧
    ∀ (i seed : Nat) (draws : List Nat) (o o' : TreeObj F F G), s1.self.seeds[i]? = some seed →
      BootstrapOf (lib.boot a.nRows) a.nRows seed draws → AgreeOn draws y y' → (a.weights ≠ none → AgreeOn draws s.weights s'.weights) →
      s1.self.trees[i]? = some o → s2.self.trees[i]? = some o' → SameGrowth o o' := by
  unfold fitRegressor at h1 h2
  obtain ⟨sw, t1, g1, h1⟩ := Py.bind_inv h1
  obtain ⟨p, t2, g2, h1⟩ := Py.bind_inv h1
  obtain ⟨sw', t1', g1', h2⟩ := Py.bind_inv h2
  obtain ⟨p', t2', g2', h2⟩ := Py.bind_inv h2
  obtain ⟨-, -, rfl, rfl⟩ := fitChecks_inv g1
  obtain ⟨-, -, rfl, rfl⟩ := fitChecks_inv g1'
  obtain ⟨rfl, rfl⟩ := prepRegressor_inv g2
  obtain ⟨rfl, rfl⟩ := prepRegressor_inv g2'
  have key := fitRest_oob (by rw [hself]) (by exact hnp) (by rfl) (by rfl) h1 h2
  exact ⟨key.1, key.2.1, key.2.2.1, fun i seed draws o o' hi hb hyy hww => key.2.2.2 i seed draws o o' hi hb
    (fun _ _ _ hv hv' => single_oob hyy hv hv') (fun _ _ _ hv hv' => single_oob (weightsOf_oob hww) hv hv')⟩

end

section
variable {F P G : Type} [Num F]

theorem _root_.Verif.Spec.SameGrowth.rd {o o' : TreeObj F P G} (h : SameGrowth o o') (k : Nat) :
    (rd o'.arr.nodes k).map noValid = (rd o.arr.nodes k).map noValid := by
  rw [← rd_map, ← rd_map, h.nodes]

theorem _root_.Verif.Spec.SameGrowth.findLeafFrom {o o' : TreeObj F P G} (h : SameGrowth o o') (fba : FBA) (i fuel k : Nat) :
    findLeafFrom o'.arr fba i fuel k = findLeafFrom o.arr fba i fuel k := by
  induction fuel generalizing k with
  | zero => rfl
  | succ fuel ih =>
    unfold Verif.findLeafFrom
    have hr := h.rd k
    cases h1 : Verif.rd o.arr.nodes k with
    | error e => cases h2 : Verif.rd o'.arr.nodes k with
      | error e' => rw [h1, h2] at hr; injection hr with hr; rw [hr]; rfl
      | ok b => rw [h1, h2] at hr; injection hr
    | ok a => cases h2 : Verif.rd o'.arr.nodes k with
      | error e' => rw [h1, h2] at hr; injection hr
      | ok b =>
        rw [h1, h2] at hr
        injection hr with hr
        rw [bind_ok, bind_ok]
        have hb : b = { a with loss := b.loss, wValid := b.wValid, logW := b.logW } := by
          have : b = { noValid b with loss := b.loss, wValid := b.wValid, logW := b.logW } := rfl
          rw [this, hr]
          rfl
        rw [hb]
        unfold childOf
        rw [h.binParts]
        simp only [ih]

theorem _root_.Verif.Spec.SameGrowth.apply {o o' : TreeObj F P G} (h : SameGrowth o o') (fba : FBA) : treeApply o'.arr fba = treeApply o.arr fba := by
  unfold treeApply findLeaf
  rw [h.nodeCount]
  congr 1
  funext i
  exact h.findLeafFrom fba i _ _

theorem _root_.Verif.Spec.SameGrowth.predict {o o' : TreeObj F P G} (h : SameGrowth o o') (ha : o.aggregation = false) (mix : F → P → P → P) (fba : FBA) :
    o'.predict mix fba = o.predict mix fba := by
  unfold TreeObj.predict
  rw [h.whole ha, h.aggregation, h.step]

theorem mapM_getElem? {α β : Type} {f : α → M β} {l : List α} {r : List β} (h : l.mapM f = .ok r) (i : Nat) :
    (∃ x y, l[i]? = some x ∧ r[i]? = some y ∧ f x = .ok y) ∨ (l[i]? = none ∧ r[i]? = none) := by
  have h := mapM_eq_ok.1 h
  by_cases hi : i < l.length
  · have hi' : i < r.length := h.length_eq ▸ hi
    exact .inl ⟨_, _, List.getElem?_eq_getElem hi, List.getElem?_eq_getElem hi', h.get (i := i) hi hi'⟩
  · exact .inr ⟨List.getElem?_eq_none (by omega), List.getElem?_eq_none (by rw [← h.length_eq]; omega)⟩

end

section
variable {L V K F P G W N : Type} [LinearOrder L] [DecidableEq V] [DecidableEq N] [LinearOrder K] [Field K] [IsStrictOrderedRing K]
  [FloorSemiring K] [Num F]

theorem apply_oob {lib : Lib V K F G W} {e e' : Est L V K F P G} (he : { e' with trees := e.trees } = e) (hl : e'.trees.length = e.trees.length)
    {i : Nat} (hg : ∀ o o', e.trees[i]? = some o → e'.trees[i]? = some o' → SameGrowth o o') {n : Nat} {X : Dataset N V} {A A' : List (List Nat)}
    (hA : e.apply lib n X = .ok A) (hA' : e'.apply lib n X = .ok A') : A'[i]? = A[i]? := by
  have e1 : e'.encoder = e.encoder := by have := congrArg Est.encoder he; exact this
  unfold Est.apply Est.encode at hA hA'
  rw [e1] at hA'
  rw [bind_eq_ok] at hA hA'
  obtain ⟨fba, hf, hA⟩ := hA
  obtain ⟨fba', hf', hA'⟩ := hA'
  obtain rfl := Except.ok.inj (hf.symm.trans hf')
  rcases mapM_getElem? hA i with ⟨o, r, ho, hr, hor⟩ | ⟨ho, hr⟩
  · rcases mapM_getElem? hA' i with ⟨o', r', ho', hr', hor'⟩ | ⟨ho', hr'⟩
    · rw [(hg o o' ho ho').apply] at hor'
      rw [hr, hr', Except.ok.inj (hor.symm.trans hor')]
    · rw [List.getElem?_eq_none_iff, hl] at ho'
      rw [List.getElem?_eq_none ho'] at ho
      cases ho
  · rcases mapM_getElem? hA' i with ⟨o', r', ho', hr', hor'⟩ | ⟨ho', hr'⟩
    · rw [List.getElem?_eq_none_iff, ← hl] at ho
      rw [List.getElem?_eq_none ho] at ho'
      cases ho'
    · rw [hr, hr']

end

end Verif
