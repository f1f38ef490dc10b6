import Verif.Proofs.ExtraEst
import Verif.Proofs.PermuteFit

/-! # An additional last column that brings nothing new: fit and predictions -/
set_option linter.unusedSectionVars false
namespace Verif.Extra

open Spec

/-! ### Predictions -/

section
variable {F P G : Type} [Num F]

theorem RelM.mapM {α β : Type} {f g : α → M β} {l : List α} (h : ∀ x ∈ l, RelM (· = ·) (f x) (g x)) : RelM (· = ·) (l.mapM f) (l.mapM g) := by
  induction l with
  | nil => exact RelM.pure' rfl
  | cons x l ih =>
    rw [List.mapM_cons, List.mapM_cons]
    refine RelM.bind (h x (by simp)) ?_
    rintro u _ rfl
    refine RelM.bind (ih fun y hy => h y (by simp [hy])) ?_
    rintro v _ rfl
    exact RelM.pure' rfl

theorem findLeafFrom_x {d : Nat} {b b' : FBA} (hb : FbaX d b b') (t : TreeArr F P) {i : Nat} (hi : i < b.nSamples) (fuel k : Nat) :
    RelM (· = ·) (findLeafFrom t b i fuel k) (findLeafFrom t b' i fuel k) := by
  induction fuel generalizing k with
  | zero => exact RelM.same
  | succ fuel ih =>
    unfold findLeafFrom
    refine RelM.same.bind ?_
    rintro n _ rfl
    cases hl : n.isLeaf with
    | true => exact RelM.same
    | false =>
      simp only [Bool.false_eq_true, if_false]
      refine RelM.bind (S := (· = ·)) ?_ ?_
      · unfold childOf
        refine RelM.same.bind ?_
        rintro f _ rfl
        by_cases hf : f < d
        · refine (hb.val i hi f hf).bind ?_
          rintro bin _ rfl
          exact RelM.same
        · intro u v hu
          rw [bind_eq_ok] at hu
          obtain ⟨x, hx, -⟩ := hu
          exact absurd (hb.inside i f x hx) hf
      · rintro k' _ rfl
        exact ih k'

theorem findLeaf_x {d : Nat} {b b' : FBA} (hb : FbaX d b b') (t : TreeArr F P) {i : Nat} (hi : i < b.nSamples) :
    RelM (· = ·) (findLeaf t b i) (findLeaf t b' i) := findLeafFrom_x hb t hi _ _

theorem treeApply_x {d : Nat} {b b' : FBA} (hb : FbaX d b b') (t : TreeArr F P) : RelM (· = ·) (treeApply t b) (treeApply t b') := by
  unfold treeApply
  rw [hb.rows]
  exact RelM.mapM fun i hi => findLeaf_x hb t (List.mem_range.1 hi)

theorem treePredict_x (mix : F → P → P → P) {d : Nat} {b b' : FBA} (hb : FbaX d b b') (t : TreeArr F P) (agg : Bool) (step : F) :
    RelM (· = ·) (treePredict mix t b agg step) (treePredict mix t b' agg step) := by
  unfold treePredict
  rw [hb.rows]
  refine RelM.mapM fun i hi => ?_
  unfold predictRow
  refine (findLeaf_x hb t (List.mem_range.1 hi)).bind ?_
  rintro k _ rfl
  exact RelM.same

/-- The two trees have the same nodes and predict in the same way. -/
structure ObjX (o o' : TreeObj F P G) : Prop where
  arr : o'.arr = o.arr
  aggregation : o'.aggregation = o.aggregation
  step : o'.step = o.step

theorem ObjX.predict {o o' : TreeObj F P G} (h : ObjX o o') (mix : F → P → P → P) (b : FBA) : o'.predict mix b = o.predict mix b := by
  unfold TreeObj.predict
  rw [h.arr, h.aggregation, h.step]

theorem forestPredict_x {ts ts' : List (TreeObj F F G)} (h : List.Forall₂ ObjX ts ts') {d : Nat} {b b' : FBA} (hb : FbaX d b b') :
    RelM (· = ·) (forestPredict ts b) (forestPredict ts' b') := by
  have : forestPredict ts' b' = forestPredict ts b' := by
    unfold forestPredict
    rw [h.length_eq, foldlM_forall₂ (fun s a c hac => by rw [hac.predict mixF b']) h]
  rw [this]
  unfold forestPredict
  rw [hb.rows]
  refine RelM.bind (S := (· = ·)) (RelM.foldlM ?_ rfl) ?_
  · rintro s _ o rfl
    refine (treePredict_x mixF hb o.arr o.aggregation o.step).bind ?_
    rintro p _ rfl
    exact RelM.same
  · rintro u _ rfl
    exact RelM.same

theorem predictProba_x (k : Nat) {ts ts' : List (TreeObj F (List F) G)} (h : List.Forall₂ ObjX ts ts') {d : Nat} {b b' : FBA} (hb : FbaX d b b') :
    RelM (· = ·) (Verif.predictProba k ts b) (Verif.predictProba k ts' b') := by
  have : Verif.predictProba k ts' b' = Verif.predictProba k ts b' := by
    unfold Verif.predictProba accumulateProba
    rw [h.length_eq, foldlM_forall₂ (fun s a c hac => by rw [hac.predict mixV b']) h]
  rw [this]
  unfold Verif.predictProba accumulateProba
  rw [hb.rows]
  refine RelM.bind (S := (· = ·)) (RelM.foldlM ?_ rfl) ?_
  · rintro s _ o rfl
    refine (treePredict_x mixV hb o.arr o.aggregation o.step).bind ?_
    rintro p _ rfl
    exact RelM.same
  · rintro u _ rfl
    exact RelM.same

theorem predictProbaOvr_x (eps : F) (k m : Nat) {ts ts' : List (TreeObj F (List F) G)} (h : List.Forall₂ ObjX ts ts') {d : Nat} {b b' : FBA}
    (hb : FbaX d b b') : RelM (· = ·) (predictProbaOvr eps k m ts b) (predictProbaOvr eps k m ts' b') := by
  have : predictProbaOvr eps k m ts' b' = predictProbaOvr eps k m ts b' := by
    unfold predictProbaOvr
    rw [foldlM_forall₂ (f := fun out (x : TreeObj F (List F) G × Nat) => do
      let p ← x.1.predict mixV b'
      if out.length = p.length then (out.zip p).mapM fun (row, q) => addCol (x.2 / m) row q
      else .error .valueError) (fun s x y hxy => by obtain ⟨x, i⟩ := x; obtain ⟨y, j⟩ := y; obtain ⟨h1, h2⟩ := hxy; simp only at h1 h2 ⊢; rw [h1.predict mixV b', h2])
      (Forall₂.zipIdx h 0)]
  rw [this]
  unfold predictProbaOvr
  rw [hb.rows]
  refine RelM.bind (S := (· = ·)) (RelM.foldlM ?_ rfl) ?_
  · rintro s _ ⟨o, i⟩ rfl
    refine (treePredict_x mixV hb o.arr o.aggregation o.step).bind ?_
    rintro p _ rfl
    exact RelM.same
  · rintro u _ rfl
    exact RelM.same

theorem applyAll_x {ts ts' : List (TreeObj F P G)} (h : List.Forall₂ ObjX ts ts') {d : Nat} {b b' : FBA} (hb : FbaX d b b') :
    RelM (· = ·) (ts.mapM fun o => treeApply o.arr b) (ts'.mapM fun o => treeApply o.arr b') := by
  induction h with
  | nil => exact RelM.pure' rfl
  | cons hx _ ih =>
    rw [List.mapM_cons, List.mapM_cons, hx.arr]
    refine (treeApply_x hb _).bind ?_
    rintro u _ rfl
    refine ih.bind ?_
    rintro v _ rfl
    exact RelM.pure' rfl

end

/-! ### Trees -/

section
variable {F Y P G : Type} [Num F]

theorem buildTree_x (hL : GainLaws F) (hirr : ∀ a : F, Num.lt a a = false) {R : Rng G} {T : F → Task F Y P G} (draw : Nat → List Nat) (depth : Nat)
    {n : Nat} {c c' : Ctx F} (gb : Garbage F) (d : F) (hx : Ext (T d) n c c') (seed : Nat) :
    RelM ObjX (buildTree R T draw depth c gb d seed) (buildTree R T draw depth c' gb d seed) := by
  unfold buildTree
  rw [hx.rows, show c'.w = c.w by rw [hx.eq]]
  cases hb : generateTrainValid draw c.fba.nSamples depth seed with
  | error e => exact fun u v hu => by cases hu
  | ok b =>
    simp only [bind_ok]
    refine RelM.same.bind ?_
    rintro w _ rfl
    have hx2 : Ext (T d) n { c with w := w } { c' with w := w } := by
      refine ⟨?_, hx.maxFeatures, hx.cols, hx.cols', hx.pos, hx.rows, hx.bins, hx.val, hx.inside, hx.cat, hx.new⟩
      conv_lhs => rw [hx.eq]
    obtain ⟨draws, -, rfl⟩ := genTV_explicit hb
    unfold TreeObj.fit
    refine (fitTree_ext hL hirr R hx2 gb seed (fun i hi => ?_) (fun i hi => ?_)).bind ?_
    · exact List.mem_range.1 (List.mem_filter.1 hi).1
    · exact List.mem_range.1 (List.mem_filter.1 hi).1
    · rintro ⟨arr, wk⟩ ⟨arr', wk'⟩ h1
      exact RelM.pure' ⟨h1, by rw [hx.eq], by rw [hx.eq]⟩

theorem classOrders_det {R : Rng G} {argsort : List F → List Nat} {k : Nat} {d : F} {c : Criterion} {s : CatStrategy} (hs : s ≠ .random) :
    DetOrders (classifierTask R argsort k d c s) := by
  intro ne ys g os g' h g1
  change classOrders R argsort k s ne ys g = _ at h
  change classOrders R argsort k s ne ys g1 = _
  unfold classOrders at h ⊢
  cases s with
  | all =>
    simp only [bind_eq_ok] at h ⊢
    obtain ⟨o, h1, h2⟩ := h
    injection h2 with h2
    obtain ⟨rfl, -⟩ := Prod.mk.inj h2
    exact ⟨_, h1, rfl⟩
  | binary =>
    simp only [bind_eq_ok] at h ⊢
    obtain ⟨o, h1, h2⟩ := h
    injection h2 with h2
    obtain ⟨rfl, -⟩ := Prod.mk.inj h2
    exact ⟨_, h1, rfl⟩
  | random => exact absurd rfl hs

theorem regOrders_det {argsort : List F → List Nat} : DetOrders (regressorTask argsort : Task F (F × F) F G) := by
  intro ne ys g os g' h g1
  change (regOrder argsort ne ys >>= fun o => Pure.pure ([o], g)) = _ at h
  change (regOrder argsort ne ys >>= fun o => Pure.pure ([o], g1)) = _
  rw [bind_eq_ok] at h ⊢
  obtain ⟨o, h1, h2⟩ := h
  injection h2 with h2
  obtain ⟨rfl, -⟩ := Prod.mk.inj h2
  exact ⟨_, h1, rfl⟩

theorem colMax_append (l : List Nat) (m : Nat) : colMax (l ++ [m]) = max (colMax l) m := by
  unfold colMax
  rw [List.foldl_append]
  rfl

end

/-! ### Forests -/

section
variable {L V K F Y P G W N : Type} [DecidableEq V] [DecidableEq N] [LinearOrder K] [Field K] [IsStrictOrderedRing K] [FloorSemiring K] [Num F]

theorem growTrees_x (hL : GainLaws F) (hirr : ∀ a : F, Num.lt a a = false) {lib : Lib V K F G W} {p : FitData F Y P G} {n d : Nat} {e e' : Est L V K F P G}
    (he : e'.nEstimators = e.nEstimators ∧ e'.minSplit = e.minSplit ∧ e'.minLeaf = e.minLeaf ∧ e'.aggregation = e.aggregation ∧ e'.step = e.step ∧
      e'.dirichlet = e.dirichlet) {mf mf' : Nat} {isCat isCat' : List Bool} {fba fba' : FBA} {seeds depths : List Nat}
    (hx : ∀ y w depth, Ext (p.task e.dirichlet) d
      { fba := fba, y := y, w := w, maxFeatures := mf, minSplit := e.minSplit, minLeaf := e.minLeaf, maxDepth := depth, aggregation := e.aggregation,
        step := e.step, isCategorical := isCat }
      { fba := fba', y := y, w := w, maxFeatures := mf', minSplit := e.minSplit, minLeaf := e.minLeaf, maxDepth := depth, aggregation := e.aggregation,
        step := e.step, isCategorical := isCat' }) :
    RelM (List.Forall₂ ObjX) (growTrees lib n p e mf isCat fba seeds depths) (growTrees lib n p e' mf' isCat' fba' seeds depths) := by
  unfold growTrees
  rw [he.1, he.2.1, he.2.2.1, he.2.2.2.1, he.2.2.2.2.1, he.2.2.2.2.2]
  generalize (seeds.zip depths).zipIdx = l
  induction l with
  | nil => exact RelM.pure' .nil
  | cons x l ih =>
    rw [List.mapM_cons, List.mapM_cons]
    obtain ⟨⟨seed, depth⟩, i⟩ := x
    refine RelM.bind (S := ObjX) ?_ ?_
    · refine RelM.same.bind ?_
      rintro y _ rfl
      refine RelM.same.bind ?_
      rintro w _ rfl
      exact buildTree_x hL hirr _ _ _ _ (hx y w depth) _
    · intro u v huv
      refine ih.bind fun us vs h => RelM.pure' (.cons huv h)

/-- The new column brings nothing: it is a copy of column `j`, or constant. -/
def Nothing (T : Task F Y P G) (cf cf' : CatFeatures) (X X' : Dataset N V) (n : Nat) (isCat : List Bool) : Prop :=
  (∃ j < nCols X, SameColumn X j X' (nCols X) ∧ declaredIn cf' (nCols X) = declaredIn cf j ∧ (isCat[j]? = some true → DetOrders T)) ∨
  ConstantColumn X' n (nCols X)

theorem outcome_x (hL : GainLaws F) (hirr : ∀ a : F, Num.lt a a = false) {lib : Lib V K F G W} {a : FitArgs N V} {X' : Dataset N V} {cf' : CatFeatures}
    {p : FitData F Y P G} {e e' : Est L V K F P G} {np : W} {lab : F → Prop} {okW : List F → Prop}
    (he : ∃ q, e' = { e with categoricalFeatures := q }) (hmf : e.maxFeatures = .none) (hn : 0 < a.nRows) (hcols : 1 ≤ nCols a.X)
    (hX : GoodInput a.nRows a.X) (hX' : GoodInput a.nRows X') (ha : AddsColumn a.X X')
    (hcf : ∀ f < nCols a.X, declaredIn cf' f = declaredIn a.categorical f)
    (o : Outcome lib a p e np) (o' : Outcome lib { a with X := X', categorical := cf' } p e' np)
    (hf : FitFacts lib a p lab okW e o.est) (hf' : FitFacts lib { a with X := X', categorical := cf' } p lab okW e' o'.est)
    (hnew : Nothing (p.task e.dirichlet) a.categorical cf' a.X X' a.nRows o.est.isCategorical_) :
    List.Forall₂ ObjX o.est.trees o'.est.trees ∧ (∀ f < nCols a.X, o'.est.isCategorical_[f]? = o.est.isCategorical_[f]?) ∧
      ∀ (N' : Type) [DecidableEq N'] (n : Nat) (E E' : Dataset N' V), 0 < n → GoodInput n E → GoodInput n E' → AddsColumn E E' →
        RelM (FbaX (nCols a.X)) (o.est.encode lib n E) (o'.est.encode lib n E') := by
  obtain ⟨q, rfl⟩ := he
  obtain ⟨cfg0, enc0, h0, hfit0, hmb0, h630, hlen0, hic0, -⟩ := hf.encoder
  obtain ⟨cfg1, enc1, h1, hfit1, hmb1, h631, hlen1, hic1, -⟩ := hf'.encoder
  obtain ⟨rfl, rfl⟩ := Prod.mk.inj (Option.some.inj h0)
  obtain ⟨rfl, rfl⟩ := Prod.mk.inj (Option.some.inj h1)
  have hE : EncGood o.enc := ⟨(encoderFit_ok hmb0 hfit0).2.1, h630⟩
  have hE' : EncGood o'.enc := ⟨(encoderFit_ok hmb1 hfit1).2.1, h631⟩
  have hc1 := AddsColumn.cols ha
  have hlen1 : o'.enc.length = nCols X' := hlen1
  have hdec : ∀ j j', j < nCols a.X → j' < nCols X' → declaredIn cf' j' = declaredIn a.categorical j →
      declared (({ e with categoricalFeatures := q } : Est L V K F P G).encCfg lib a.nRows o'.ic) j' = declared (e.encCfg lib a.nRows o.ic) j := by
    intro j j' hj hj' h
    rw [declared_in o.hic _ rfl hj, declared_in o'.hic _ rfl hj', h]
  have hsub : ∀ u : W, subsetOf lib ({ e with categoricalFeatures := q } : Est L V K F P G) a.nRows u = subsetOf lib e a.nRows u := fun u => by
    unfold subsetOf
    rfl
  have hseeds : seedsOf lib ({ e with categoricalFeatures := q } : Est L V K F P G) np = seedsOf lib e np := by
    unfold seedsOf
    rfl
  have henc' : encoderFit lib.conv (({ e with categoricalFeatures := q } : Est L V K F P G).encCfg lib a.nRows o'.ic)
      (subsetOf lib e a.nRows (seedsOf lib e np).2).1 X' = .ok o'.enc := by
    have h := o'.henc
    rw [hseeds, hsub] at h
    exact h
  have htrees' := o'.htrees
  rw [hseeds, hsub] at htrees'
  have henc : ∀ f < o.enc.length, o'.enc[f]? = o.enc[f]? := by
    intro f hf
    rw [hlen0] at hf
    exact fit_same (by exact ⟨rfl, rfl, rfl⟩) o.henc henc' (AddsColumn.same ha hf) (hdec f f hf (by omega) (hcf f hf))
  have hfx : FbaX o.enc.length o.fba o'.fba := encode_x hE hE' henc hn hX hX' ha o.hfba o'.hfba
  obtain ⟨r1, r2, r3, -⟩ := encoderTransform_ok hE.1 hE.2 hn hX o.hfba
  obtain ⟨r1', r2', r3', -⟩ := encoderTransform_ok hE'.1 hE'.2 hn hX' o'.hfba
  have hisc : ∀ j j' : Nat, o'.enc[j']? = o.enc[j]? → (o'.enc.map FitCol.isCat)[j']? = (o.enc.map FitCol.isCat)[j]? := by
    intro j j' h
    rw [List.getElem?_map, List.getElem?_map, h]
  have hmax : ∃ m, o'.fba.maxValues = o.fba.maxValues ++ [m] ∧ (m = 0 ∨ m ∈ o.fba.maxValues) := by
    have hpre : ∀ f < o.enc.length, o'.fba.maxValues[f]? = o.fba.maxValues[f]? := by
      intro f hf
      obtain ⟨m, m1, m2⟩ := max_same (by rfl) hX hX' o.hfba o'.hfba (AddsColumn.same ha (hlen0 ▸ hf)) (henc f hf)
      rw [m1, m2]
    have hlast : ∃ m, o'.fba.maxValues[nCols a.X]? = some m ∧ (m = 0 ∨ m ∈ o.fba.maxValues) := by
      rcases hnew with ⟨j, hj, hs, hd, -⟩ | hc
      · obtain ⟨m, m1, m2⟩ := max_same (by rfl) hX hX' o.hfba o'.hfba hs (fit_same (by exact ⟨rfl, rfl, rfl⟩) o.henc henc' hs (hdec j _ hj (by omega) hd))
        exact ⟨m, m2, .inr (List.mem_of_getElem? m1)⟩
      · exact ⟨0, max_const hmb1 hn hX' hc henc' o'.hfba, .inl rfl⟩
    obtain ⟨m, hm, hm'⟩ := hlast
    refine ⟨m, List.ext_getElem? fun i => ?_, hm'⟩
    rcases Nat.lt_trichotomy i (nCols a.X) with h | h | h
    · rw [hpre i (by omega), List.getElem?_append_left (by omega)]
    · rw [h, hm, List.getElem?_append_right (by omega)]
      simp [r2, hlen0]
    · rw [List.getElem?_eq_none (by omega), List.getElem?_eq_none (by simp; omega)]
  obtain ⟨m, hm, hm'⟩ := hmax
  have hbins : colMax o'.fba.maxValues = colMax o.fba.maxValues := by
    rw [hm, colMax_append]
    rcases hm' with rfl | h
    · simp
    · exact max_eq_left (le_colMax _ _ h)
  have hmf1 : o.mf = nCols a.X := by
    have := o.hmf
    rw [hmf] at this
    injection this with this
    exact this.symm
  have hmf2 : o'.mf = nCols a.X + 1 := by
    have := o'.hmf
    simp only [hmf] at this
    injection this with this
    rw [← this, hc1]
  have hrel := growTrees_x hL hirr (lib := lib) (p := p) (n := a.nRows) (d := nCols a.X) (e := e) (e' := { e with categoricalFeatures := q })
    ⟨rfl, rfl, rfl, rfl, rfl, rfl⟩ (mf := o.mf) (mf' := o'.mf) (isCat := o.enc.map FitCol.isCat) (isCat' := o'.enc.map FitCol.isCat) (fba := o.fba) (fba' := o'.fba)
    (seeds := (seedsOf lib e np).1) (depths := (depthsOf lib a.randomizedDepth (e.maxDepth.getD (2 ^ 64 - 1)) (seedsOf lib e np).1.length
      (subsetOf lib e a.nRows (seedsOf lib e np).2).2).1) (fun y w depth => by
      refine ⟨by simp only [hmf2], hmf1, ?_, ?_, hcols, hfx.rows, ?_, ?_, ?_, ?_, ?_⟩
      · show o.fba.maxValues.length = _
        rw [r2, hlen0]
      · show o'.fba.maxValues.length = _
        rw [r2', hlen1, hc1]
      · show colMax o'.fba.maxValues + 1 = colMax o.fba.maxValues + 1
        rw [hbins]
      · rw [← hlen0]
        exact hfx.val
      · rw [← hlen0]
        exact hfx.inside
      · intro f hf
        exact hisc f f (henc f (by omega))
      · rcases hnew with ⟨j, hj, hs, hd, hT⟩ | hc
        · have hej := fit_same (by exact ⟨rfl, rfl, rfl⟩) o.henc henc' hs (hdec j _ hj (by omega) hd)
          refine .inl ⟨j, hj, fun i hi => ?_, hisc j _ hej, hT⟩
          exact value_same hE hE' hn hX hX' o.hfba o'.hfba hs hej (r1 ▸ hi)
        · obtain ⟨v, hv⟩ := value_const hE' hn hX' o'.hfba hc
          exact .inr ⟨v, fun i hi => hv i (r1 ▸ hi)⟩)
  refine ⟨hrel _ _ o.htrees htrees', fun f hf => hisc f f (henc f (by omega)), fun N' _ n E E' hn hE1 hE2 hadd b b' hb hb' => ?_⟩
  rw [← hlen0]
  exact encode_x hE hE' henc hn hE1 hE2 hadd hb hb'

end

end Verif.Extra
