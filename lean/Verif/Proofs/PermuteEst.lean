import Verif.Proofs.PermuteGrow
import Verif.Spec.Rename
import Verif.Proofs.EndToEnd
import Verif.Proofs.RescaleEst

set_option linter.unusedSectionVars false

/-! Forests with permuted bins. -/
namespace Verif.Bins

open Spec

variable {F Y P G : Type} [Num F] {π : Nat → Equiv.Perm Nat}

/-! ### The tasks -/

theorem zipWith_add_comm (h : SumOrder F) (y a b : List F) :
    List.zipWith Num.add (List.zipWith Num.add y a) b = List.zipWith Num.add (List.zipWith Num.add y b) a := by
  induction y generalizing a b with
  | nil => simp
  | cons y0 y ih =>
    cases a with
    | nil => simp
    | cons a0 a =>
      cases b with
      | nil => simp
      | cons b0 b => simp only [List.zipWith_cons_cons, ih, h y0 a0 b0]

theorem mapM_rd_perm {α : Type} {σ : Equiv.Perm Nat} {ys ys' : List α} (h : PermL σ ys ys') (ne : List Nat) :
    (ne.map σ).mapM (rd ys') = ne.mapM (rd ys) := by
  induction ne with
  | nil => rfl
  | cons b ne ih => rw [List.map_cons, List.mapM_cons, List.mapM_cons, ih, h.rd]

theorem rd_mapR {α β : Type} (f : α → β) (l : List α) (i : Nat) : SameResult (fun a b => b = f a) (rd l i) (rd (l.map f) i) := by
  unfold rd
  rw [List.getElem?_map]
  cases l[i]? <;> simp [SameResult]

theorem mapM_rd_map {α β : Type} (f : α → β) (l : List α) (is : List Nat) :
    SameResult (fun a b => b = a.map f) (is.mapM (rd l)) (is.mapM (rd (l.map f))) := by
  refine (SameResult.mapM fun i _ => rd_mapR f l i).mono fun x y h => ?_
  induction h with
  | nil => rfl
  | cons h _ ih => rw [h, ih, List.map_cons]

theorem classOrder_perm (argsort : List F → List Nat) {σ : Equiv.Perm Nat} {ys ys' : List (List F)} (h : PermL σ ys ys') (ne : List Nat) (mod : Nat) :
    SameResult (fun a b => b = a.map σ) (classOrder argsort ne ys mod) (classOrder argsort (ne.map σ) ys' mod) := by
  unfold classOrder
  rw [mapM_rd_perm h]
  refine SameResult.same.bind ?_
  rintro rows _ rfl
  refine SameResult.same.bind ?_
  rintro col _ rfl
  exact mapM_rd_map _ _ _

theorem classTask_perm (hadd : SumOrder F) (R : Rng G) (argsort : List F → List Nat) (k : Nat) (d : F) (c : Criterion) (s : CatStrategy) :
    TaskP (classifierTask R argsort k d c s) := by
  refine ⟨zipWith_add_comm hadd, fun σ ne ys ys' g h => ?_⟩
  show SameResult _ (classOrders R argsort k s ne ys g) (classOrders R argsort k s (ne.map σ) ys' g)
  unfold classOrders
  cases s with
  | all =>
    simp only
    refine SameResult.bind (SameResult.mapM fun m _ => classOrder_perm argsort h ne m) fun os os' ho => SameResult.pure ?_
    have : os' = os.map (List.map σ) := by
      clear h
      induction ho with
      | nil => rfl
      | cons h _ ih => rw [h, ih, List.map_cons]
    rw [this]
  | binary =>
    simp only
    refine (classOrder_perm argsort h ne 1).bind ?_
    rintro o _ rfl
    exact SameResult.pure rfl
  | random =>
    simp only
    refine SameResult.same.bind ?_
    rintro ⟨m, g'⟩ _ rfl
    refine (classOrder_perm argsort h ne m).bind ?_
    rintro o _ rfl
    exact SameResult.pure rfl

theorem regTask_perm (hadd : SumOrder F) (argsort : List F → List Nat) : TaskP (regressorTask argsort : Task F (F × F) F G) := by
  refine ⟨fun y a b => ?_, fun σ ne ys ys' g h => ?_⟩
  · show (Num.add (Num.add y.1 a.1) b.1, Num.add (Num.add y.2 a.2) b.2) = (Num.add (Num.add y.1 b.1) a.1, Num.add (Num.add y.2 b.2) a.2)
    rw [hadd y.1 a.1, hadd y.2 a.2]
  · show SameResult _ (regOrder argsort ne ys >>= fun o => Pure.pure ([o], g)) (regOrder argsort (ne.map σ) ys' >>= fun o => Pure.pure ([o], g))
    refine SameResult.bind (S := fun a b => b = a.map σ) ?_ ?_
    · unfold regOrder
      rw [mapM_rd_perm h]
      refine SameResult.same.bind ?_
      rintro rows _ rfl
      exact mapM_rd_map _ _ _
    · rintro o _ rfl
      exact SameResult.pure rfl

/-! ### Forests -/

/-- The two trees differ in the thresholds and stored categories only, which are permuted. -/
structure ObjP (π : Nat → Equiv.Perm Nat) (o o' : TreeObj F P G) : Prop where
  arr : ArrP π o.arr o'.arr
  grown : 0 < o.arr.nodeCount
  aggregation : o'.aggregation = o.aggregation
  step : o'.step = o.step

theorem buildTree_perm {R : Rng G} {T : F → Task F Y P G} (draw : Nat → List Nat) (depth : Nat) {c c' : Ctx F} (hc : CtxP π c c') (gb : Garbage F) (d : F)
    (hT : TaskP (T d)) (seed : Nat) : SameResult (ObjP π) (buildTree R T draw depth c gb d seed) (buildTree R T draw depth c' gb d seed) := by
  unfold buildTree
  rw [hc.fba.rows, show c'.w = c.w by rw [hc.eq]]
  cases hb : generateTrainValid draw c.fba.nSamples depth seed with
  | error e => rfl
  | ok b =>
    simp only [bind_ok]
    refine SameResult.same.bind ?_
    rintro w _ rfl
    have hc2 : CtxP π { c with w := w } { c' with w := w } := by
      refine ⟨?_, hc.fba, hc.range, hc.nonCat⟩
      conv_lhs => rw [hc.eq]
    obtain ⟨draws, -, rfl⟩ := genTV_explicit hb
    unfold TreeObj.fit
    refine (fitTree_perm R hT hc2 gb seed (fun i hi => ?_) (fun i hi => ?_)).bind ?_
    · exact List.mem_range.1 (List.mem_filter.1 hi).1
    · exact List.mem_range.1 (List.mem_filter.1 hi).1
    · rintro ⟨arr, wk⟩ ⟨arr', wk'⟩ ⟨h1, -, h3⟩
      exact SameResult.pure ⟨h1, h3, by rw [hc.eq], by rw [hc.eq]⟩

theorem ObjP.predict {o o' : TreeObj F P G} (h : ObjP π o o') (mix : F → P → P → P) {b b' : FBA} (hb : FbaP π b b') :
    o'.predict mix b' = o.predict mix b := by
  unfold TreeObj.predict
  rw [h.aggregation, h.step]
  exact treePredict_perm mix h.arr h.grown hb _ _

theorem forestPredict_perm {ts ts' : List (TreeObj F F G)} (h : List.Forall₂ (ObjP π) ts ts') {b b' : FBA} (hb : FbaP π b b') :
    forestPredict ts' b' = forestPredict ts b := by
  unfold forestPredict
  rw [hb.rows, h.length_eq, foldlM_forall₂ (fun s a c hac => by rw [hac.predict mixF hb]) h]

theorem predictProba_perm (k : Nat) {ts ts' : List (TreeObj F (List F) G)} (h : List.Forall₂ (ObjP π) ts ts') {b b' : FBA} (hb : FbaP π b b') :
    Verif.predictProba k ts' b' = Verif.predictProba k ts b := by
  unfold Verif.predictProba accumulateProba
  rw [hb.rows, h.length_eq, foldlM_forall₂ (fun s a c hac => by rw [hac.predict mixV hb]) h]

theorem predictProbaOvr_perm (eps : F) (k m : Nat) {ts ts' : List (TreeObj F (List F) G)} (h : List.Forall₂ (ObjP π) ts ts') {b b' : FBA}
    (hb : FbaP π b b') : predictProbaOvr eps k m ts' b' = predictProbaOvr eps k m ts b := by
  unfold predictProbaOvr
  rw [hb.rows, foldlM_forall₂ (f := fun out (x : TreeObj F (List F) G × Nat) => do
    let p ← x.1.predict mixV b
    if out.length = p.length then (out.zip p).mapM fun (row, q) => addCol (x.2 / m) row q
    else .error .valueError) (fun s x y hxy => by obtain ⟨x, i⟩ := x; obtain ⟨y, j⟩ := y; obtain ⟨h1, h2⟩ := hxy; simp only at h1 h2 ⊢; rw [h1.predict mixV hb, h2])
    (Forall₂.zipIdx h 0)]

end Verif.Bins
