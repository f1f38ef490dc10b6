import Verif.Props.Params

/-! # C69: the two models of `clone` agree -/
namespace Verif

open Spec

section
variable {L V K F P G : Type} [LinearOrder K] [Field K] [FloorSemiring K]

theorem toEst_fresh {toF : Option K → F} {cats : PyVal K → CatFeatures} {o : PObj K} {e : Est L V K F P G} (he : o.toEst toF cats = some e) :
    e.randomState = (o.vals .randomState).map (fun v => v.int?.map Int.toNat) ∧ ∀ r, e.randomState = some r → e.clone = .ok e := by
  unfold PObj.toEst at he
  obtain ⟨ne, -, he⟩ := Option.bind_eq_some_iff.1 he
  obtain ⟨step, -, he⟩ := Option.bind_eq_some_iff.1 he
  obtain ⟨agg, -, he⟩ := Option.bind_eq_some_iff.1 he
  obtain ⟨depth, -, he⟩ := Option.bind_eq_some_iff.1 he
  obtain ⟨split, -, he⟩ := Option.bind_eq_some_iff.1 he
  obtain ⟨leaf, -, he⟩ := Option.bind_eq_some_iff.1 he
  obtain ⟨bins, -, he⟩ := Option.bind_eq_some_iff.1 he
  obtain ⟨cf, -, he⟩ := Option.bind_eq_some_iff.1 he
  obtain ⟨mf, -, he⟩ := Option.bind_eq_some_iff.1 he
  obtain ⟨sub, -, he⟩ := Option.bind_eq_some_iff.1 he
  obtain ⟨cm, -, he⟩ := Option.bind_eq_some_iff.1 he
  obtain ⟨hu, -, he⟩ := Option.bind_eq_some_iff.1 he
  dsimp only at he
  split at he
  · cases he
    refine ⟨rfl, fun r hr => ?_⟩
    unfold Est.clone
    rw [hr]
    dsimp only
    rw [← hr]
  · obtain ⟨crit, -, he⟩ := Option.bind_eq_some_iff.1 he
    obtain ⟨dir, -, he⟩ := Option.bind_eq_some_iff.1 he
    obtain ⟨cw, -, he⟩ := Option.bind_eq_some_iff.1 he
    obtain ⟨mc, -, he⟩ := Option.bind_eq_some_iff.1 he
    obtain ⟨st, -, he⟩ := Option.bind_eq_some_iff.1 he
    cases he
    refine ⟨rfl, fun r hr => ?_⟩
    unfold Est.clone
    rw [hr]
    dsimp only
    rw [← hr]

omit [LinearOrder K] [Field K] [FloorSemiring K] in
theorem getParams_missing {o : PObj K} (h : o.vals .randomState = none) : getParams o = .error .attributeError := by
  have key : ∀ l : List Param, Param.randomState ∈ l → (l.mapM fun p => match o.vals p with | some v => (Except.ok (p, v) : M (Param × PyVal K)) | none => .error .attributeError) = .error .attributeError := by
    intro l
    induction l with
    | nil => simp
    | cons p l ih =>
      intro hm
      rw [List.mapM_cons]
      cases hp : o.vals p with
      | none => rfl
      | some v =>
        have hl : Param.randomState ∈ l := by
          rcases List.mem_cons.1 hm with rfl | hm
          · rw [h] at hp; cases hp
          · exact hm
        rw [ih hl]
        rfl
  exact key _ (by cases o.kind <;> simp [ctorOrder])

/-- **C69**, partial: cloning an object and cloning the estimator that the theorems about `fit` speak about is the same: both raise AttributeError without `random_state`; otherwise the clone of the object has the same
estimator, and this is its own clone. -/
theorem C69_clone_models_partial {k : ForestKind} {toF : Option K → F} {cats : PyVal K → CatFeatures} {o : PObj K} {e : Est L V K F P G} (h : Reach k o) (he : o.toEst toF cats = some e) :
    (o.vals .randomState = none → clone o = .error .attributeError ∧ e.clone = .error .attributeError) ∧
    ((o.vals .randomState).isSome → ∃ c, clone o = .ok c ∧ c.toEst toF cats = some e ∧ e.clone = .ok e) := by
  obtain ⟨hr, hc⟩ := toEst_fresh he
  refine ⟨fun hn => ⟨?_, ?_⟩, fun hs => ?_⟩
  · unfold clone
    rw [getParams_missing hn]
    rfl
  · unfold Est.clone
    rw [hr, hn]
    rfl
  · obtain ⟨c, h1, h2, -, h4⟩ := C69_clone_partial h hs
    obtain ⟨v, hv⟩ := Option.isSome_iff_exists.1 hs
    refine ⟨c, h1, ?_, hc _ (by rw [hr, hv]; rfl)⟩
    have hk : o.kind = k := (Reach.sound h).kind
    rw [← he]
    unfold PObj.toEst
    cases k with
    | classifier =>
      have : c.vals = o.vals := funext fun p => h4 p (.inl rfl)
      rw [this, h2, hk]
    | regressor =>
      have hb : ∀ p, p ≠ .dirichlet → p ≠ .classWeight → p ≠ .multiclass → p ≠ .catSplitStrategy → c.vals p = o.vals p := fun p h1 h2 h3 h5 => h4 p (.inr ⟨h1, h2, h3, h5⟩)
      rw [hb .nEstimators (by simp) (by simp) (by simp) (by simp), hb .step (by simp) (by simp) (by simp) (by simp), hb .aggregation (by simp) (by simp) (by simp) (by simp),
        hb .maxDepth (by simp) (by simp) (by simp) (by simp), hb .minSamplesSplit (by simp) (by simp) (by simp) (by simp), hb .minSamplesLeaf (by simp) (by simp) (by simp) (by simp),
        hb .maxBins (by simp) (by simp) (by simp) (by simp), hb .categoricalFeatures (by simp) (by simp) (by simp) (by simp), hb .maxFeatures (by simp) (by simp) (by simp) (by simp),
        hb .subsample (by simp) (by simp) (by simp) (by simp), hb .catMinCategories (by simp) (by simp) (by simp) (by simp), hb .handleUnknown (by simp) (by simp) (by simp) (by simp),
        hb .randomState (by simp) (by simp) (by simp) (by simp), h2, hk]

end

example : ∃ (o c : PObj ℚ) (e : Est Nat Nat ℚ ℝ ℝ Nat), Reach .regressor o ∧ o.toEst (fun x => ((x.getD 0 : ℚ) : ℝ)) (fun _ => .none) = some e ∧ clone o = .ok c ∧
    c.toEst (fun x => ((x.getD 0 : ℚ) : ℝ)) (fun _ => .none) = some e ∧ e.clone = .ok e := by
  obtain ⟨o, h1, -, -, hv⟩ := par_object .regressor
  obtain ⟨q1, q2, q3, q4, q5⟩ := par_ready .regressor hv (par_none h1)
  obtain ⟨e, s', h2, -⟩ := C68_regressor (L := Nat) (lo := 0) (hi := 1) (Reach.new h1) (fun x => ((x.getD 0 : ℚ) : ℝ)) (fun _ => .none)
    (lib := estLib) (a := estArgs none false) (y := realY) (w := realW) (np := 0) q1 q2 q3 q4 q5 (estLib_ok (n := 6) (by norm_num))
    (fun e => estData_valid_any _ _) (fun w h => realW_pos w h) (by
      intro v hv
      simp only [realY, List.mem_cons, List.not_mem_nil, or_false] at hv
      rcases hv with rfl | rfl | rfl | rfl | rfl | rfl <;> norm_num)
  obtain ⟨c, h3, h4, h5⟩ := (C69_clone_models_partial (Reach.new h1) h2).2 (by rw [hv _ (.inr (by simp))]; rfl)
  exact ⟨o, c, e, Reach.new h1, h2, h3, h4, h5⟩

end Verif
