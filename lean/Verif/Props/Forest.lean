import Verif.Proofs.Forest
import Verif.Props.Gain

/-! Properties C29, C30 and C31: predictions of forests. Floats are real numbers here. -/
namespace Verif

open Spec

variable {G : Type} {R : Rng G} {argsort : List ℝ → List Nat} {c : Ctx ℝ} {D : Data ℝ} {draw : Nat → List Nat} {depth : Nat}
  {gb : Nat → Garbage ℝ} {d : ℝ} {seeds : List Nat} {fba : FBA}

/-- C29. All predictions of a fitted regression forest, for any encoded rows, with or without aggregation, lie between any
bounds for the training labels. -/
theorem C29_regression_range (ha : ArgsortPerm argsort) (h : ForestInput c D (fun _ => True)) (hlen : c.w.length = D.n)
    (hdraw : DrawsOK D.n draw) (hw : ∀ i, i < D.n → 0 < D.w i) {lo hi : ℝ} (hy : ∀ i, i < D.n → lo ≤ D.y i ∧ D.y i ≤ hi)
    (hs : seeds ≠ []) {trees : List (TreeObj ℝ ℝ G)}
    (hf : fitForest R (fun _ => regressorTask argsort) draw depth c gb d seeds = .ok trees) (hx : RowsOK fba D.d) :
    ∃ out, forestPredict trees fba = .ok out ∧ out.length = fba.nSamples ∧ ∀ v ∈ out, lo ≤ v ∧ v ≤ hi := by
  obtain ⟨hl, ht⟩ := fitForest_inv hf
  refine reg_of_rows (by intro h0; rw [h0] at hl; exact hs (List.length_eq_zero_iff.1 hl.symm)) fun o ho => ?_
  obtain ⟨s, i, _, hb⟩ := ht o ho
  obtain ⟨b, w, hB⟩ := buildTree_inv hdraw h hlen hb
  exact hB.predict_reg ha hw hy hx

/-- C30, multinomial mode (and one-versus-rest with at most two classes, which is switched to this mode). -/
theorem C30_multinomial (ha : ArgsortPerm argsort) {n : Nat} {cr : Criterion} {s : CatStrategy} (hS : StrategyOK n s)
    (h : ForestInput c D (ClassLabel n)) (hlen : c.w.length = D.n) (hdraw : DrawsOK D.n draw) (hd : 0 ≤ d)
    (hw : ∀ i, i < D.n → 0 ≤ D.w i) (hpos : 0 < d ∨ ∀ i, i < D.n → 0 < D.w i)
    (hs : seeds ≠ []) {trees : List (TreeObj ℝ (List ℝ) G)}
    (hf : fitForest R (fun d => classifierTask R argsort n d cr s) draw depth c gb d seeds = .ok trees) (hx : RowsOK fba D.d) :
    ∃ out, predictProba n trees fba = .ok out ∧ out.length = fba.nSamples ∧ ∀ p ∈ out, Distribution n p := by
  obtain ⟨hl, ht⟩ := fitForest_inv hf
  refine proba_of_rows (by intro h0; rw [h0] at hl; exact hs (List.length_eq_zero_iff.1 hl.symm)) fun o ho => ?_
  obtain ⟨s, i, _, hb⟩ := ht o ho
  obtain ⟨b, w, hB⟩ := buildTree_inv hdraw h hlen hb
  exact hB.predict_class ha hS hd hw hpos hx

/-- C30, one-versus-rest mode with `n` classes and `E` estimators: binary labels `ys[k]` and weights `ws[k]` for class `k`. -/
theorem C30_ovr (ha : ArgsortPerm argsort) {n E : Nat} (hn : 0 < n) {cr : Criterion} {s : CatStrategy} (hS : StrategyOK 2 s)
    {Dk : Nat → Data ℝ} {N m : Nat} {ys ws : List (List ℝ)} (hseeds : seeds.length = n * E)
    (h : ∀ k y w, ys[k]? = some y → ws[k]? = some w → ForestInput { c with y := y, w := w } (Dk k) (ClassLabel 2) ∧
      w.length = N ∧ (Dk k).n = N ∧ (Dk k).d = m ∧ (∀ i, i < N → 0 ≤ (Dk k).w i) ∧ (0 < d ∨ ∀ i, i < N → 0 < (Dk k).w i))
    (hdraw : DrawsOK N draw) (hd : 0 ≤ d) {eps : ℝ} (he : 0 ≤ eps) {trees : List (TreeObj ℝ (List ℝ) G)}
    (hf : fitOvr R (fun d => classifierTask R argsort 2 d cr s) draw depth c gb d E ys ws seeds = .ok trees)
    (hx : RowsOK fba m) :
    ∃ out, predictProbaOvr eps n E trees fba = .ok out ∧ out.length = fba.nSamples ∧ ∀ p ∈ out, Distribution n p := by
  unfold fitOvr at hf
  have hl : trees.length = n * E := by rw [← (mapM_eq_ok.1 hf).length_eq]; simp [hseeds]
  refine probaOvr_of_rows hn he hl fun o hm => ?_
  obtain ⟨⟨sd, i⟩, hi, hb⟩ := mapM_mem_inv hf hm
  rw [bind_eq_ok] at hb
  obtain ⟨y, hy, hb⟩ := hb
  rw [bind_eq_ok] at hb
  obtain ⟨w, hw, hb⟩ := hb
  obtain ⟨q1, q2, q3, q4, q5, q6⟩ := h _ y w (rd_ok.1 hy) (rd_ok.1 hw)
  obtain ⟨b, w', hB⟩ := buildTree_inv (D := Dk (i / E)) (by rw [q3]; exact hdraw) q1 (by rw [q3]; exact q2) hb
  exact hB.predict_class ha hS hd (by rw [q3]; exact q5) (by rw [q3]; exact q6) (by rw [q4]; exact hx)

/-- C30, the zero row in particular. -/
theorem C30_zero_scores {n : Nat} {eps : ℝ} (he : 0 ≤ eps) : normRow eps n (List.replicate n 0) = List.replicate n (1 / n : ℝ) := by
  unfold normRow
  simp only [foldl_add_real, List.sum_replicate]
  have h0 : Num.le (Num.zero + n • (0 : ℝ)) eps = true := by simp [Num.le, Num.zero, he]
  rw [if_pos h0, List.map_const', List.length_replicate]
  rfl

/-- C31. `predict` returns for each row the first label of maximal probability. -/
theorem C31_argmax {L : Type} {classes : List L} {proba : List (List ℝ)} (hc : classes ≠ [])
    (hp : ∀ p ∈ proba, p.length = classes.length) :
    ∃ out, predictLabels classes proba = .ok out ∧ out.length = proba.length ∧
      ∀ (i : Nat) (p : List ℝ), proba[i]? = some p → ∃ k, out[i]? = classes[k]? ∧ ∃ hk : k < p.length,
        (∀ (j : Nat) (hj : j < p.length), p[j] ≤ p[k]) ∧ ∀ (j : Nat) (hj : j < k), p[j] < p[k] := by
  have hrow : ∀ p ∈ proba, ∃ v k, (do let k ← argmax p; rd classes k : M L) = .ok v ∧ some v = classes[k]? ∧ ∃ hk : k < p.length,
        (∀ (j : Nat) (hj : j < p.length), p[j] ≤ p[k]) ∧ ∀ (j : Nat) (hj : j < k), p[j] < p[k] := by
    intro p hpm
    have hl := hp p hpm
    obtain ⟨k, e, hk, h1⟩ := argmax_real (row := p) (by
      intro h0; rw [h0] at hl; exact hc (List.length_eq_zero_iff.1 hl.symm))
    have hk' : k < classes.length := by omega
    exact ⟨classes[k], k, by rw [e, bind_ok, rd_of_lt hk'], by rw [List.getElem?_eq_getElem hk'], hk, h1⟩
  obtain ⟨out, ho⟩ := mapM_total (f := fun p => (do let k ← argmax p; rd classes k : M L)) (l := proba) fun p hp => by
    obtain ⟨v, _, hv, _⟩ := hrow p hp; exact ⟨v, hv⟩
  have hall := mapM_eq_ok.1 ho
  refine ⟨out, ho, hall.length_eq.symm, fun i p hi => ?_⟩
  obtain ⟨hi', rfl⟩ := List.getElem?_eq_some_iff.1 hi
  obtain ⟨v, k, h1, h2, h3⟩ := hrow _ (List.getElem_mem hi')
  have hio : i < out.length := by rw [← hall.length_eq]; exact hi'
  have h4 := (List.forall₂_iff_get.1 hall).2 i hi' hio
  simp only [List.get_eq_getElem] at h4
  rw [h1] at h4
  injection h4 with h4
  exact ⟨k, by rw [List.getElem?_eq_getElem hio, ← h4, h2], h3⟩

/-- With more columns than labels (a forest refitted with other labels), `predict` fails instead of returning a wrong label. -/
example : (predictLabels ["a", "b"] ([[1, 2, 7]] : List (List ℝ)) : M (List String)) = .error .oob := by
  have : argmax ([1, 2, 7] : List ℝ) = .ok 2 := by norm_num [argmax, Num.lt]
  simp only [predictLabels, List.mapM_cons, this, bind_ok]
  rfl

example : (predictLabels ["a", "b", "c"] ([[1, 2, 2], [3, 1, 3]] : List (List ℝ)) : M (List String)) = .ok ["b", "a"] := by
  have h1 : argmax ([1, 2, 2] : List ℝ) = .ok 1 := by norm_num [argmax, Num.lt]
  have h2 : argmax ([3, 1, 3] : List ℝ) = .ok 0 := by norm_num [argmax, Num.lt]
  simp only [predictLabels, List.mapM_cons, List.mapM_nil, h1, h2, bind_ok]
  rfl

/-! ## Examples -/

/-- Bootstrap draws of the examples. -/
def realDraw : Nat → List Nat := fun _ => [0, 0, 1, 2, 3, 3]

theorem realDraw_ok : DrawsOK 6 realDraw := fun _ => by simp [realDraw]

theorem real_forest_input (lab : ℝ → Prop) (hl : ∀ y, ClassLabel 2 y → lab y) :
    ∃ fba, ForestInput (realCtx fba) realData lab ∧ RowsOK fba realData.d := by
  obtain ⟨fba, h⟩ := real_input lab hl
  refine ⟨fba, ⟨h.holds, h.params, fun i hi => ?_⟩, fun i hi j hj => ⟨_, h.holds.value i j ?_ hj⟩⟩
  · have : i ∈ realTrain ++ realValid := by
      change i < 6 at hi
      simp only [realTrain, realValid, List.cons_append, List.nil_append, List.mem_cons, List.not_mem_nil, or_false]; omega
    exact hl _ (real_label i this).2
  · have := h.holds.n
    simp only [realCtx] at this
    omega

theorem realDraw_tv (s : Nat) : ∃ b, generateTrainValid realDraw 6 1 s = .ok b := by
  refine ⟨_, rfl⟩

example : ∃ (argsort : List ℝ → List Nat) (c : Ctx ℝ) (trees : List (TreeObj ℝ ℝ Nat)), ArgsortPerm argsort ∧
    ForestInput c realData (fun _ => True) ∧ c.w.length = realData.n ∧ DrawsOK realData.n realDraw ∧
    (∀ i, i < realData.n → 0 < realData.w i) ∧ (∀ i, i < realData.n → 0 ≤ realData.y i ∧ realData.y i ≤ 1) ∧
    fitForest toyRng (fun _ => regressorTask argsort) realDraw 1 c (fun _ => realGarbage) 0 [3, 8] = .ok trees ∧
    RowsOK c.fba realData.d := by
  obtain ⟨fba, h, hr⟩ := real_forest_input (fun _ => True) (fun _ _ => trivial)
  obtain ⟨trees, ht⟩ := fitForest_ok (R := toyRng) (T := fun _ => regressorTask realArgsort) (d := 0) (depth := 1)
    (regressor_safe realArgsort_sorts.1) h rfl realDraw_ok (fun _ => realGarbage) (seeds := [3, 8]) (fun s _ => realDraw_tv s)
  refine ⟨_, _, trees, realArgsort_sorts.1, h, rfl, realDraw_ok, real_weight, fun i hi => ?_, ht, hr⟩
  change i < 6 at hi
  interval_cases i <;> simp [realData, dataOf, realY]

example : ∃ (argsort : List ℝ → List Nat) (c : Ctx ℝ) (trees : List (TreeObj ℝ (List ℝ) Nat)), ArgsortPerm argsort ∧
    StrategyOK 2 .all ∧ ForestInput c realData (ClassLabel 2) ∧ c.w.length = realData.n ∧ DrawsOK realData.n realDraw ∧
    (∀ i, i < realData.n → 0 ≤ realData.w i) ∧
    fitForest toyRng (fun d => classifierTask toyRng argsort 2 d .gini .all) realDraw 1 c (fun _ => realGarbage) (1 / 2) [3, 8] = .ok trees ∧
    RowsOK c.fba realData.d := by
  have hS : StrategyOK 2 .all := by unfold StrategyOK; decide
  obtain ⟨fba, h, hr⟩ := real_forest_input (ClassLabel 2) (fun _ h => h)
  obtain ⟨trees, ht⟩ := fitForest_ok (R := toyRng) (T := fun d => classifierTask toyRng realArgsort 2 d .gini .all) (d := 1 / 2)
    (depth := 1) (classifier_safe toyRng realArgsort_sorts.1 2 (1 / 2) .gini hS) h rfl realDraw_ok (fun _ => realGarbage)
    (seeds := [3, 8]) (fun s _ => realDraw_tv s)
  exact ⟨_, _, trees, realArgsort_sorts.1, hS, h, rfl, realDraw_ok, fun i hi => (real_weight i hi).le, ht, hr⟩

/-- One-hot labels of three classes. -/
noncomputable def hotY : List (List ℝ) := [[1, 1, 0, 0, 0, 0], [0, 0, 1, 1, 0, 0], [0, 0, 0, 0, 1, 1]]

/-- Data for class `k` in the one-versus-rest example. -/
noncomputable def hotData (k : Nat) : Data ℝ := { realData with y := fun i => (hotY.getD k []).getD i 0 }

theorem hot_input (st : ℝ) (agg : Bool) : ∃ fba, RowsOK fba 2 ∧ ∀ k y w, hotY[k]? = some y → [realW, realW, realW][k]? = some w →
    ForestInput { realCtx fba with step := st, aggregation := agg, y := y, w := w } (hotData k) (ClassLabel 2) ∧ w.length = 6 := by
  obtain ⟨fba, h, hr⟩ := real_forest_input (ClassLabel 2) (fun _ h => h)
  refine ⟨fba, hr, ?_⟩
  intro k y w hy hw
  have hw' : w = realW := by
    obtain ⟨hk, rfl⟩ := List.getElem?_eq_some_iff.1 hw
    simp only [List.length_cons, List.length_nil] at hk
    interval_cases k <;> rfl
  subst hw'
  have hh := h.holds
  have hyl : y.length = 6 ∧ ∀ v ∈ y, ClassLabel 2 v := by
    obtain ⟨hk, rfl⟩ := List.getElem?_eq_some_iff.1 hy
    simp only [hotY, List.length_cons, List.length_nil] at hk
    interval_cases k <;> simp [hotY, ClassLabel, Num.toNat]
  have hyk : ∀ i, i < 6 → y[i]? = some ((hotData k).y i) := by
    intro i hi
    have h0 : i < y.length := by omega
    simp [hotData, List.getD_eq_getElem?_getD, hy, h0]
  refine ⟨⟨⟨hh.n, hh.d, hh.value, hh.bound, hyk, hh.w, hh.cat⟩, ⟨h.params.feats, h.params.minSplit⟩, fun i hi => ?_⟩, rfl⟩
  have := hyk i hi
  exact hyl.2 _ (List.mem_of_getElem? this)

theorem hot_fit (st : ℝ) (agg : Bool) (d : ℝ) {fba : FBA} (hin : ∀ k y w, hotY[k]? = some y → [realW, realW, realW][k]? = some w →
    ForestInput { realCtx fba with step := st, aggregation := agg, y := y, w := w } (hotData k) (ClassLabel 2) ∧ w.length = 6) :
    ∃ trees, fitOvr toyRng (fun d => classifierTask toyRng realArgsort 2 d .gini .all) realDraw 1 { realCtx fba with step := st, aggregation := agg }
      (fun _ => realGarbage) d 2 hotY [realW, realW, realW] [5, 5, 5, 9, 9, 9] = .ok trees := by
  have hS : StrategyOK 2 .all := by unfold StrategyOK; decide
  refine mapM_total fun x hx => ?_
  have hlt : x.2 / 2 < 3 := by
    have := (List.mem_zipIdx hx).2.1
    simp only [List.length_cons, List.length_nil] at this
    omega
  have h1 : x.2 / 2 < hotY.length := hlt
  have h2 : x.2 / 2 < [realW, realW, realW].length := hlt
  obtain ⟨q1, q2⟩ := hin _ _ _ (List.getElem?_eq_getElem h1) (List.getElem?_eq_getElem h2)
  obtain ⟨b, hb⟩ := realDraw_tv x.1
  obtain ⟨o, ho⟩ := buildTree_ok (R := toyRng) (T := fun d => classifierTask toyRng realArgsort 2 d .gini .all) (d := d)
    (classifier_safe toyRng realArgsort_sorts.1 2 d .gini hS) q1 q2 realGarbage
    (genTV_ok realDraw_ok _ _ _ hb).1 hb
  exact ⟨o, by simp only [rd_of_lt h1, rd_of_lt h2, bind_ok]; exact ho⟩

example : ∃ (argsort : List ℝ → List Nat) (c : Ctx ℝ) (trees : List (TreeObj ℝ (List ℝ) Nat)), ArgsortPerm argsort ∧
    StrategyOK 2 .all ∧ [5, 5, 5, 9, 9, 9].length = 3 * 2 ∧
    (∀ k y w, hotY[k]? = some y → [realW, realW, realW][k]? = some w → ForestInput { c with y := y, w := w } (hotData k) (ClassLabel 2) ∧
      w.length = 6 ∧ (hotData k).n = 6 ∧ (hotData k).d = 2 ∧ (∀ i, i < 6 → 0 ≤ (hotData k).w i) ∧
      ((0 : ℝ) < 1 / 2 ∨ ∀ i, i < 6 → 0 < (hotData k).w i)) ∧ DrawsOK 6 realDraw ∧
    fitOvr toyRng (fun d => classifierTask toyRng argsort 2 d .gini .all) realDraw 1 c (fun _ => realGarbage) (1 / 2) 2 hotY
      [realW, realW, realW] [5, 5, 5, 9, 9, 9] = .ok trees ∧ RowsOK c.fba 2 := by
  have hS : StrategyOK 2 .all := by unfold StrategyOK; decide
  obtain ⟨fba, hr, hin⟩ := hot_input 1 true
  obtain ⟨trees, ht⟩ := hot_fit _ _ (1 / 2) hin
  refine ⟨realArgsort, _, trees, realArgsort_sorts.1, hS, rfl, fun k y w hy hw => ?_, realDraw_ok, ht, hr⟩
  obtain ⟨q1, q2⟩ := hin k y w hy hw
  exact ⟨q1, q2, rfl, rfl, fun i hi => (real_weight i hi).le, .inl (by norm_num)⟩

end Verif
