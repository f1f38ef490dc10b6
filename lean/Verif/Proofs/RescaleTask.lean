import Verif.Proofs.RescaleTree
import Verif.Proofs.RealPred
import Verif.Spec.Rescale

set_option linter.unusedSectionVars false

/-! The two instances of `TaskSim`: regression with labels `α * y + β` and weights times `κ`; classification with weights and dirichlet
times `κ`. -/
namespace Verif

open Spec

variable {G : Type}

theorem mse_sim {κ α β : ℝ} (hκ : 0 < κ) {w s q s' q' : ℝ} (hs : s' = κ * (α * s + β * w))
    (hq : q' = κ * (α ^ 2 * q + 2 * α * β * s + β ^ 2 * w)) :
    mseNode (κ * w) s' q' = α ^ 2 * mseNode w s q := by
  show q' / (κ * w) - s' / (κ * w) * (s' / (κ * w)) = α ^ 2 * (q / w - s / w * (s / w))
  rw [hs, hq]
  by_cases hw : w = 0
  · simp [hw]
  · field_simp
    ring

/-- Regression. -/
noncomputable def regSim (argsort : List ℝ → List Nat) {κ α : ℝ} (β : ℝ) (hκ : 0 < κ) (hα : 0 < α) :
    TaskSim (regressorTask (G := G) argsort) (regressorTask argsort) where
  κ := κ
  μ := α ^ 2
  lam := κ * α ^ 2
  NZ w := w ≠ 0
  RL _ l l' := l' = α * l + β
  RY w y y' := y'.1 = κ * (α * y.1 + β * w) ∧ y'.2 = κ * (α ^ 2 * y.2 + 2 * α * β * y.1 + β ^ 2 * w)
  RA w p p' := p' = κ * (α * p + β * w)
  RP w p p' := w ≠ 0 → p' = α * p + β
  κ_pos := hκ
  μ_pos := by positivity
  mulL h _ := h
  zeroY := by
    show (0 : ℝ) = _ ∧ (0 : ℝ) = _
    simp only [regressorTask, Num.zero]
    constructor <;> ring
  addY := by
    rintro w ⟨s, q⟩ ⟨s', q'⟩ l l' ⟨h1, h2⟩ v rfl
    simp only at h1 h2
    subst h1 h2
    simp only [regressorTask, SameResult, Num.add, Num.mul]
    constructor <;> ring
  plusY := by
    rintro w ⟨s, q⟩ ⟨s', q'⟩ v ⟨z, r⟩ ⟨z', r'⟩ ⟨h1, h2⟩ ⟨h3, h4⟩
    simp only at h1 h2 h3 h4
    subst h1 h2 h3 h4
    simp only [regressorTask, Num.add]
    constructor <;> ring
  minusY := by
    rintro w ⟨s, q⟩ ⟨s', q'⟩ v ⟨z, r⟩ ⟨z', r'⟩ ⟨h1, h2⟩ ⟨h3, h4⟩
    simp only at h1 h2 h3 h4
    subst h1 h2 h3 h4
    simp only [regressorTask, Num.sub]
    constructor <;> ring
  zeroA := by
    simp only [regressorTask, Num.zero]
    ring
  zeroP := fun h => absurd rfl h
  addP := by
    rintro w p p' l l' rfl v rfl
    simp only [regressorTask, SameResult, Num.add, Num.mul]
    ring
  endP := by
    rintro w p p' rfl
    simp only [regressorTask, SameResult, Num.div]
    intro hw
    field_simp
  addLoss := by
    rintro w p p' x x' l l' hp hx v rfl
    simp only [regressorTask, SameResult, Num.add, Num.mul, Num.sub]
    intro hw
    rw [hp hw, hx hw]
    ring
  childs := by
    rintro w ⟨s, q⟩ ⟨s', q'⟩ v ⟨z, r⟩ ⟨z', r'⟩ ⟨h1, h2⟩ ⟨h3, h4⟩
    simp only [regressorTask, SameResult, mseChilds]
    rw [mse_sim hκ h1 h2, mse_sim hκ h3 h4]

theorem forall₂_eq_map {α β : Type} {f : α → β} {l : List α} {r : List β} (h : List.Forall₂ (fun x y => y = f x) l r) : r = l.map f := by
  induction h with
  | nil => rfl
  | cons h _ ih => rw [h, ih]; rfl

theorem mapM_rd_map {α β : Type} (f : α → β) (a : List α) (l : List Nat) :
    SameResult (fun x y => y = x.map f) (l.mapM (rd a)) (l.mapM (rd (a.map f))) :=
  (SameResult.mapM fun _ _ => (rd_map_sim (a := a) f).mono fun _ _ h => h.1).mono fun _ _ h => forall₂_eq_map h

/-- Without a shift the categories come in the same order. -/
theorem regSim_orders {argsort : List ℝ → List Nat} (ha : ArgsortByOrder argsort) {κ α : ℝ} (hκ : 0 < κ) (hα : 0 < α) :
    SameOrders (regSim (G := G) argsort 0 hκ hα) := by
  intro h h' hh g
  have hs : h'.ySum.map Prod.fst = (h.ySum.map Prod.fst).map (κ * α * ·) := by
    refine List.ext_getElem (by simp [hh.lenY]) fun i h1 h2 => ?_
    simp only [List.length_map] at h1 h2
    have hw : i < h.wTrain.length := by rw [← hh.lenWY]; exact h2
    have := (hh.ySum (List.getElem?_eq_getElem hw) (List.getElem?_eq_getElem h2) (List.getElem?_eq_getElem h1)).1
    simp only [List.getElem_map]
    rw [this]
    show κ * (α * _ + 0 * _) = _
    ring
  show (do let o ← regOrder argsort h.neTrain h'.ySum; pure ([o], g)) = (do let o ← regOrder argsort h.neTrain h.ySum; pure ([o], g))
  have key : ∀ ys : List (ℝ × ℝ), regOrder argsort h.neTrain ys =
      (do let r ← h.neTrain.mapM (rd (ys.map Prod.fst)); (argsort r).mapM (rd h.neTrain)) := by
    intro ys
    unfold regOrder
    refine SameResult.eq ((mapM_rd_map Prod.fst ys _).bind ?_)
    rintro x _ rfl
    exact SameResult.same
  rw [key, key, hs]
  congr 1
  refine SameResult.eq ?_
  have := mapM_rd_map (κ * α * ·) (h.ySum.map Prod.fst) h.neTrain
  cases h1 : h.neTrain.mapM (rd (h.ySum.map Prod.fst)) with
  | error e =>
    rw [h1] at this
    cases h2 : h.neTrain.mapM (rd ((h.ySum.map Prod.fst).map (κ * α * ·))) with
    | error e' => rw [h2] at this; exact (show e = e' from this).symm
    | ok r => rw [h2] at this; exact this.elim
  | ok r =>
    rw [h1] at this
    cases h2 : h.neTrain.mapM (rd ((h.ySum.map Prod.fst).map (κ * α * ·))) with
    | error e' => rw [h2] at this; exact this.elim
    | ok r' =>
      rw [h2] at this
      have this : r' = r.map (κ * α * ·) := this
      subst this
      simp only [bind_ok]
      rw [ha _ (fun a b hab => mul_lt_mul_of_pos_left hab (mul_pos hκ hα)) r]
      exact SameResult.same

/-! ### Classification -/

theorem addClass_sim (κ : ℝ) (n : Nat) {y y' : List ℝ} (h : y.length = n ∧ y' = y.map (κ * ·)) (v l : ℝ) :
    SameResult (fun a b => a.length = n ∧ b = a.map (κ * ·)) (addClass y v l) (addClass y' (κ * v) l) := by
  obtain ⟨hl, rfl⟩ := h
  unfold addClass
  refine (rd_map_sim _).bind ?_
  rintro x _ ⟨rfl, -⟩
  refine (wr_sim (by simp)).mono ?_
  rintro a b ⟨rfl, rfl, -⟩
  refine ⟨by simp [hl], ?_⟩
  rw [List.map_set, show Num.add (κ * x) (κ * v) = κ * Num.add x v from (mul_add _ _ _).symm]

theorem zipWith_sim {κ : ℝ} {op : ℝ → ℝ → ℝ} (hop : ∀ a b, op (κ * a) (κ * b) = κ * op a b) (a b : List ℝ) :
    List.zipWith op (a.map (κ * ·)) (b.map (κ * ·)) = (List.zipWith op a b).map (κ * ·) := by
  rw [List.zipWith_map, List.map_zipWith]
  simp only [hop]

theorem sumSq_sim (κ : ℝ) (n : Nat) (y : List ℝ) : SameResult (fun a b => b = κ * κ * a) (sumSq n y) (sumSq n (y.map (κ * ·))) := by
  unfold sumSq
  refine SameResult.foldlM (fun s s' k hs => ?_) (mul_zero _).symm
  refine (rd_map_sim _).bind ?_
  rintro v _ ⟨rfl, -⟩
  refine SameResult.pure ?_
  rw [hs]
  show κ * κ * s + κ * v * (κ * v) = κ * κ * (s + v * v)
  ring

theorem entropyNode_sim {κ : ℝ} (hκ : 0 < κ) (n : Nat) (w : ℝ) (y : List ℝ) :
    SameResult (fun a b => b = a) (entropyNode n w y) (entropyNode n (κ * w) (y.map (κ * ·))) := by
  unfold entropyNode
  refine SameResult.foldlM (fun s s' k hs => ?_) rfl
  refine (rd_map_sim _).bind ?_
  rintro v _ ⟨rfl, -⟩
  have h1 : Num.lt (Num.zero : ℝ) (κ * v) = Num.lt Num.zero v := decide_eq_decide.2 (by
    show 0 < κ * v ↔ 0 < v
    exact mul_pos_iff_of_pos_left hκ)
  have h2 : Num.div (κ * v) (κ * w) = Num.div v w := mul_div_mul_left _ _ hκ.ne'
  rw [h1, h2, hs]
  split <;> exact SameResult.pure rfl

theorem childs_sim {κ : ℝ} (hκ : 0 < κ) (cr : Criterion) (n : Nat) (w v : ℝ) (y z : List ℝ) :
    SameResult (fun a b => b = (1 * a.1, 1 * a.2)) (childsImpurityClf cr n w v y z)
      (childsImpurityClf cr n (κ * w) (κ * v) (y.map (κ * ·)) (z.map (κ * ·))) := by
  simp only [one_mul]
  cases cr with
  | gini =>
    refine (sumSq_sim κ n y).bind ?_
    rintro a _ rfl
    refine (sumSq_sim κ n z).bind ?_
    rintro b _ rfl
    refine SameResult.pure ?_
    have : ∀ a w : ℝ, Num.div (κ * κ * a) (Num.mul (κ * w) (κ * w)) = Num.div a (Num.mul w w) := by
      intro a w
      show κ * κ * a / (κ * w * (κ * w)) = a / (w * w)
      rw [show κ * w * (κ * w) = κ * κ * (w * w) by ring]
      exact mul_div_mul_left _ _ (mul_pos hκ hκ).ne'
    rw [this, this]
  | entropy =>
    refine (entropyNode_sim hκ n w y).bind ?_
    rintro a _ rfl
    refine (entropyNode_sim hκ n v z).bind ?_
    rintro b _ rfl
    exact SameResult.pure rfl

/-- Classification. -/
noncomputable def classSim (R : Rng G) (argsort : List ℝ → List Nat) (n : Nat) (d : ℝ) (cr : Criterion) (st : CatStrategy) {κ : ℝ} (hκ : 0 < κ) :
    TaskSim (classifierTask R argsort n d cr st) (classifierTask R argsort n (κ * d) cr st) where
  κ := κ
  μ := 1
  lam := κ
  NZ _ := True
  RL _ l l' := l' = l
  RY _ y y' := y' = y.map (κ * ·)
  RA _ p p' := p.length = n ∧ p' = p.map (κ * ·)
  RP _ p p' := p' = p
  κ_pos := hκ
  μ_pos := one_pos
  mulL h _ := h
  zeroY := by
    show List.replicate n (0 : ℝ) = (List.replicate n (0 : ℝ)).map (κ * ·)
    simp
  addY := by
    rintro w y y' l l' rfl v rfl
    exact (addClass_sim κ y.length ⟨rfl, rfl⟩ v _).mono fun a b h => h.2
  plusY := by
    rintro w y y' v z z' rfl rfl
    exact zipWith_sim (fun a b => (mul_add _ _ _).symm) _ _
  minusY := by
    rintro w y y' v z z' rfl rfl
    exact zipWith_sim (fun a b => (mul_sub _ _ _).symm) _ _
  zeroA := by
    refine ⟨by simp [classifierTask], ?_⟩
    show List.replicate n (0 : ℝ) = (List.replicate n (0 : ℝ)).map (κ * ·)
    simp
  zeroP := rfl
  addP := by
    rintro w p p' l l' h v rfl
    exact addClass_sim κ n h v _
  endP := by
    rintro w p p' ⟨hl, rfl⟩
    show SameResult _ (finishClassPred n d p w) (finishClassPred n (κ * d) (p.map (κ * ·)) (κ * w))
    rw [finishClassPred_real _ _ hl, finishClassPred_real _ _ (by simp [hl])]
    show _ = _
    rw [List.map_map]
    refine List.map_congr_left fun v _ => ?_
    show (κ * v + κ * d) / (κ * w + n * (κ * d)) = _
    rw [show κ * v + κ * d = κ * (v + d) by ring, show κ * w + n * (κ * d) = κ * (w + n * d) by ring]
    exact mul_div_mul_left _ _ hκ.ne'
  addLoss := by
    rintro w p p' x x' l l' rfl hx v rfl
    refine SameResult.same.bind ?_
    rintro q _ rfl
    refine SameResult.pure fun hw => ?_
    rw [hx hw]
    show κ * x - κ * v * Real.log q = κ * (x - v * Real.log q)
    ring
  childs := by
    rintro w y y' v z z' rfl rfl
    exact childs_sim hκ cr n w v y z

theorem foldl_add_map (κ : ℝ) (l : List ℝ) (s : ℝ) : (l.map (κ * ·)).foldl Num.add (κ * s) = κ * l.foldl Num.add s := by
  induction l generalizing s with
  | nil => rfl
  | cons a l ih => 
    simp only [List.map_cons, List.foldl_cons]
    rw [show Num.add (κ * s) (κ * a) = κ * Num.add s a from (mul_add _ _ _).symm, ih]

theorem classOrder_same {κ : ℝ} (hκ : 0 < κ) (argsort : List ℝ → List Nat) (bins : List Nat) (ys : List (List ℝ)) (m : Nat) :
    classOrder argsort bins ys m = classOrder argsort bins (ys.map (List.map (κ * ·))) m := by
  unfold classOrder
  refine SameResult.eq ((mapM_rd_map (List.map (κ * ·)) ys bins).bind ?_)
  rintro rows _ rfl
  simp only [List.map_map]
  rw [show ((fun r : List ℝ => r.map fun x => Num.div x (r.foldl Num.add Num.zero)) ∘ List.map (κ * ·)) =
    fun r : List ℝ => r.map fun x => Num.div x (r.foldl Num.add Num.zero) from ?_]
  · exact SameResult.same
  · funext r
    simp only [Function.comp_apply, List.map_map]
    refine List.map_congr_left fun x _ => ?_
    have := foldl_add_map κ r 0
    rw [mul_zero] at this
    show κ * x / ((r.map (κ * ·)).foldl Num.add (0 : ℝ)) = x / (r.foldl Num.add (0 : ℝ))
    rw [this]
    exact mul_div_mul_left _ _ hκ.ne'

theorem classSim_orders (R : Rng G) (argsort : List ℝ → List Nat) (n : Nat) (d : ℝ) (cr : Criterion) (st : CatStrategy) {κ : ℝ} (hκ : 0 < κ) :
    SameOrders (classSim R argsort n d cr st hκ) := by
  intro h h' hh g
  have hs : h'.ySum = h.ySum.map (List.map (κ * ·)) := by
    refine List.ext_getElem (by simp [hh.lenY]) fun i h1 h2 => ?_
    rw [List.length_map] at h2
    have hw : i < h.wTrain.length := by rw [← hh.lenWY]; exact h2
    have := hh.ySum (List.getElem?_eq_getElem hw) (List.getElem?_eq_getElem h2) (List.getElem?_eq_getElem h1)
    simp only [List.getElem_map]
    exact this
  show classOrders R argsort n st h.neTrain h'.ySum g = classOrders R argsort n st h.neTrain h.ySum g
  unfold classOrders
  rw [hs]
  have hco : ∀ m, classOrder argsort h.neTrain (h.ySum.map (List.map (κ * ·))) m = classOrder argsort h.neTrain h.ySum m :=
    fun m => (classOrder_same hκ argsort _ _ m).symm
  have hco' : classOrder argsort h.neTrain (h.ySum.map (List.map (κ * ·))) = classOrder argsort h.neTrain h.ySum := funext hco
  rw [hco']

end Verif
