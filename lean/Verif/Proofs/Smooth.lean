import Verif.Proofs.OracleForest

/-! Bounds of smoothed class shares. -/
set_option linter.unusedSectionVars false
namespace Verif

open Spec

section
variable {P : Type} {t : TreeArr ℝ P}

theorem expAverage_le {b : BTree} {step : ℝ} {loss : Nat → ℝ} {goes : Nat → Bool} {val : Nat → ℝ} {u : ℝ} (h : ∀ k, val k ≤ u) :
    expAverage b step loss goes val ≤ u := by
  unfold expAverage
  rw [div_le_iff₀ (weight_sum_pos b step loss), mul_comm, ← List.sum_map_mul_right]
  exact List.sum_le_sum fun p _ => mul_le_mul_of_nonneg_left (h _) (by positivity)

theorem le_expAverage {b : BTree} {step : ℝ} {loss : Nat → ℝ} {goes : Nat → Bool} {val : Nat → ℝ} {l : ℝ} (h : ∀ k, l ≤ val k) :
    l ≤ expAverage b step loss goes val := by
  unfold expAverage
  rw [le_div_iff₀ (weight_sum_pos b step loss), mul_comm, ← List.sum_map_mul_right]
  exact List.sum_le_sum fun p _ => mul_le_mul_of_nonneg_left (h _) (by positivity)

theorem treeValue_mem {g : GrownTree P} {agg : Bool} {step : ℝ} {loss val : Nat → ℝ} {x : Nat → Nat} {l u : ℝ} (h : ∀ k, l ≤ val k ∧ val k ≤ u) :
    l ≤ treeValue g agg step loss val x ∧ treeValue g agg step loss val x ≤ u := by
  unfold treeValue
  split
  · exact ⟨le_expAverage fun k => (h k).1, expAverage_le fun k => (h k).2⟩
  · exact h _

theorem drawnSum_le {S : Sample} {c : ℝ} (hS : ∀ i < S.n, 0 ≤ S.w i ∧ S.w i ≤ c) (hc : 0 ≤ c) (hd : ∀ i ∈ S.draws, i < S.n) {k : Nat} {f : Nat → ℝ}
    (hf : ∀ i, 0 ≤ f i ∧ f i ≤ 1) : S.drawnSum t k f ≤ S.draws.length * c := by
  have h1 : S.drawnSum t k f ≤ ∑ i ∈ Finset.range S.n, (S.draws.count i : ℝ) * c := by
    unfold Sample.drawnSum
    refine Finset.sum_le_sum fun i hi => ?_
    obtain ⟨h0, h1⟩ := hS i (Finset.mem_range.1 hi)
    obtain ⟨f0, f1⟩ := hf i
    have hcnt : (0 : ℝ) ≤ S.draws.count i := Nat.cast_nonneg _
    split
    · rw [mul_assoc]
      refine mul_le_mul_of_nonneg_left ?_ hcnt
      calc S.w i * f i ≤ S.w i * 1 := mul_le_mul_of_nonneg_left f1 h0
        _ ≤ c := by rw [mul_one]; exact h1
    · positivity
  refine h1.trans (le_of_eq ?_)
  rw [← Finset.sum_mul, ← Nat.cast_sum]
  congr 2
  have : S.draws.toFinset ⊆ Finset.range S.n := fun i hi => Finset.mem_range.2 (hd i (List.mem_toFinset.1 hi))
  rw [← List.sum_toFinset_count_eq_length, ← Finset.sum_subset this]
  intro i _ hi
  exact List.count_eq_zero.2 fun h => hi (List.mem_toFinset.2 h)

/-- Bounds of a share, where `B` bounds the drawn weight. -/
theorem share_bounds {S : Sample} {B dir : ℝ} {nC : Nat} {lab : Nat → Nat} (hS : ∀ i < S.n, 0 ≤ S.w i) (hn : 1 ≤ nC) (hd : 0 < dir) {k : Nat} (j : Nat)
    (hB : S.drawnSum t k (fun _ => 1) ≤ B) :
    dir / (B + nC * dir) ≤ S.share t nC dir lab k j ∧ S.share t nC dir lab k j ≤ (B + dir) / (B + nC * dir) := by
  have h1 := drawnSum_nonneg (t := t) hS k (f := fun i => if lab i = j then 1 else 0) (fun i => by split <;> norm_num)
  have h2 : S.drawnSum t k (fun i => if lab i = j then 1 else 0) ≤ S.drawnSum t k (fun _ => 1) := by
    unfold Sample.drawnSum
    refine Finset.sum_le_sum fun i hi => ?_
    have := hS i (Finset.mem_range.1 hi)
    split
    · exact mul_le_mul_of_nonneg_left (by beta_reduce; split <;> norm_num) (by positivity)
    · exact le_rfl
  have hn' : (1 : ℝ) ≤ nC := by exact_mod_cast hn
  have hnd : dir ≤ nC * dir := le_mul_of_one_le_left hd.le hn'
  unfold Sample.share
  generalize S.drawnSum t k (fun i => if lab i = j then 1 else 0) = A at *
  generalize S.drawnSum t k (fun _ => 1) = D at *
  constructor
  · exact div_le_div₀ (by linarith) (by linarith) (by linarith) (by linarith)
  · rw [div_le_div_iff₀ (by linarith) (by linarith)]
    nlinarith

theorem rowWeight_le {given : List ℝ} {balanced : Bool} {n : Nat} {lab : Nat → Nat} {i : Nat} {c : ℝ} (hg : ∀ w ∈ given, 0 ≤ w ∧ w ≤ c) (hc : 0 ≤ c) (hi : i < n) :
    rowWeight given balanced n lab i ≤ c * if balanced then (n : ℝ) else 1 := by
  unfold rowWeight
  refine mul_le_mul ?_ ?_ (by split <;> [(unfold balanceFactor; positivity); norm_num]) hc
  · rw [List.getD_eq_getElem?_getD]
    cases h : given[i]? with
    | none => simpa using hc
    | some w => exact (hg w (List.mem_of_getElem? h)).2
  · split
    · unfold balanceFactor
      have h2 : 0 < ((Finset.range n).image lab).card := Finset.card_pos.2 ⟨lab i, Finset.mem_image.2 ⟨i, Finset.mem_range.2 hi, rfl⟩⟩
      have h3 : 0 < ((Finset.range n).filter fun r => lab r = lab i).card :=
        Finset.card_pos.2 ⟨i, Finset.mem_filter.2 ⟨Finset.mem_range.2 hi, rfl⟩⟩
      have h4 : (1 : ℝ) ≤ ((Finset.range n).image lab).card * ((Finset.range n).filter fun r => lab r = lab i).card := by
        exact_mod_cast Nat.mul_pos h2 h3
      exact div_le_self (Nat.cast_nonneg _) h4
    · exact le_refl (1 : ℝ)

/-- Lower bound of normalised scores that lie between `E d / (B + 2 d)` and `E (B + d) / (B + 2 d)`. -/
theorem normalised_bound {eps d B E : ℝ} {nC : Nat} {score : Nat → ℝ} {j : Nat} (hd : 0 < d) (hB : 0 ≤ B) (hE : 0 < E) (hj : j < nC)
    (h : ∀ k < nC, E * (d / (B + (2 : Nat) * d)) ≤ score k ∧ score k ≤ E * ((B + d) / (B + (2 : Nat) * d))) :
    d / (nC * (B + d)) ≤ normalised eps nC score j := by
  have hn : (0 : ℝ) < nC := by exact_mod_cast (show 0 < nC by omega)
  unfold normalised
  split
  · rw [div_le_div_iff₀ (by positivity) hn]
    nlinarith
  · have hsum : (∑ k ∈ Finset.range nC, score k) ≤ nC * (E * ((B + d) / (B + (2 : Nat) * d))) := by
      have := Finset.sum_le_card_nsmul (Finset.range nC) score _ fun k hk => (h k (Finset.mem_range.1 hk)).2
      rwa [Finset.card_range, nsmul_eq_mul] at this
    have hpos : 0 < ∑ k ∈ Finset.range nC, score k :=
      Finset.sum_pos (fun k hk => lt_of_lt_of_le (by positivity) (h k (Finset.mem_range.1 hk)).1) ⟨j, Finset.mem_range.2 hj⟩
    refine le_trans (le_of_eq ?_) (div_le_div₀ (by have := (h j hj).1; exact le_trans (by positivity) this) (h j hj).1 hpos hsum)
    have : B + d ≠ 0 := by positivity
    have : B + ((2 : Nat) : ℝ) * d ≠ 0 := by positivity
    field_simp

/-- Bounds of the probability of a class in a tree. -/
theorem probValue_bounds {n : Nat} {X : Nat → Nat → Nat} {given : List ℝ} {balanced agg : Bool} {lab : Nat → Nat} {c step dir : ℝ} {nC : Nat} {g : GrownTree P}
    {draw : Nat → List Nat} {G : Type} {trees : List (TreeObj ℝ P G)} {seeds : List Nat} {i : Nat} (hdraw : DrawsOK n draw) (hg : GrownIn draw n trees seeds i g) (hW : ∀ w ∈ given, 0 ≤ w ∧ w ≤ c) (hc : 0 ≤ c)
    (hn : 1 ≤ nC) (hd : 0 < dir) {x : Nat → Nat} {j : Nat} {B : ℝ} (hB : B = n * (c * if balanced then (n : ℝ) else 1)) :
    dir / (B + nC * dir) ≤ probValue ⟨n, X, rowWeight given balanced n lab, g.draws⟩ g agg step dir nC lab x j ∧
      probValue ⟨n, X, rowWeight given balanced n lab, g.draws⟩ g agg step dir nC lab x j ≤ (B + dir) / (B + nC * dir) := by
  obtain ⟨-, seed, -, -, -, -, m, hm, -⟩ := hg
  obtain ⟨hlen, hlt⟩ := hdraw (nextSeed^[m] seed)
  rw [← hm] at hlen hlt
  have h0 : ∀ i < n, 0 ≤ rowWeight given balanced n lab i := fun i _ => rowWeight_nonneg fun w hw => (hW w hw).1
  refine treeValue_mem fun k => share_bounds h0 hn hd j ?_
  have := drawnSum_le (t := g.arr) (S := ⟨n, X, rowWeight given balanced n lab, g.draws⟩) (c := c * if balanced then (n : ℝ) else 1)
    (fun i hi => ⟨h0 i hi, rowWeight_le hW hc hi⟩) (by split <;> positivity) hlt (k := k) (f := fun _ => 1) (fun _ => ⟨zero_le_one, le_rfl⟩)
  rw [hB]
  rwa [show (⟨n, X, rowWeight given balanced n lab, g.draws⟩ : Sample).draws.length = n from hlen] at this

end

end Verif
