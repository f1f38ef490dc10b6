import Verif.Proofs.Bitarray
import Verif.Spec.Toy

/-! The packed matrix and the labels form a tree context that holds the dataset. -/
namespace Verif

open Spec

theorem holds_of_matrix {F : Type} [Num F] (g : Nat → Word) (n : Nat) (cols : List (List Nat)) (y w : List F)
    (hn : 0 < n) (hm : ∀ c ∈ cols, c.length = n) (hv : ∀ c ∈ cols, ∀ x ∈ c, x < 2 ^ 63) (hy : y.length = n)
    (hw : w.length = n) (cat : List Bool) (hc : cat.length = cols.length) :
    ∃ fba, arrayToBitarray g n cols = .ok fba ∧ ∀ (c : Ctx F), c.fba = fba → c.y = y → c.w = w →
      c.isCategorical = cat → Holds c (dataOf n cols y w) := by
  have hms : ∀ m ∈ cols.map colMax, m < 2 ^ 63 := by
    intro m hm'
    obtain ⟨c, hc, rfl⟩ := List.mem_map.1 hm'
    exact colMax_lt (by norm_num) (hv c hc)
  obtain ⟨b, hb, hlay, hget⟩ := fillValues_spec (init_layout g n (cols.map colMax)) hn cols (by simp)
    hms hm (by intro j hj x hx; simp only [List.getElem_map]; exact le_colMax _ x hx)
  refine ⟨b, hb, ?_⟩
  rintro c rfl rfl rfl rfl
  have hcol : ∀ i j, i < n → (hj : j < cols.length) → (cols.getD j []).getD i 0 ∈ cols[j] ∧
      c.fba.getValue i j = .ok ((cols.getD j []).getD i 0) := by
    intro i j hi hj
    have hi' : i < (cols[j]).length := by rw [hm _ (List.getElem_mem hj)]; exact hi
    have : (cols.getD j []).getD i 0 = cols[j][i] := by simp [hj, hi']
    rw [this]
    exact ⟨List.getElem_mem hi', hget j hj i hi'⟩
  refine ⟨hlay.samples, ?_, ?_, ?_, ?_, ?_, hc⟩
  · unfold FBA.nFeatures; rw [hlay.maxv]; simp [dataOf]
  · intro i j hi hj; exact (hcol i j hi hj).2
  · intro i j hi hj
    have hmem := (hcol i j hi hj).1
    unfold Ctx.maxNBins
    rw [hlay.maxv]
    have h1 := le_colMax _ _ hmem
    have h2 := le_colMax (cols.map colMax) _ (List.mem_map_of_mem (List.getElem_mem hj))
    simp only [dataOf]
    omega
  · intro i hi
    have : i < c.y.length := by rw [hy]; exact hi
    simp [dataOf, this]
  · intro i hi
    have : i < c.w.length := by rw [hw]; exact hi
    simp [dataOf, this]

end Verif
