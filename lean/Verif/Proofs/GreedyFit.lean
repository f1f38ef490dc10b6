import Verif.Proofs.Greedy
import Verif.Proofs.ForestColumns

/-! The labels and weights that the trees of a fitted forest see. -/
set_option linter.unusedSectionVars false
namespace Verif

open Spec

section
variable {L V K P G W N : Type} [LinearOrder L] [DecidableEq V] [DecidableEq N] [LinearOrder K] [Field K] [IsStrictOrderedRing K] [FloorSemiring K]

theorem prepared_entries {lib : Lib V K ℝ G W} {e : Est L V K ℝ (List ℝ) G} {y : List L} {sw : List ℝ} {n : Nat} (hy : y.length = n) (hsw : sw.length = n)
    (hpos : ∀ w ∈ sw, 0 < w) : ∀ k yy w i, (preparedOf lib e y sw).ys[k]? = some yy → (preparedOf lib e y sw).ws[k]? = some w → i < n →
      (yy.getD i 0 : ℝ) = (treeLabel (staysOvr e y) (classOf (sortedUnique y) y) k i : ℝ) ∧
      w.getD i 0 = rowWeight sw e.balanced n (treeLabel (staysOvr e y) (classOf (sortedUnique y) y) k) i ∧ 0 < w.getD i 0 := by
  intro k yy w i h2 h3 hi
  have hwpos := (classWeights_sign (fun v hv => (hpos v hv).le) w (List.mem_of_getElem? h3)).2 hpos
  simp only [preparedOf] at h2 h3
  rw [List.getElem?_map] at h2
  obtain ⟨codes, hcodes, rfl⟩ := Option.map_eq_some_iff.1 h2
  obtain ⟨hclen, hcl⟩ := codesOf_getElem? hcodes
  have hi' : i < codes.length := by omega
  have hw : w.length = n ∧ w.getD i 0 = rowWeight sw e.balanced n (treeLabel (staysOvr e y) (classOf (sortedUnique y) y) k) i := by
    unfold classWeights at h3
    simp only [rowWeight]
    cases hbal : e.balanced with
    | false =>
      rw [hbal, if_neg (by simp), List.getElem?_map, hcodes] at h3
      injection h3 with h3
      subst h3
      simp [hsw]
    | true =>
      rw [hbal, if_pos rfl, List.getElem?_map, hcodes] at h3
      injection h3 with h3
      subst h3
      refine ⟨by simp [balancedWeights, hsw, hclen, hy], ?_⟩
      simp only [List.getD_eq_getElem?_getD, List.getElem?_zipWith, balancedWeights_getD hcl hi', if_true]
      rw [List.getElem?_eq_getElem (by omega : i < sw.length)]
      simp only [Num.mul, Option.getD_some, hclen, hy]
  refine ⟨?_, hw.2, getD_prop (Q := fun v => 0 < v) hwpos (by omega)⟩
  simp only [List.getD_eq_getElem?_getD, List.getElem?_map, hcl i hi', Option.map_some, Option.getD_some, Num.ofNat]

end

end Verif
