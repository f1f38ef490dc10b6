import Verif.Proofs.Greedy
import Verif.Proofs.Inspect
import Verif.Proofs.Recode
import Verif.Proofs.OutOfBag
import Verif.Spec.Constant
import Verif.Props.Encoder

set_option linter.unusedSectionVars false

/-! A column that is constant on the training rows of a tree is not tested, so the predictions do not depend on it. -/
namespace Verif

open Spec

section
variable {F P : Type} [Num F] {t : TreeArr F P}

/-- A row that visits a child has visited the node and has the outcome of the test. -/
theorem _root_.Verif.Spec.WellFormed.visits_left (h : WellFormed t) {x : Nat → Nat} {k l f : Nat} {n : Node F} (hn : NodeAt t k n) (hf : n.feature = some f)
    (hl : n.left = some l) (hv : Visits t x l) : TestLeft t n (x f) := by
  obtain ⟨m, h1, -, -, h4, -, h6⟩ := h.child hn (.inl hl)
  obtain ⟨p, -, hu⟩ := h.parent l m h1 (by omega)
  have hk : k = p := hu k ⟨n, hn, .inl hl⟩
  cases hv with
  | root => omega
  | left _ g1 _ g3 g4 g5 =>
    obtain rfl := hk.trans (hu _ ⟨_, g1, .inl g5⟩).symm
    cases nodeAt_inj hn g1
    rw [hf] at g3; cases g3
    exact g4
  | right _ g1 _ _ _ g5 =>
    obtain rfl := hk.trans (hu _ ⟨_, g1, .inr g5⟩).symm
    cases nodeAt_inj hn g1
    exact absurd g5 (h6 hl)

theorem _root_.Verif.Spec.WellFormed.visits_right (h : WellFormed t) {x : Nat → Nat} {k r f : Nat} {n : Node F} (hn : NodeAt t k n) (hf : n.feature = some f)
    (hr : n.right = some r) (hv : Visits t x r) : ¬TestLeft t n (x f) := by
  obtain ⟨m, h1, -, -, h4, -, h6⟩ := h.child hn (.inr hr)
  obtain ⟨p, -, hu⟩ := h.parent r m h1 (by omega)
  have hk : k = p := hu k ⟨n, hn, .inr hr⟩
  cases hv with
  | root => omega
  | left _ g1 _ _ _ g5 =>
    obtain rfl := hk.trans (hu _ ⟨_, g1, .inl g5⟩).symm
    cases nodeAt_inj hn g1
    exact absurd hr (h6 g5)
  | right _ g1 _ g3 g4 g5 =>
    obtain rfl := hk.trans (hu _ ⟨_, g1, .inr g5⟩).symm
    cases nodeAt_inj hn g1
    rw [hf] at g3; cases g3
    exact g4

theorem _root_.Verif.Spec.WellFormed.visits_parent (h : WellFormed t) {x : Nat → Nat} {k l : Nat} {n : Node F} (hn : NodeAt t k n)
    (hl : n.left = some l ∨ n.right = some l) (hv : Visits t x l) : Visits t x k := by
  obtain ⟨m, h1, -, -, h4, -⟩ := h.child hn hl
  obtain ⟨p, -, hu⟩ := h.parent l m h1 (by omega)
  have hk : k = p := hu k ⟨n, hn, hl⟩
  cases hv with
  | root => omega
  | left g0 g1 _ _ _ g5 =>
    obtain rfl := hk.trans (hu _ ⟨_, g1, .inl g5⟩).symm
    exact g0
  | right g0 g1 _ _ _ g5 =>
    obtain rfl := hk.trans (hu _ ⟨_, g1, .inr g5⟩).symm
    exact g0

/-- The bins of two drawn rows differ in a feature that is tested. -/
theorem _root_.Verif.Spec.TreeLimits.vary {ms ml : Nat} {lim : Option Nat} {agg : Bool} {n : Nat} {X : Nat → Nat → Nat} {draws : List Nat}
    (h : TreeLimits ms ml lim agg n X draws t) (hml : 1 ≤ ml) {k f : Nat} {node : Node F} (hn : NodeAt t k node) (hl : node.isLeaf = false)
    (hf : node.feature = some f) : ∃ r < n, r ∈ draws ∧ ∃ r' < n, r' ∈ draws ∧ X r f ≠ X r' f := by
  obtain ⟨hw, hall⟩ := h
  obtain ⟨l, r, nl, nr, e1, e2, -, h1, h2, h3, h4, -⟩ := hw.children k node hn hl
  obtain ⟨-, -, -, a1, -⟩ := hall l nl h3
  obtain ⟨-, -, -, a2, -⟩ := hall r nr h4
  obtain ⟨i, hi⟩ := List.exists_mem_of_length_pos (lt_of_lt_of_le (by omega) (a1 (by omega)).1)
  obtain ⟨i', hi'⟩ := List.exists_mem_of_length_pos (lt_of_lt_of_le (by omega) (a2 (by omega)).1)
  simp only [List.mem_filter, decide_eq_true_eq, drawnRows, List.mem_range] at hi hi'
  refine ⟨i, hi.1.1, hi.1.2, i', hi'.1.1, hi'.1.2, fun he => ?_⟩
  have g1 := hw.visits_left hn hf e1 hi.2
  have g2 := hw.visits_right hn hf e2 hi'.2
  rw [he] at g1
  exact g2 g1

variable {b1 b2 : FBA}

/-- Two rows have the same outcome in all tests of the tree. -/
def SameTested (t : TreeArr F P) (b1 b2 : FBA) (i : Nat) : Prop :=
  ∀ k n, NodeAt t k n → n.isLeaf = false → childOf t b1 i n = childOf t b2 i n

/-- This is so when the rows have the same bins in the features that the tree tests. -/
theorem sameTested_of_bins {i : Nat} (h : ∀ k n f, NodeAt t k n → n.isLeaf = false → n.feature = some f → b1.getValue i f = b2.getValue i f) :
    SameTested t b1 b2 i := by
  intro k n hn hl
  unfold childOf
  cases hf : n.feature with
  | none => rfl
  | some f => simp only [idx, bind_ok]; rw [h k n f hn hl hf]

theorem findLeafFrom_tested (hw : WellFormed t) {i : Nat} (h : SameTested t b1 b2 i) :
    ∀ fuel k, k < t.nodeCount → findLeafFrom t b1 i fuel k = findLeafFrom t b2 i fuel k := by
  intro fuel
  induction fuel with
  | zero => intro k _; rfl
  | succ fuel ih =>
    intro k hk
    obtain ⟨n, hn, -⟩ := hw.entries k hk
    unfold findLeafFrom
    rw [rd_ok.2 hn.2, bind_ok, bind_ok]
    cases hl : n.isLeaf with
    | true => rfl
    | false =>
      simp only [Bool.false_eq_true, if_false]
      rw [h k n hn hl]
      cases hk' : childOf t b2 i n with
      | error e => rfl
      | ok c =>
        refine ih c ?_
        have : n.left = some c ∨ n.right = some c := by
          unfold childOf at hk'
          obtain ⟨f, -, hk'⟩ := bind_eq_ok.1 hk'
          obtain ⟨bin, -, hk'⟩ := bind_eq_ok.1 hk'
          obtain ⟨g, -, hk'⟩ := bind_eq_ok.1 hk'
          cases g
          · right
            simp only [Bool.false_eq_true, if_false] at hk'
            cases hr : n.right with
            | none => rw [hr] at hk'; cases hk'
            | some r => rw [hr] at hk'; cases hk'; rfl
          · left
            simp only [if_true] at hk'
            cases hr : n.left with
            | none => rw [hr] at hk'; cases hk'
            | some r => rw [hr] at hk'; cases hk'; rfl
        obtain ⟨m, hm, -⟩ := hw.child hn this
        exact hm.1

theorem findLeaf_tested (hw : WellFormed t) {i : Nat} (h : SameTested t b1 b2 i) : findLeaf t b1 i = findLeaf t b2 i :=
  findLeafFrom_tested hw h _ 0 hw.rootFirst

variable (hw : WellFormed t) (hn : b1.nSamples = b2.nSamples) (h : ∀ i < b1.nSamples, SameTested t b1 b2 i)
include hw hn h

theorem treeApply_tested : treeApply t b1 = treeApply t b2 := by
  unfold treeApply
  rw [← hn]
  exact mapM_congr_mem fun i hi => findLeaf_tested hw (h i (List.mem_range.1 hi))

theorem treePredict_tested {mix : F → P → P → P} {agg : Bool} {step : F} : treePredict mix t b1 agg step = treePredict mix t b2 agg step := by
  unfold treePredict
  rw [← hn]
  refine mapM_congr_mem fun i hi => ?_
  unfold predictRow
  rw [findLeaf_tested hw (h i (List.mem_range.1 hi))]

theorem weightedDepth_tested {step : F} :
    (List.range b1.nSamples).mapM (weightedDepthRow t b1 step) = (List.range b2.nSamples).mapM (weightedDepthRow t b2 step) := by
  rw [← hn]
  refine mapM_congr_mem fun i hi => ?_
  unfold weightedDepthRow
  rw [findLeaf_tested hw (h i (List.mem_range.1 hi))]

end

section
variable {L V K F P G W N : Type} [LinearOrder L] [DecidableEq V] [DecidableEq N] [LinearOrder K] [Field K] [IsStrictOrderedRing K] [FloorSemiring K] [Num F]
variable {lib : Lib V K F G W} {b1 b2 : FBA}

/-- The trees of `trees` are well formed, and the rows have the same outcome in all their tests. -/
def SameForest (trees : List (TreeObj F P G)) (b1 b2 : FBA) : Prop :=
  b1.nSamples = b2.nSamples ∧ ∀ o ∈ trees, WellFormed o.arr ∧ ∀ i < b1.nSamples, SameTested o.arr b1 b2 i

theorem SameForest.predict {trees : List (TreeObj F P G)} (h : SameForest trees b1 b2) {mix : F → P → P → P} {o : TreeObj F P G} (ho : o ∈ trees) :
    o.predict mix b1 = o.predict mix b2 := treePredict_tested (h.2 o ho).1 h.1 (h.2 o ho).2

theorem SameForest.reg {trees : List (TreeObj F F G)} (h : SameForest trees b1 b2) : forestPredict trees b1 = forestPredict trees b2 := by
  unfold forestPredict
  rw [h.1, foldlM_congr fun s o ho => by rw [h.predict ho]]

theorem SameForest.proba {trees : List (TreeObj F (List F) G)} (h : SameForest trees b1 b2) {nC : Nat} : predictProba nC trees b1 = predictProba nC trees b2 := by
  unfold predictProba accumulateProba
  rw [h.1, foldlM_congr fun s o ho => by rw [h.predict ho]]

theorem SameForest.ovr {trees : List (TreeObj F (List F) G)} (h : SameForest trees b1 b2) {eps : F} {nC nE : Nat} :
    predictProbaOvr eps nC nE trees b1 = predictProbaOvr eps nC nE trees b2 := by
  unfold predictProbaOvr
  rw [h.1]
  congr 1
  refine foldlM_congr (fun s x hx => ?_) _
  obtain ⟨o, i⟩ := x
  simp only
  rw [h.predict (List.fst_mem_of_mem_zipIdx hx)]

/-- A fitted estimator gives the same results for two datasets with the same bins in the features that its trees test. -/
theorem FitFacts.same_tested {Y : Type} {a : FitArgs N V} {p : FitData F Y P G} {lab : F → Prop} {okW : List F → Prop} {e e' : Est L V K F P G}
    (h : FitFacts lib a p lab okW e e') (hd : 0 < a.nRows) (hgood : GoodInput a.nRows a.X) {count : Nat} {e0 : Est L V K F P G} (hlim : ForestLimits lib e0 e' a count)
    (hml : 1 ≤ e0.minLeaf) :
    (∀ (t : Nat) (o : TreeObj F P G), e'.trees[t]? = some o → ∃ seed draws, e'.seeds[t]? = some seed ∧ BootstrapOf (lib.boot a.nRows) a.nRows seed draws ∧
      ∀ k n f, NodeAt o.arr k n → n.isLeaf = false → n.feature = some f → ColumnVaries a.X ((List.range a.nRows).filter fun i => decide (i ∈ draws)) f) ∧
    ∀ (N' : Type) [DecidableEq N'] (n : Nat) (X1 X2 : Dataset N' V), 0 < n → GoodInput n X1 → GoodInput n X2 → AcceptedBy lib e' X1 → AcceptedBy lib e' X2 →
      numOf lib.conv X1 = numOf lib.conv X2 → SameWhereVarying a.nRows a.X n X1 X2 →
      ∃ b1 b2, e'.encode lib n X1 = .ok b1 ∧ e'.encode lib n X2 = .ok b2 ∧ SameForest e'.trees b1 b2 := by
  obtain ⟨cfg, enc, he, hF, hm, h63, hlen, -, -⟩ := h.encoder
  obtain ⟨_, hok, _⟩ := encoderFit_ok hm hF
  obtain ⟨-, -, -, -, train, htr, hall⟩ := hlim
  have htr' : encoderTransform lib.conv cfg enc lib.words a.nRows a.X = .ok train := by simp only [Est.encode, he] at htr; exact htr
  obtain ⟨-, q2, q3, -, q5, q6, q7⟩ := encoderTransform_ok hok h63 hd hgood htr'
  have hbins : ∀ r < a.nRows, ∀ r' < a.nRows, ∀ f, binsOf train r f ≠ binsOf train r' f → cell a.X r f ≠ cell a.X r' f := by
    intro r hr r' hr' f hne hc
    by_cases hf : f < enc.length
    · obtain ⟨c, hc1⟩ := q6 r f hf hr
      obtain ⟨-, fc, v, g1, g2, g3, -⟩ := q7 r f c hc1
      obtain ⟨-, fc', v', g1', g2', g3', -⟩ := q7 r' f c (hc ▸ hc1)
      rw [g1] at g1'; cases g1'
      rw [g2] at g2'; cases g2'
      exact hne (by simp only [binsOf, g3, g3'])
    · exact hne (by rw [binsOf_beyond q3 (by omega), binsOf_beyond q3 (by omega)])
  have hvar : ∀ (t : Nat) (o : TreeObj F P G), e'.trees[t]? = some o → ∃ seed draws, e'.seeds[t]? = some seed ∧
      BootstrapOf (lib.boot a.nRows) a.nRows seed draws ∧ WellFormed o.arr ∧
      ∀ k n f, NodeAt o.arr k n → n.isLeaf = false → n.feature = some f → ColumnVaries a.X ((List.range a.nRows).filter fun i => decide (i ∈ draws)) f := by
    intro t o ho
    obtain ⟨seed, draws, lim, g1, g2, -, g4⟩ := hall t o ho
    refine ⟨seed, draws, g1, g2, g4.1, fun k n f hn hl hf => ?_⟩
    obtain ⟨r, hr, hrd, r', hr', hrd', hne⟩ := g4.vary hml hn hl hf
    exact ⟨r, by simp [hr, hrd], r', by simp [hr', hrd'], hbins r hr r' hr' f hne⟩
  refine ⟨fun t o ho => ?_, ?_⟩
  · obtain ⟨seed, draws, g1, g2, -, g4⟩ := hvar t o ho
    exact ⟨seed, draws, g1, g2, g4⟩
  intro N' _ n X1 X2 hn hX1 hX2 hA1 hA2 hnum hsame
  have hacc : ∀ X : Dataset N' V, AcceptedBy lib e' X → ∀ cfg enc, e'.encoder = some (cfg, enc) → Acceptable lib.conv cfg enc X := by
    rintro X ⟨cfg', enc', h1, h2⟩ cfg enc h3
    rw [h1] at h3; cases h3
    exact h2
  obtain ⟨b1, e1, -⟩ := h.encode hn hX1 (hacc X1 hA1)
  obtain ⟨b2, e2, -⟩ := h.encode hn hX2 (hacc X2 hA2)
  refine ⟨b1, b2, e1, e2, ?_⟩
  simp only [Est.encode, he] at e1 e2
  obtain ⟨s1, -, -, -, -, s6, s7⟩ := encoderTransform_ok hok h63 hn hX1 e1
  obtain ⟨t1, -, -, -, -, -, t7⟩ := encoderTransform_ok hok h63 hn hX2 e2
  refine ⟨s1.trans t1.symm, fun o ho => ?_⟩
  obtain ⟨t, ht⟩ := List.mem_iff_getElem?.1 ho
  obtain ⟨-, draws, -, -, hw, hv⟩ := hvar t o ht
  refine ⟨hw, fun i hi => sameTested_of_bins fun k nd f hk hl hf => ?_⟩
  obtain ⟨r, hr, r', hr', hne⟩ := hv k nd f hk hl hf
  have hin : f < enc.length := by
    by_contra hcon
    apply hne
    have hnone : ∀ i, cell a.X i f = none := by
      intro i
      cases hc : cell a.X i f with
      | none => rfl
      | some c =>
        obtain ⟨-, fc, -, g1, -⟩ := q7 i f c hc
        rw [List.getElem?_eq_none (by omega)] at g1; cases g1
    rw [hnone, hnone]
  simp only [List.mem_filter] at hr hr'
  have hcell := hsame i (by omega) f ⟨r, hr.1, r', hr'.1, hne⟩
  obtain ⟨c, hc⟩ := s6 i f hin (by omega)
  obtain ⟨-, fc, v, g1, g2, g3, -⟩ := s7 i f c hc
  obtain ⟨-, fc', v', g1', g2', g3', -⟩ := t7 i f c (hcell ▸ hc)
  rw [g1] at g1'; cases g1'
  rw [hnum, g2'] at g2; cases g2
  rw [g3, g3']

end

end Verif
