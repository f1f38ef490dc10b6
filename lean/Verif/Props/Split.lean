import Verif.Proofs.SplitIndices
import Verif.Proofs.FindSplit
import Verif.Proofs.Task
import Verif.Proofs.Holds

/-! # C16, C17: splitting a node -/
namespace Verif

open Spec

variable {F G : Type} [Num F]

omit [Num F] in
/-- C16. For every dataset, node range, split (whose set of categories is sorted) and content of the scratch buffers,
`split_indices` succeeds; the range of the node becomes its left samples followed by its right samples, both in their
former order, everything outside the range is unchanged, and the returned positions separate the two children. -/
theorem C16_split_partitions {c : Ctx F} {D : Data F} (hD : Holds c D) (s : Split F)
    (hs : s.isCat = true → s.partition.Pairwise (· ≤ ·)) (hj : s.feature < D.d) (k : Work G) (sT eT sV eV : Nat)
    (hT : sT ≤ eT ∧ eT ≤ k.partTrain.length) (hV : sV ≤ eV ∧ eV ≤ k.partValid.length)
    (hb : eT - sT ≤ k.leftBuf.length ∧ eT - sT ≤ k.rightBuf.length ∧ eV - sV ≤ k.leftBuf.length ∧
      eV - sV ≤ k.rightBuf.length)
    (hi : ∀ i ∈ slice k.partTrain sT eT ++ slice k.partValid sV eV, i < D.n) :
    let left := fun i => goesLeft s (D.X i s.feature)
    ∃ (k' : Work G) (posT posV : Nat), splitIndices c s k sT eT sV eV = .ok (k', posT, posV) ∧
      sT ≤ posT ∧ posT ≤ eT ∧ sV ≤ posV ∧ posV ≤ eV ∧
      slice k'.partTrain sT posT = (slice k.partTrain sT eT).filter left ∧
      slice k'.partTrain posT eT = (slice k.partTrain sT eT).filter (fun i => !left i) ∧
      slice k'.partValid sV posV = (slice k.partValid sV eV).filter left ∧
      slice k'.partValid posV eV = (slice k.partValid sV eV).filter (fun i => !left i) ∧
      k'.partTrain.length = k.partTrain.length ∧ k'.partValid.length = k.partValid.length ∧
      (∀ p, p < sT ∨ eT ≤ p → k'.partTrain[p]? = k.partTrain[p]?) ∧
      (∀ p, p < sV ∨ eV ≤ p → k'.partValid[p]? = k.partValid[p]?) := by
  intro left
  obtain ⟨k', e1, e2, e3, _⟩ := splitIndices_spec c s hs (fun i => D.X i s.feature) k sT eT sV eV hT.1 hT.2 hV.1 hV.2
    hb.1 hb.2.1 hb.2.2.1 hb.2.2.2 (fun i h => hD.value i _ (hi i h) hj)
  have aux : ∀ (part part' : List Nat) (st en : Nat), st ≤ en → en ≤ part.length →
      part' = part.take st ++ (slice part st en).filter left ++ (slice part st en).filter (fun i => !left i) ++
        part.drop en →
      st + ((slice part st en).filter left).length ≤ en ∧
      slice part' st (st + ((slice part st en).filter left).length) = (slice part st en).filter left ∧
      slice part' (st + ((slice part st en).filter left).length) en = (slice part st en).filter (fun i => !left i) ∧
      part'.length = part.length ∧ ∀ p, p < st ∨ en ≤ p → part'[p]? = part[p]? := by
    intro part part' st en h1 h2 h3
    have hlen := List.length_eq_length_filter_add (l := slice part st en) left
    have hsl := slice_length (s := st) h2
    have htk : (part.take st).length = st := by simp; omega
    generalize hA : (slice part st en).filter left = A at *
    generalize hB : (slice part st en).filter (fun i => !left i) = B at *
    refine ⟨by omega, ?_, ?_, ?_, ?_⟩
    · rw [h3]; unfold slice
      rw [List.append_assoc, List.append_assoc, List.drop_append_of_le_length (by omega),
        List.drop_of_length_le (by omega)]
      simp
    · rw [h3]; unfold slice
      rw [List.append_assoc, List.append_assoc, ← List.append_assoc (part.take st) A,
        List.drop_append_of_le_length (by simp; omega), List.drop_of_length_le (by simp)]
      simp only [List.nil_append]
      rw [List.take_append_of_le_length (by omega), List.take_of_length_le (by omega)]
    · rw [h3]; simp only [List.length_append, htk, List.length_drop]; omega
    · intro p hp
      rw [h3]
      rcases hp with hp | hp
      · rw [List.append_assoc, List.append_assoc, List.getElem?_append_left (by omega),
          List.getElem?_take_of_lt hp]
      · rw [List.getElem?_append_right (by simp only [List.length_append, htk]; omega)]
        simp only [List.length_append, htk, List.getElem?_drop]
        congr 1; omega
  obtain ⟨a1, a2, a3, a4, a5⟩ := aux k.partTrain k'.partTrain sT eT hT.1 hT.2 e2
  obtain ⟨b1, b2, b3, b4, b5⟩ := aux k.partValid k'.partValid sV eV hV.1 hV.2 e3
  exact ⟨k', _, _, e1, by omega, a1, by omega, b1, a2, a3, b2, b3, a4, b4, a5, b5⟩

/-- Statistics and split search of one node, as in the loop of `grow`. -/
def nodeSplit {Y P : Type} (T : Task F Y P G) (c : Ctx F) (features train valid : List Nat) (g : G) :
    M (Split F × G) := do
  let nc ← nodeStats T c features train valid train.length valid.length
  findNodeSplit T c nc features g

/-- Common part of the two versions of C17. -/
theorem nodeSplit_counts {Y P : Type} {T : Task F Y P G} {lab : F → Prop} {okY : Y → Prop} {okP : P → Prop}
    (hT : TaskSafe T lab okY okP) {c : Ctx F} {D : Data F} (hD : Holds c D) {features train valid : List Nat}
    (hf : ∀ j ∈ features, j < D.d) (hf0 : features ≠ []) (htr : ∀ i ∈ train, i < D.n ∧ lab (D.y i))
    (hva : ∀ i ∈ valid, i < D.n ∧ lab (D.y i)) (hv : c.aggregation = true → valid ≠ []) (g : G) :
    ∃ sp g', nodeSplit T c features train valid g = .ok (sp, g') ∧ (sp.found = true →
      let left := fun i => goesLeft sp (D.X i sp.feature)
      sp.feature ∈ features ∧
      sp.nTrainL = (train.filter left).length ∧ sp.nTrainR = (train.filter (fun i => !left i)).length ∧
      (c.aggregation = true →
        sp.nValidL = (valid.filter left).length ∧ sp.nValidR = (valid.filter (fun i => !left i)).length)) := by
  obtain ⟨nc, e1, e2⟩ := nodeStats_spec hT hD features train valid hf hf0 htr hva
  obtain ⟨sp, g', f1, f2, _⟩ := findNodeSplit_spec hT hD e2 hf htr hva hv g
  refine ⟨sp, g', by simp only [nodeSplit, e1, f1, bind_ok], ?_⟩
  intro hfd
  rcases f2 with rfl | ⟨_, h⟩
  · simp [Split.reset] at hfd
  · exact ⟨h.feature, h.nTrainL, h.nTrainR, fun ha => ⟨h.nValidL ha, h.nValidR ha⟩⟩

/-- C17, classification. For every dataset, node, weights, features, criterion, strategy and random draws: the split search
succeeds and the counts stored in the split found are the numbers of samples that the split sends to each side. -/
theorem C17_counts_classifier (R : Rng G) {argsort : List F → List Nat} (ha : ArgsortPerm argsort) (nClasses : Nat)
    (dirichlet : F) (cr : Criterion) {s : CatStrategy} (hs : StrategyOK nClasses s) {c : Ctx F} {D : Data F}
    (hD : Holds c D) {features train valid : List Nat} (hf : ∀ j ∈ features, j < D.d) (hf0 : features ≠ [])
    (htr : ∀ i ∈ train, i < D.n ∧ ClassLabel nClasses (D.y i))
    (hva : ∀ i ∈ valid, i < D.n ∧ ClassLabel nClasses (D.y i)) (hv : c.aggregation = true → valid ≠ []) (g : G) :
    ∃ sp g', nodeSplit (classifierTask R argsort nClasses dirichlet cr s) c features train valid g = .ok (sp, g') ∧
      (sp.found = true →
        let left := fun i => goesLeft sp (D.X i sp.feature)
        sp.feature ∈ features ∧
        sp.nTrainL = (train.filter left).length ∧ sp.nTrainR = (train.filter (fun i => !left i)).length ∧
        (c.aggregation = true →
          sp.nValidL = (valid.filter left).length ∧ sp.nValidR = (valid.filter (fun i => !left i)).length)) :=
  nodeSplit_counts (classifier_safe R ha nClasses dirichlet cr hs) hD hf hf0 htr hva hv g

/-- C17, regression. -/
theorem C17_counts_regressor {argsort : List F → List Nat} (ha : ArgsortPerm argsort) {c : Ctx F} {D : Data F}
    (hD : Holds c D) {features train valid : List Nat} (hf : ∀ j ∈ features, j < D.d) (hf0 : features ≠ [])
    (htr : ∀ i ∈ train, i < D.n) (hva : ∀ i ∈ valid, i < D.n) (hv : c.aggregation = true → valid ≠ []) (g : G) :
    ∃ sp g', nodeSplit (regressorTask argsort) c features train valid g = .ok (sp, g') ∧
      (sp.found = true →
        let left := fun i => goesLeft sp (D.X i sp.feature)
        sp.feature ∈ features ∧
        sp.nTrainL = (train.filter left).length ∧ sp.nTrainR = (train.filter (fun i => !left i)).length ∧
        (c.aggregation = true →
          sp.nValidL = (valid.filter left).length ∧ sp.nValidR = (valid.filter (fun i => !left i)).length)) :=
  nodeSplit_counts (regressor_safe ha) hD hf hf0 (fun i hi => ⟨htr i hi, trivial⟩) (fun i hi => ⟨hva i hi, trivial⟩) hv g

section Examples

attribute [local instance] toyNum

/-- A dataset of six rows with a numerical and a categorical column. -/
theorem toy_holds : ∃ (c : Ctx Int) (D : Data Int), Holds c D ∧ D.n = 6 ∧ D.d = 2 ∧ c.aggregation = true ∧
    c.minLeaf = 1 ∧ c.minSplit = 2 ∧ c.maxDepth = 10 ∧ c.maxFeatures = 2 ∧
    D = dataOf 6 [[0, 1, 2, 3, 1, 2], [2, 0, 1, 0, 2, 1]] [0, 1, 0, 1, 1, 0] [1, 1, 2, 1, 1, 1] := by
  obtain ⟨fba, _, h⟩ := holds_of_matrix (F := Int) (fun _ => 0) 6 [[0, 1, 2, 3, 1, 2], [2, 0, 1, 0, 2, 1]]
    [0, 1, 0, 1, 1, 0] [1, 1, 2, 1, 1, 1] (by norm_num) (by decide) (by decide) rfl rfl [false, true] rfl
  exact ⟨{ fba := fba, y := [0, 1, 0, 1, 1, 0], w := [1, 1, 2, 1, 1, 1], maxFeatures := 2, minSplit := 2, minLeaf := 1
           maxDepth := 10, aggregation := true, step := 1, isCategorical := [false, true] }, _, h _ rfl rfl rfl rfl,
    rfl, rfl, rfl, rfl, rfl, rfl, rfl, rfl⟩

/-- The hypotheses of C16 hold for a categorical split of part of that dataset. -/
example : ∃ (c : Ctx Int) (D : Data Int) (s : Split Int) (k : Work Nat), Holds c D ∧
    (s.isCat = true ∧ s.partition.Pairwise (· ≤ ·)) ∧ s.feature < D.d ∧ (1 ≤ 4 ∧ 4 ≤ k.partTrain.length) ∧
    (0 ≤ 2 ∧ 2 ≤ k.partValid.length) ∧ 3 ≤ k.leftBuf.length ∧ 3 ≤ k.rightBuf.length ∧
    ∀ i ∈ slice k.partTrain 1 4 ++ slice k.partValid 0 2, i < D.n := by
  obtain ⟨c, D, h, hn, hd, _⟩ := toy_holds
  refine ⟨c, D, { (Split.reset : Split Int) with isCat := true, feature := 1, partition := [0, 2] },
    { partTrain := [0, 3, 1, 5], partValid := [2, 4], leftBuf := [7, 7, 7], rightBuf := [8, 8, 8], pool := [], sampled := []
      rng := 0 }, h, ⟨rfl, by simp⟩, by rw [hd]; decide, by decide, by decide, by decide, by decide, ?_⟩
  rw [hn]; decide

/-- The hypotheses of C17 (classification, binary strategy). -/
example : ∃ (c : Ctx Int) (D : Data Int), Holds c D ∧ ArgsortPerm toyArgsort ∧ StrategyOK 2 .binary ∧
    (∀ j ∈ [1, 0], j < D.d) ∧ (∀ i ∈ [0, 1, 3, 5], i < D.n ∧ ClassLabel 2 (D.y i)) ∧
    (∀ i ∈ [2, 4], i < D.n ∧ ClassLabel 2 (D.y i)) ∧ c.aggregation = true := by
  obtain ⟨c, D, h, hn, hd, hagg, _, _, _, _, rfl⟩ := toy_holds
  exact ⟨c, _, h, toyArgsort_perm, by simp [StrategyOK], by decide,
    by unfold ClassLabel; decide, by unfold ClassLabel; decide, hagg⟩

/-- The hypotheses of C17 (regression). -/
example : ∃ (c : Ctx Int) (D : Data Int), Holds c D ∧ ArgsortPerm toyArgsort ∧
    (∀ j ∈ [1, 0], j < D.d) ∧ (∀ i ∈ [0, 1, 3, 5], i < D.n) ∧ ∀ i ∈ [2, 4], i < D.n := by
  obtain ⟨c, D, h, hn, hd, hagg, _, _, _, _, rfl⟩ := toy_holds
  exact ⟨c, _, h, toyArgsort_perm, by decide, by decide, by decide⟩

end Examples

end Verif
