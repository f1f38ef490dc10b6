import Verif.Spec.Describe
import Verif.Props.DatasetObj

/-! # C130: `describe_datasets` -/
namespace Verif

open Spec

section
variable {N C K : Type} [DecidableEq N] [LinearOrder C] [Field K] [DecidableEq K]

theorem featureNames_length (df : DFrame N C) (label : N) (b : Bool) : (featureNames df label b).length = countFeatures df label fun c => c.category == b := by
  unfold featureNames countFeatures
  rw [List.length_map, List.countP_eq_length_filter]

theorem countFeatures_add (df : DFrame N C) (label : N) :
    countFeatures df label (fun c => c.category) + countFeatures df label (fun c => !c.category) = countFeatures df label fun _ => true := by
  unfold countFeatures
  induction df with
  | nil => rfl
  | cons p l ih =>
    simp only [List.countP_cons]
    by_cases h : p.1 = label <;> cases hc : p.2.category <;> simp [h, hc] at ih ⊢ <;> omega

/-- A line is returned exactly if the dataset can be loaded and extracted; it describes this dataset. -/
theorem describeOne_spec (loader : M (LoadedDataset N C K)) (hp : ∀ d, loader = .ok d → PartsOK d.lib) (row : DescribeRow K) (h : describeOne loader = .ok row) : Describes loader row := by
  unfold describeOne at h
  cases loader with
  | error e => cases h
  | ok d =>
    replace h : (match (extractObj d.lib { d.cfg with oneHot := true, standardize := true } d.df d.n).run .init with
      | (.error e, _) => .error e
      | (.ok v, a) => .ok _) = Except.ok row := h
    have hfst := extractObj_fst d.lib { d.cfg with oneHot := true, standardize := true } d.df d.n DatasetAttrs.init
    cases hr : extract d.lib { d.cfg with oneHot := true, standardize := true } d.df d.n with
    | error e =>
      rcases hx : (extractObj d.lib { d.cfg with oneHot := true, standardize := true } d.df d.n).run DatasetAttrs.init with ⟨v, a⟩
      rw [hx, hr] at hfst
      dsimp only [Except.map] at hfst
      subst hfst
      rw [hx] at h
      cases h
    | ok r =>
      obtain ⟨fs, ntr, nte, cl, g, ⟨-, hc, hg⟩, ⟨s, tr, te, _, _, hs, -, -, -, -, rfl, rfl⟩, hsnd⟩ := extractObj_snd hr
      have hsnd := hsnd .init
      rcases hx : (extractObj d.lib { d.cfg with oneHot := true, standardize := true } d.df d.n).run DatasetAttrs.init with ⟨v, a⟩
      rw [hx, hr] at hfst
      rw [hx] at hsnd
      dsimp only [Except.map] at hfst hsnd
      subst hfst
      rw [hx] at h
      simp only [Except.ok.injEq] at h
      subst h
      obtain ⟨hperm, htr, hte⟩ := hp d rfl _ _ _ _ hs
      have hlen := hperm.length_eq
      rw [List.length_append, List.length_range] at hlen
      have hcat : (featureNames d.df d.cfg.label true).length = countFeatures d.df d.cfg.label fun c => c.category := by
        rw [featureNames_length]
        simp
      have hcont : (featureNames d.df d.cfg.label false).length = countFeatures d.df d.cfg.label fun c => !c.category := by
        rw [featureNames_length]
        simp
      subst hsnd
      refine ⟨d, r, s, tr, te, rfl, hr, hs, rfl, rfl, rfl, rfl, rfl, hlen, List.length_pos_iff.2 htr, List.length_pos_iff.2 hte, ?_, ?_, ?_, rfl, ?_, fun hreg => ?_, fun hreg => ?_⟩
      · exact congrArg some hcat
      · exact congrArg some hcont
      · show some ((featureNames d.df d.cfg.label true).length + (featureNames d.df d.cfg.label false).length) = some _
        rw [hcat, hcont, countFeatures_add]
      · rw [hc]
        cases d.cfg.regression <;> rfl
      · simp only [hreg] at hg ⊢
        simp [hg]
      · simp [hreg, DatasetAttrs.init]

theorem mapM_describe (loaders : List (M (LoadedDataset N C K))) (rows : List (DescribeRow K)) :
    loaders.mapM describeOne = .ok rows ↔ List.Forall₂ (fun l r => describeOne l = .ok r) loaders rows := by
  induction loaders generalizing rows with
  | nil =>
    constructor
    · intro h
      cases h
      exact .nil
    · intro h
      cases h
      rfl
  | cons l ls ih =>
    rw [List.mapM_cons]
    constructor
    · intro h
      cases h1 : describeOne l with
      | error e => rw [h1] at h; cases h
      | ok r =>
        rw [h1] at h
        cases h2 : ls.mapM describeOne with
        | error e => simp [h2, bind, Except.bind] at h
        | ok rs =>
          simp only [h2, bind, Except.bind, pure, Except.pure, Except.ok.injEq] at h
          subst h
          exact .cons h1 ((ih rs).1 h2)
    · intro h
      cases h with
      | cons h1 h2 =>
        rw [h1, (ih _).2 h2]
        rfl

/-- C130, the lines: if `describe_datasets` returns, it has one line for each loader of the chosen list, in the same order, and each describes its dataset. The columns "n_classes" and "scaled_gini" are there exactly for
classification. -/
theorem C130_lines (incl : String) (cls reg : List (M (LoadedDataset N C K))) (hp : ∀ l ∈ cls ++ reg, ∀ d, l = .ok d → PartsOK d.lib) (b : Bool) (rows : List (DescribeRow K))
    (h : describeDatasets incl cls reg = .ok (b, rows)) :
    (incl = "small-classification" ∧ b = true ∧ List.Forall₂ Describes cls rows) ∨ (incl = "small-regression" ∧ b = false ∧ List.Forall₂ Describes reg rows) := by
  have key : ∀ ls : List (M (LoadedDataset N C K)), (∀ l ∈ ls, ∀ d, l = .ok d → PartsOK d.lib) → ∀ rows, List.Forall₂ (fun l r => describeOne l = .ok r) ls rows → List.Forall₂ Describes ls rows := by
    intro ls hls rows hf
    induction hf with
    | nil => exact .nil
    | cons h1 _ ih => exact .cons (describeOne_spec _ (hls _ (List.mem_cons_self ..)) _ h1) (ih fun l hl => hls l (List.mem_cons_of_mem _ hl))
  unfold describeDatasets at h
  split_ifs at h with h1 h2
  · cases hm : cls.mapM describeOne with
    | error e => rw [hm] at h; cases h
    | ok rs =>
      rw [hm] at h
      cases h
      exact .inl ⟨h1, rfl, key _ (fun l hl => hp l (List.mem_append_left _ hl)) _ ((mapM_describe _ _).1 hm)⟩
  · cases hm : reg.mapM describeOne with
    | error e => rw [hm] at h; cases h
    | ok rs =>
      rw [hm] at h
      cases h
      exact .inr ⟨h2, rfl, key _ (fun l hl => hp l (List.mem_append_right _ hl)) _ ((mapM_describe _ _).1 hm)⟩

theorem describeOne_ok (l : M (LoadedDataset N C K)) : (∃ row, describeOne l = .ok row) ↔ ∃ d r, l = .ok d ∧ extract d.lib { d.cfg with oneHot := true, standardize := true } d.df d.n = .ok r := by
  unfold describeOne
  cases l with
  | error e =>
    constructor
    · rintro ⟨_, h⟩
      cases h
    · rintro ⟨_, _, h, -⟩
      cases h
  | ok d =>
    have hfst := extractObj_fst d.lib { d.cfg with oneHot := true, standardize := true } d.df d.n DatasetAttrs.init
    rcases hx : (extractObj d.lib { d.cfg with oneHot := true, standardize := true } d.df d.n).run DatasetAttrs.init with ⟨v, a⟩
    rw [hx] at hfst
    dsimp only at hfst
    cases hr : extract d.lib { d.cfg with oneHot := true, standardize := true } d.df d.n with
    | error e =>
      rw [hr] at hfst
      dsimp only [Except.map] at hfst
      subst hfst
      constructor
      · rintro ⟨row, h⟩
        simp [hx, bind, Except.bind] at h
      · rintro ⟨_, r, h, h'⟩
        cases h
        rw [hr] at h'
        cases h'
    | ok r =>
      rw [hr] at hfst
      dsimp only [Except.map] at hfst
      subst hfst
      refine ⟨fun _ => ⟨d, r, rfl, hr⟩, fun _ => ?_⟩
      simp [hx, bind, Except.bind]

/-- C130, when it returns: for the two supported values, exactly if every dataset of the list can be loaded and extracted; for others it raises ValueError. -/
theorem C130_returns (cls reg : List (M (LoadedDataset N C K))) :
    ((∃ rows, describeDatasets "small-classification" cls reg = .ok (true, rows)) ↔
      ∀ l ∈ cls, ∃ d r, l = .ok d ∧ extract d.lib { d.cfg with oneHot := true, standardize := true } d.df d.n = .ok r) ∧
    ((∃ rows, describeDatasets "small-regression" cls reg = .ok (false, rows)) ↔
      ∀ l ∈ reg, ∃ d r, l = .ok d ∧ extract d.lib { d.cfg with oneHot := true, standardize := true } d.df d.n = .ok r) ∧
    ∀ incl, incl ≠ "small-classification" → incl ≠ "small-regression" → describeDatasets incl cls reg = .error .valueError := by
  have key : ∀ ls : List (M (LoadedDataset N C K)), (∃ rows, ls.mapM describeOne = .ok rows) ↔
      ∀ l ∈ ls, ∃ d r, l = .ok d ∧ extract d.lib { d.cfg with oneHot := true, standardize := true } d.df d.n = .ok r := by
    intro ls
    simp only [mapM_describe, ← describeOne_ok]
    induction ls with
    | nil => exact ⟨fun _ l hl => (by cases hl), fun _ => ⟨[], .nil⟩⟩
    | cons l ls ih =>
      constructor
      · rintro ⟨_, h⟩
        cases h with
        | cons h1 h2 =>
          intro l' hl'
          rcases List.mem_cons.1 hl' with rfl | hl'
          · exact ⟨_, h1⟩
          · exact ih.1 ⟨_, h2⟩ l' hl'
      · intro h
        obtain ⟨row, h1⟩ := h l (List.mem_cons_self ..)
        obtain ⟨rows, h2⟩ := ih.2 fun l' hl' => h l' (List.mem_cons_of_mem _ hl')
        exact ⟨row :: rows, .cons h1 h2⟩
  refine ⟨?_, ?_, fun incl h1 h2 => ?_⟩
  · rw [← key]
    unfold describeDatasets
    rw [if_pos rfl]
    cases cls.mapM describeOne <;> simp [bind, Except.bind, pure, Except.pure]
  · rw [← key]
    unfold describeDatasets
    rw [if_neg (by decide), if_pos rfl]
    cases reg.mapM describeOne <;> simp [bind, Except.bind, pure, Except.pure]
  · unfold describeDatasets
    rw [if_neg h1, if_neg h2]

end

/-- The dataset of C72 with its split, as a loader returns it. -/
noncomputable def describedDataset : LoadedDataset Nat Nat ℝ := ⟨"example", dataLib, dataCfg false, dataFrame, 4⟩

example : ∀ l ∈ [Except.ok describedDataset, (.ok describedDataset : M (LoadedDataset Nat Nat ℝ))], ∃ d r, l = .ok d ∧ extract d.lib { d.cfg with oneHot := true, standardize := true } d.df d.n = .ok r := by
  intro l hl
  have : l = .ok describedDataset := by simpa using hl
  obtain ⟨r, hr⟩ := dataCfg_extract true
  exact ⟨describedDataset, r, this, hr⟩

example : ∃ row, describeOne (.ok describedDataset) = .ok row ∧ row.nColumns = 3 ∧ row.nCategorical = some 1 ∧ row.nFeatures = some 2 ∧ row.nTrain = some 3 ∧ row.nClasses = some 2 := ⟨_, rfl, rfl, rfl, rfl, rfl, rfl⟩

end Verif
