import Verif.Proofs.DatasetObj
import Verif.Props.Datasets

/-! # C128: extracting a dataset again -/
namespace Verif

open Spec

section
variable {N C K : Type} [DecidableEq N] [LinearOrder C] [Field K] [DecidableEq K]

/-- C128, the values: what a call of `extract` returns or raises does not depend on the calls before it, and it is what C72 to C75 speak about. -/
theorem C128_returns (history : List (ExtractCall N C K)) (c : ExtractCall N C K) :
    (c.run (afterExtracts history)).1 = (c.run .init).1 ∧ (c.run .init).1 = (extract c.lib c.cfg c.df c.n).map fun r => (r.xTrain, r.xTest, r.yTrain, r.yTest) :=
  ⟨(extractObj_fst ..).trans (extractObj_fst ..).symm, extractObj_fst ..⟩

/-- C128, the attributes: after a call that returns, they are those of a new object on which only this call was made, except that `categorical_features_` can be old if no categorical column is coded by numbers, and
`classes_`, `n_classes_` and `scaled_gini_` can be old for regression. -/
theorem C128_attributes_partial (history : List (ExtractCall N C K)) (c : ExtractCall N C K) (v : List (List K) × List (List K) × Targets C × Targets C) (h : (c.run .init).1 = .ok v) :
    { (c.run (afterExtracts history)).2 with mask := (c.run .init).2.mask, classes := (c.run .init).2.classes, scaledGini := (c.run .init).2.scaledGini } = (c.run .init).2 ∧
    (c.ordinal → (c.run (afterExtracts history)).2.mask = (c.run .init).2.mask) ∧
    (c.cfg.regression = false → (c.run (afterExtracts history)).2.classes = (c.run .init).2.classes ∧ (c.run (afterExtracts history)).2.scaledGini = (c.run .init).2.scaledGini) := by
  obtain ⟨r, hr, -⟩ := extract_of_run h
  obtain ⟨fs, ntr, nte, cl, g, -, -, hs⟩ := extractObj_snd hr
  unfold ExtractCall.run
  rw [hs, hs]
  refine ⟨rfl, fun ho => ?_, fun hc => ?_⟩
  · have := (ordinal_iff c).2 ho
    simp only [this, if_true]
  · simp [hc]

/-- C128 in part: if the calls before did not code categorical columns by numbers, or this one does so too, and they were not classification, or this one is so too, then all attributes are those of a new object.
In particular `extract` can be repeated with other seeds, sizes of the test set and other data, as long as `task` and `one_hot_encode` stay the same and the categorical columns do not vanish. -/
theorem C128_again_partial (history : List (ExtractCall N C K)) (c : ExtractCall N C K) (v : List (List K) × List (List K) × Targets C × Targets C) (h : (c.run .init).1 = .ok v)
    (ho : ∀ d ∈ history, d.ordinal → c.ordinal) (hr : ∀ d ∈ history, d.cfg.regression = false → c.cfg.regression = false) : c.run (afterExtracts history) = c.run .init := by
  refine Prod.ext (C128_returns history c).1 ?_
  obtain ⟨h1, h2, h3⟩ := C128_attributes_partial history c v h
  obtain ⟨r, hx, -⟩ := extract_of_run h
  obtain ⟨fs, ntr, nte, cl, g, -, -, hs⟩ := extractObj_snd hx
  have hm : (c.run (afterExtracts history)).2.mask = (c.run .init).2.mask := by
    by_cases hc : c.ordinal
    · exact h2 hc
    · unfold ExtractCall.run
      rw [hs, hs]
      dsimp only
      rw [if_neg fun h => hc ((ordinal_iff c).1 h), if_neg fun h => hc ((ordinal_iff c).1 h)]
      exact afterExtracts_mask history fun d hd hd' => hc (ho d hd hd')
  have hk : (c.run (afterExtracts history)).2.classes = (c.run .init).2.classes ∧ (c.run (afterExtracts history)).2.scaledGini = (c.run .init).2.scaledGini := by
    cases hc : c.cfg.regression with
    | false => exact h3 hc
    | true =>
      have := afterExtracts_classes history fun d hd => by
        cases hd' : d.cfg.regression with
        | true => rfl
        | false => exact absurd (hr d hd hd') (by rw [hc]; decide)
      unfold ExtractCall.run
      rw [hs, hs]
      simp only [hc, if_true]
      exact this
  rw [← hm, ← hk.1, ← hk.2] at h1
  exact h1

/-- The attributes of a new object after a call that returns describe what it returned: the numbers of rows are those of the two parts of the split, and the transformer turns these parts into the two matrices. -/
theorem C128_describe (c : ExtractCall N C K) (r : Extracted N C K) (h : extract c.lib c.cfg c.df c.n = .ok r) :
    (c.run .init).2.nSamples = some c.n ∧ (c.run .init).2.columns = some r.columns ∧ (c.run .init).2.nColumns = some r.xTrain.length ∧ (c.run .init).2.mask = r.mask ∧
      (c.run .init).2.classes = r.classes ∧ (c.cfg.regression = false → (c.run .init).2.scaledGini = some r.scaledGini) ∧
    ∃ s tr te d dt fs, c.lib.split c.n s = .ok (tr, te) ∧ (c.run .init).2.nTrain = some tr.length ∧ (c.run .init).2.nTest = some te.length ∧ (c.run .init).2.transformer = some fs ∧
      c.df.rows tr = .ok d ∧ c.df.rows te = .ok dt ∧ transformFrame c.lib c.cfg.drop fs d = .ok r.xTrain ∧ transformFrame c.lib c.cfg.drop fs dt = .ok r.xTest := by
  obtain ⟨fs, ntr, nte, cl, g, ⟨hm, hc, hg⟩, ⟨s, tr, te, d, dt, h1, h2, h3, h4, h5, rfl, rfl⟩, hs⟩ := extractObj_snd h
  unfold ExtractCall.run
  rw [hs, hm, hc, hg]
  refine ⟨rfl, rfl, rfl, ?_, rfl, fun hr => ?_, s, tr, te, d, dt, fs, h1, rfl, rfl, rfl, h2, h3, h4, h5⟩
  · dsimp only
    split_ifs <;> rfl
  · simp [hr]

/-- C128 fails: when `one_hot_encode` is set to True after a call with categorical columns coded by numbers, `categorical_features_` keeps the mask of the earlier columns, which marks some column as categorical; a new
object has None. -/
theorem C128_mask_violated (a c : ExtractCall N C K) (va vc : List (List K) × List (List K) × Targets C × Targets C) (ha : (a.run .init).1 = .ok va) (hc : (c.run .init).1 = .ok vc) (ho : a.ordinal)
    (hh : c.cfg.oneHot = true) : (c.run .init).2.mask = none ∧ ∃ m, (c.run (afterExtracts [a])).2.mask = some m ∧ true ∈ m := by
  obtain ⟨r, hr, -⟩ := extract_of_run hc
  obtain ⟨_, _, _, _, _, -, -, hs⟩ := extractObj_snd hr
  obtain ⟨r', hr', -⟩ := extract_of_run ha
  obtain ⟨_, _, _, _, _, ⟨hm, -⟩, -, hs'⟩ := extractObj_snd hr'
  have hn : ¬ c.ordinal := fun h => by rw [h.1] at hh; cases hh
  have hn' : ¬ (!c.cfg.oneHot && decide (0 < (featureNames c.df c.cfg.label true).length)) = true := fun h => hn ((ordinal_iff c).1 h)
  have ho' := (ordinal_iff a).2 ho
  rw [if_pos ho'] at hm
  have hp : 0 < (featureNames a.df a.cfg.label true).length := by
    rw [Bool.and_eq_true, decide_eq_true_eq] at ho'
    exact ho'.2
  refine ⟨?_, categoricalMask a.df a.cfg.label, ?_, List.mem_append.2 (Or.inr (List.mem_replicate.2 ⟨hp.ne', rfl⟩))⟩
  · unfold ExtractCall.run
    rw [hs]
    dsimp only
    rw [if_neg hn']
    rfl
  · change (c.run (a.run .init).2).2.mask = _
    unfold ExtractCall.run
    rw [hs, hs']
    dsimp only
    rw [if_neg hn', if_pos ho']
    exact hm

end

/-- The categories of the example of C72, coded by numbers and then one-hot. -/
noncomputable def extractCall (oneHot : Bool) : ExtractCall Nat Nat ℝ := ⟨dataLib, dataCfg oneHot, dataFrame, 4⟩

theorem extractCall_ok (oneHot : Bool) : ∃ v, ((extractCall oneHot).run .init).1 = .ok v := by
  obtain ⟨r, hr⟩ := dataCfg_extract oneHot
  refine ⟨(r.xTrain, r.xTest, r.yTrain, r.yTest), (C128_returns [] (extractCall oneHot)).2.trans ?_⟩
  unfold extractCall
  rw [hr]
  rfl

theorem extractCall_ordinal : (extractCall false).ordinal := ⟨rfl, (2, ⟨true, [5, 6, 7, 5]⟩), by simp [extractCall, dataFrame], by simp [extractCall, dataCfg, fromDtype], rfl⟩

/-- After both calls there are three columns, but the mask has two entries. -/
example : ((extractCall true).run (afterExtracts [extractCall false])).2.nColumns = some 3 ∧
    ((extractCall true).run (afterExtracts [extractCall false])).2.mask = some [false, true] := ⟨rfl, rfl⟩

example : ((extractCall true).run .init).2.mask = none ∧ ∃ m, ((extractCall true).run (afterExtracts [extractCall false])).2.mask = some m ∧ true ∈ m :=
  have ⟨va, ha⟩ := extractCall_ok false
  have ⟨vc, hc⟩ := extractCall_ok true
  C128_mask_violated _ _ va vc ha hc extractCall_ordinal rfl

/-- The other way round, all is as if the second call were the first one. -/
example : (extractCall false).run (afterExtracts [extractCall true, extractCall false, extractCall true]) = (extractCall false).run .init :=
  have ⟨v, h⟩ := extractCall_ok false
  C128_again_partial _ _ v h (fun _ _ _ => extractCall_ordinal) fun _ _ _ => rfl

end Verif
