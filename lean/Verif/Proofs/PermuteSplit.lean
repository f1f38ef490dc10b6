import Verif.Proofs.Permute
import Verif.Proofs.SplitSearch
import Verif.Proofs.SplitIndices

set_option linter.unusedSectionVars false

/-! The search of splits with permuted bins. -/
namespace Verif.Bins

open Spec

variable {F Y P G : Type} [Num F] {π : Nat → Equiv.Perm Nat} {c c' : Ctx F} {T : Task F Y P G}

/-- Related splits during the search. -/
structure SplitP (π : Nat → Equiv.Perm Nat) (s s' : Split F) : Prop where
  eq : s' = { s with bins := s'.bins, binThreshold := s'.binThreshold }
  bins : s.found = true → s'.bins = s.bins.map (π s.feature) ∧ s'.binThreshold = π s.feature s.binThreshold
  num : s.found = true → s.isCat = false → π s.feature = 1
  none : s.found = false → s' = s ∧ s.isCat = false

theorem SplitP.reset : SplitP (F := F) π Split.reset Split.reset :=
  ⟨rfl, fun h => absurd h (by simp [Split.reset]), fun h => absurd h (by simp [Split.reset]), fun _ => ⟨rfl, rfl⟩⟩

theorem map_one (l : List Nat) : l.map ((1 : Equiv.Perm Nat) : Nat → Nat) = l := List.map_id l

theorem tryBins_perm (hc : CtxP π c c') {nc nc' : NodeCtx F Y P} (hv : nc'.nValid = nc.nValid) {h h' : Hist F Y} {f : Nat}
    (hh : HistP (π f) h h') {isCat : Bool} (hcat : isCat = false → π f = 1) (cumsum ordered : List Nat) (l : List Nat) (a : TryAcc F Y)
    {best best' : Split F} (hb : SplitP π best best') :
    SameResult (SplitP π) (tryBins T c nc h f isCat cumsum ordered l a best)
      (tryBins T c' nc' h' f isCat cumsum (ordered.map (π f)) (l.map (π f)) a best') := by
  induction l generalizing a best best' with
  | nil => exact SameResult.ok hb
  | cons bin l ih =>
    simp only [List.map_cons, tryBins]
    rw [hh.nTrain.rd, hh.wTrain.rd, hh.ySum.rd, hh.nValid.rd, hv, hc.maxNBins, show c'.minLeaf = c.minLeaf by rw [hc.eq],
      show c'.aggregation = c.aggregation by rw [hc.eq], show best'.gain = best.gain by rw [hb.eq], List.length_map]
    refine SameResult.same.bind ?_
    rintro n _ rfl
    refine SameResult.same.bind ?_
    rintro w _ rfl
    refine SameResult.same.bind ?_
    rintro y _ rfl
    refine SameResult.same.bind ?_
    rintro nR _ rfl
    refine SameResult.bind (S := fun x y => x = y) ?_ ?_
    · cases isCat with
      | true => exact SameResult.same
      | false =>
        rw [hcat rfl]
        exact SameResult.same
    rintro vL _ rfl
    refine SameResult.same.bind ?_
    rintro vR _ rfl
    split
    · exact ih _ hb
    split
    · exact SameResult.ok hb
    refine SameResult.same.bind ?_
    rintro ⟨iL, iR⟩ _ rfl
    simp only
    split
    · split
      · refine ih _ ⟨?_, fun _ => ⟨rfl, rfl⟩, fun _ h => hcat h, fun h => absurd h (by simp)⟩
        have := congrArg Split.partition hb.eq
        simp only at this
        simp only [this]
      · rfl
    · exact ih _ hb

theorem tryOrder_perm (hT : TaskP T) (hc : CtxP π c c') {nc nc' : NodeCtx F Y P} {fs : List Nat} (hn : NcP π fs nc nc') {h h' : Hist F Y} {f : Nat}
    (hh : HistP (π f) h h') {isCat : Bool} (hcat : isCat = false → π f = 1) (cumsum ordered : List Nat)
    {best best' : Split F} (hb : SplitP π best best') :
    SameResult (SplitP π) (tryOrder T c nc h f isCat cumsum ordered best) (tryOrder T c' nc' h' f isCat cumsum (ordered.map (π f)) best') := by
  unfold tryOrder
  rw [show nc'.nTrain = nc.nTrain by rw [hn.eq], show nc'.wTrain = nc.wTrain by rw [hn.eq],
    hh.ySum.perm.foldl_eq' (fun x _ y _ z => hT.comm z x y) T.zeroY, ← List.map_dropLast]
  exact tryBins_perm hc (by rw [hn.eq]) hh hcat cumsum ordered _ _ hb

theorem findBestAlong_perm (hT : TaskP T) (hc : CtxP π c c') {nc nc' : NodeCtx F Y P} {fs : List Nat} (hn : NcP π fs nc nc') {h h' : Hist F Y} {f : Nat}
    (hh : HistP (π f) h h') {best best' : Split F} (hb : SplitP π best best') (g : G) :
    SameResult (fun x y => SplitP π x.1 y.1 ∧ y.2 = x.2) (findBestAlong T c nc h f best g) (findBestAlong T c' nc' h' f best' g) := by
  unfold findBestAlong
  rw [show c'.isCategorical = c.isCategorical by rw [hc.eq], show c'.aggregation = c.aggregation by rw [hc.eq], hh.nTrain.1]
  cases hr : rd c.isCategorical f with
  | error e => rfl
  | ok isCat =>
    rw [bind_ok, bind_ok]
    cases isCat with
    | true =>
      simp only [if_true]
      rw [hh.neTrain]
      refine (hT.orders (π f) h.neTrain h.ySum h'.ySum g hh.ySum).bind ?_
      rintro ⟨os, g'⟩ _ rfl
      simp only
      refine SameResult.bind (S := SplitP π) ?_ fun b b' hb => SameResult.pure ⟨hb, rfl⟩
      induction os generalizing best best' with
      | nil => exact SameResult.pure hb
      | cons o os ih =>
        rw [List.map_cons, List.foldlM_cons, List.foldlM_cons]
        exact (tryOrder_perm hT hc hn hh (by simp) _ o hb).bind fun b b' hb => ih hb
    | false =>
      have h1 : π f = 1 := hc.nonCat f (rd_ok.1 hr)
      obtain rfl : h' = h := HistP.one (h1 ▸ hh)
      simp only [Bool.false_eq_true, if_false]
      refine SameResult.same.bind ?_
      rintro cs _ rfl
      refine SameResult.bind (S := SplitP π) ?_ fun b b' hb => SameResult.pure ⟨hb, rfl⟩
      have := tryOrder_perm hT hc hn hh (isCat := false) (fun _ => h1) cs (sortNat h'.neTrain) hb
      rwa [h1, map_one] at this

/-! ### The set of categories sent left -/

/-- The permuted set gives the same answers for permuted bins. -/
def PartP (σ : Equiv.Perm Nat) (p p' : List Nat) : Prop := ∀ b, isBinInPartition (σ b) p' = isBinInPartition b p

theorem PartP.nil (σ : Equiv.Perm Nat) : PartP σ [] [] := fun b => by simp [isBinInPartition, partSearch]

theorem PartP.sort (σ : Equiv.Perm Nat) (l : List Nat) : PartP σ (sortNat l) (sortNat (l.map σ)) := by
  intro b
  rw [isBinInPartition_spec _ (sortNat_sorted _), isBinInPartition_spec _ (sortNat_sorted _)]
  congr 1
  simp only [mem_sortNat, List.mem_map, σ.injective.eq_iff, exists_eq_right]

theorem partitionSize_perm (σ : Equiv.Perm Nat) (bins : List Nat) (thr : Nat) (fuel i : Nat) :
    partitionSize (bins.map σ) (σ thr) fuel i = partitionSize bins thr fuel i := by
  induction fuel generalizing i with
  | zero => rfl
  | succ fuel ih =>
    unfold partitionSize
    unfold rd
    rw [List.getElem?_map]
    cases bins[i]? with
    | none => rfl
    | some b =>
      simp only [Option.map_some, bind_ok, ne_eq, σ.injective.eq_iff, ih]

/-- Related splits after the search. -/
structure SplitQ (π : Nat → Equiv.Perm Nat) (s s' : Split F) : Prop where
  eq : s' = { s with bins := s'.bins, binThreshold := s'.binThreshold, partition := s'.partition }
  none : s.found = false → s' = s ∧ s.isCat = false
  num : s.found = true → s.isCat = false → s'.binThreshold = s.binThreshold ∧ π s.feature = 1
  cat : s.found = true → s.isCat = true → s'.partition.length = s.partition.length ∧ PartP (π s.feature) s.partition s'.partition

theorem findNodeSplit_perm (hT : TaskP T) (hc : CtxP π c c') {nc nc' : NodeCtx F Y P} {fs : List Nat} (hn : NcP π fs nc nc') (g : G) :
    SameResult (fun x y => SplitQ π x.1 y.1 ∧ y.2 = x.2) (findNodeSplit T c nc fs g) (findNodeSplit T c' nc' fs g) := by
  unfold findNodeSplit
  refine SameResult.bind (S := fun (x y : Split F × G) => SplitP π x.1 y.1 ∧ y.2 = x.2) ?_ ?_
  · refine SameResult.foldlM_mem ?_ ⟨SplitP.reset, rfl⟩
    rintro ⟨s, g⟩ ⟨s', g'⟩ ⟨i, j⟩ hx ⟨hs, hg⟩
    simp only at hs hg
    subst hg
    have hij : fs[i]? = some j := by
      obtain ⟨k, hk, e⟩ := List.getElem_of_mem hx
      rw [List.getElem_zip] at e
      simp only [List.getElem_range, Prod.mk.injEq] at e
      obtain ⟨rfl, rfl⟩ := e
      exact List.getElem?_eq_getElem _
    simp only
    refine SameResult.bind (rd_sim (S := HistP (π j)) (by rw [hn.hists.len, hn.hists.len']) fun x y hx hy => hn.hists.at' i j x y hij hx hy) ?_
    intro h h' hh
    have : h'.neTrain.length = h.neTrain.length := by rw [hh.neTrain, List.length_map]
    rw [this]
    split
    · exact findBestAlong_perm hT hc hn hh hs g'
    · exact SameResult.pure ⟨hs, rfl⟩
  · rintro ⟨s, g⟩ ⟨s', g'⟩ ⟨hs, hg⟩
    simp only at hs hg ⊢
    subst hg
    rw [show s'.found = s.found by rw [hs.eq], show s'.isCat = s.isCat by rw [hs.eq]]
    split
    · rename_i hfc
      rw [Bool.and_eq_true] at hfc
      obtain ⟨hb, ht⟩ := hs.bins hfc.1
      unfold computeBinPartition
      rw [hc.maxNBins, hb, ht, List.length_map, partitionSize_perm]
      cases partitionSize s.bins s.binThreshold (s.bins.length + 1) 0 with
      | error e => rfl
      | ok n =>
        simp only [bind_ok]
        split
        · simp only [pure_bind]
          refine SameResult.pure ⟨⟨?_, ?_, ?_, ?_⟩, rfl⟩
          · simp only
            have := hs.eq
            rw [hs.eq]
          · intro h; rw [hfc.1] at h; cases h
          · intro _ h
            have h : s.isCat = false := h
            rw [hfc.2] at h; cases h
          · intro _ _
            simp only
            rw [← List.map_take]
            refine ⟨?_, PartP.sort _ _⟩
            rw [(sortNat_perm _).length_eq, (sortNat_perm _).length_eq, List.length_map]
        · rfl
    · rename_i hfc
      refine SameResult.pure ⟨⟨?_, hs.none, ?_, ?_⟩, rfl⟩
      · have := hs.eq
        have h2 := congrArg Split.partition this
        simp only at h2 ⊢
        rw [h2]; exact this
      · intro h1 h2
        have h3 := hs.num h1 h2
        exact ⟨by have := (hs.bins h1).2; rw [h3] at this; exact this, h3⟩
      · intro h1 h2
        have h1 : s.found = true := h1
        have h2 : s.isCat = true := h2
        exact absurd (by simp [h1, h2]) hfc

theorem splitTest_perm {s s' : Split F} (h : SplitQ π s s') (hf : s.found = true) (b : Nat) : splitTest s' (π s.feature b) = splitTest s b := by
  unfold splitTest
  rw [show s'.isCat = s.isCat by rw [h.eq]]
  cases hc : s.isCat with
  | true => exact (h.cat hf hc).2 b
  | false =>
    obtain ⟨h1, h2⟩ := h.num hf hc
    rw [h1, h2]
    rfl

theorem splitSide_perm (hc : CtxP π c c') {s s' : Split F} (h : SplitQ π s s') (hf : s.found = true) (part lb rb : List Nat)
    (hp : ∀ i ∈ part, i < c.fba.nSamples) (start stop : Nat) :
    splitSide c' s' part lb rb start stop = splitSide c s part lb rb start stop := by
  unfold splitSide
  rw [show s'.feature = s.feature by rw [h.eq]]
  congr 1
  refine (SameResult.eq (SameResult.foldlM_mem (S := fun x y => x = y) ?_ rfl)).symm
  rintro ⟨lb, rb, nl, nr⟩ _ i hi rfl
  simp only
  refine (hc.fba.vals i s.feature (hp i (slice_mem hi))).bind ?_
  rintro b _ rfl
  rw [splitTest_perm h hf]
  exact SameResult.same

theorem splitIndices_perm (hc : CtxP π c c') {s s' : Split F} (h : SplitQ π s s') (hf : s.found = true) (k : Work G)
    (ht : ∀ i ∈ k.partTrain, i < c.fba.nSamples) (hv : ∀ i ∈ k.partValid, i < c.fba.nSamples) (sT eT sV eV : Nat) :
    splitIndices c' s' k sT eT sV eV = splitIndices c s k sT eT sV eV := by
  unfold splitIndices
  rw [splitSide_perm hc h hf _ _ _ ht]
  refine bind_congr fun x => ?_
  obtain ⟨pt, lb, rb, posT⟩ := x
  simp only
  rw [splitSide_perm hc h hf _ _ _ hv]

theorem splitIndices_rows {c : Ctx F} {s : Split F} {k k' : Work G} {sT eT sV eV a b : Nat} (h : splitIndices c s k sT eT sV eV = .ok (k', a, b)) :
    (∀ i ∈ k'.partTrain, i ∈ k.partTrain) ∧ ∀ i ∈ k'.partValid, i ∈ k.partValid := by
  unfold splitIndices at h
  rw [bind_eq_ok] at h
  obtain ⟨⟨pt, lb, rb, posT⟩, h1, h⟩ := h
  rw [bind_eq_ok] at h
  obtain ⟨⟨pv, lb', rb', posV⟩, h2, h⟩ := h
  injection h with h
  obtain ⟨rfl, -⟩ := Prod.mk.inj h
  exact ⟨fun i hi => splitSide_mem h1 hi, fun i hi => splitSide_mem h2 hi⟩

end Verif.Bins
