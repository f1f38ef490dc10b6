import Verif.Spec.Checks
import Verif.Proofs.Encoder

/-! # C10, C11: column typing -/
namespace Verif

open Spec

/-- C10 for dataframe columns. Missing (see `C10_violated_frame`): a text column declared numerical. -/
theorem C10_frame_column_partial (kind : Kind) (decl : Option Bool) (nunique catMin : Nat)
    (hdecl : decl = some false → kind = .uif ∨ kind = .other) :
    (kind = .other → isSeriesCategorical kind decl nunique catMin = .error .valueError) ∧
    (kind ≠ .other → ∃ t, isSeriesCategorical kind decl nunique catMin = .ok t ∧
      (t ≠ .numerical ↔ ShouldBeCategorical kind decl nunique catMin)) := by
  constructor
  · rintro rfl; simp [isSeriesCategorical]
  · intro hk
    rcases decl with _ | _ | _ <;> cases kind <;>
      simp_all [isSeriesCategorical, ShouldBeCategorical]
    split_ifs <;> simp_all

example : (some false = some false → Kind.uif = .uif ∨ Kind.uif = .other) ∧ Kind.uif ≠ .other := by simp

/-- C10 is violated for dataframes: a text column that is declared numerical becomes categorical, without error. -/
theorem C10_violated_frame (nunique catMin : Nat) :
    isSeriesCategorical .bOSU (some false) nunique catMin = .ok .toCategory ∧
    ¬ ShouldBeCategorical .bOSU (some false) nunique catMin := by
  simp [isSeriesCategorical, ShouldBeCategorical]

/-- C10 for array columns. Missing (see `C10_violated_array`): undeclared columns of an object array with
many distinct values that look like numbers. -/
theorem C10_array_column_partial (kind : Kind) (decl : Option Bool) (nunique catMin : Nat) (castable : Bool)
    (hcat : kind ≠ .category)
    (hundecl : decl = none → kind = .bOSU → castable = true → nunique ≤ catMin) :
    (kind = .other → arrayColCategorical kind decl nunique catMin castable = .error .valueError) ∧
    (kind ≠ .other → decl = some false → kind = .bOSU → castable = false →
      arrayColCategorical kind decl nunique catMin castable = .error .valueError) ∧
    (kind ≠ .other → ¬ (decl = some false ∧ kind = .bOSU ∧ castable = false) →
      ∃ t, arrayColCategorical kind decl nunique catMin castable = .ok t ∧
        (t = true ↔ ShouldBeCategorical kind decl nunique catMin)) := by
  refine ⟨?_, ?_, ?_⟩
  · rintro rfl; simp [arrayColCategorical]
  · rintro _ rfl rfl rfl; simp [arrayColCategorical]
  · intro hk hd
    rcases decl with _ | _ | _ <;> cases kind <;> cases castable <;>
      simp_all [arrayColCategorical, ShouldBeCategorical] <;> omega

example : Kind.bOSU ≠ .category ∧ ((none : Option Bool) = none → Kind.bOSU = .bOSU → true = true → 3 ≤ 5) := by simp

/-- C10 is violated for object, text and boolean arrays: an undeclared column becomes numerical when it has more than
`cat_min_categories` distinct values that can all be read as numbers. -/
theorem C10_violated_array (catMin : Nat) :
    arrayColCategorical .bOSU none (catMin + 1) catMin true = .ok false ∧
    ShouldBeCategorical .bOSU none (catMin + 1) catMin := by
  simp [arrayColCategorical, ShouldBeCategorical]

section
variable {V K N : Type} [DecidableEq V] [LinearOrder K] [Field K] [IsStrictOrderedRing K]

/-- C10 at the level of `fit`: a column of a fitted dataframe is categorical exactly according to the documented rule;
`catMin` is compared with the number of distinct non-missing values. Missing: as in `C10_frame_column_partial`. -/
theorem C10_fit_frame_partial {cv : Conv V K} {cfg : EncCfg K} {subset : Option (List Nat)}
    {X : List (N × Series V)} {enc : List (FitCol V K)}
    (h : encoderFit cv cfg subset (.frame X) = .ok enc) (j : Nat) (name : N) (s : Series V)
    (hj : X[j]? = some (name, s)) :
    ∃ decl fc, enc[j]? = some fc ∧ s.kind ≠ .other ∧
      (match cfg.isCategorical with | none => decl = none | some m => decl = m[j]? ∧ decl.isSome) ∧
      ((decl = some false → s.kind = .uif) →
        ((∃ cs, fc = .cat cs) ↔
          ShouldBeCategorical s.kind decl (s.cells.filterMap id).dedup.length cfg.catMin)) := by
  have h' : ((List.range (X.map Prod.snd).length).zip (X.map Prod.snd)).mapM
      (fun p => fitSeries cv cfg subset p.1 p.2) = .ok enc := by
    simp only [encoderFit, fitDataFrame] at h
    split at h
    · split at h
      · cases h
      · exact h
    · exact h
  obtain ⟨hl, hf⟩ := fit_mapM h'
  obtain ⟨hjX, hXj⟩ := List.getElem?_eq_some_iff.1 hj
  have hjl : j < (X.map Prod.snd).length := by simpa using hjX
  have hfj := hf j hjl
  have hs : (X.map Prod.snd)[j] = s := by simp [hXj]
  rw [hs] at hfj
  unfold fitSeries at hfj
  rw [bind_eq_ok] at hfj
  obtain ⟨decl, hdecl, hfj⟩ := hfj
  rw [bind_eq_ok] at hfj
  obtain ⟨t, ht, hfj⟩ := hfj
  have hkind : s.kind ≠ .other := by
    intro hk; rw [hk] at ht; simp [isSeriesCategorical] at ht
  refine ⟨decl, enc[j]'(by omega), List.getElem?_eq_getElem _, hkind, ?_, ?_⟩
  · unfold declared at hdecl
    split at hdecl
    · rename_i hc; rw [hc]; cases hdecl; rfl
    · rename_i m hc
      rw [hc]
      simp only [bind_eq_ok] at hdecl
      obtain ⟨x, hx, hdecl⟩ := hdecl
      rw [rd_ok] at hx
      injection hdecl with hdecl
      subst hdecl
      simp [hx]
  · intro hd
    obtain ⟨t', ht', hiff⟩ := (C10_frame_column_partial s.kind decl (s.cells.filterMap id).dedup.length cfg.catMin
      (fun h => Or.inl (hd h))).2 hkind
    rw [ht] at ht'; injection ht' with ht'; subst ht'
    rw [← hiff]
    cases t with
    | isCategory => simp at hfj; simp [← hfj]
    | toCategory => simp at hfj; simp [← hfj]
    | numerical =>
      simp only [bind_eq_ok] at hfj
      obtain ⟨_, _, _, _, _, _, hfj⟩ := hfj
      injection hfj with hfj
      simp [← hfj]

end

/-- C11. Indices select the listed columns; the mask with the same columns selects the same; nothing given means automatic
detection; everything else raises ValueError. -/
theorem C11_categorical_features (n : Nat) :
    getIsCategorical .none n = .ok none ∧
    getIsCategorical (.ints []) n = .ok none ∧ getIsCategorical (.bools []) n = .ok none ∧
    (∀ l : List Int, l ≠ [] → (∃ i ∈ l, i < 0 ∨ (n : Int) ≤ i) →
      getIsCategorical (.ints l) n = .error .valueError) ∧
    (∀ l : List Int, l ≠ [] → (∀ i ∈ l, 0 ≤ i ∧ i < n) → ∃ mask, mask.length = n ∧ SelectsColumns mask l ∧
      getIsCategorical (.ints l) n = .ok (some mask) ∧
      getIsCategorical (.bools mask) n = .ok (some mask) ∧
      (∀ mask', mask'.length = n → SelectsColumns mask' l → mask' = mask)) ∧
    (∀ m : List Bool, m ≠ [] → m.length = n → getIsCategorical (.bools m) n = .ok (some m)) ∧
    (∀ m : List Bool, m ≠ [] → m.length ≠ n → getIsCategorical (.bools m) n = .error .valueError) ∧
    (∀ k, 0 < k → getIsCategorical (.other k) n = .error .valueError) := by
  refine ⟨rfl, rfl, rfl, ?_, ?_, ?_, ?_, ?_⟩
  · intro l hl ⟨i, hi, hb⟩
    have : l.length ≠ 0 := by simpa using hl
    simp only [getIsCategorical, if_neg this]
    rw [if_pos]
    simp only [Bool.or_eq_true, List.any_eq_true, decide_eq_true_eq]
    rcases hb with h | h
    · right; exact ⟨i, hi, h⟩
    · left; exact ⟨i, hi, h⟩
  · intro l hl hb
    have hl0 : l.length ≠ 0 := by simpa using hl
    obtain ⟨mask, hm, hI⟩ := foldlM_inv (f := fun (m : List Bool) (i : Int) => wr m i.toNat true) (l := l)
      (s := List.replicate n false)
      (fun pre m => m.length = n ∧ ∀ k : Nat, m[k]? = some true ↔ (k < n ∧ (k : Int) ∈ pre))
      (by
        refine ⟨by simp, ?_⟩
        intro k
        simp [List.getElem?_replicate])
      (by
        rintro pre x post m hlp ⟨h1, h2⟩
        obtain ⟨hx0, hxn⟩ := hb x (by simp [hlp])
        have hlt : x.toNat < m.length := by omega
        refine ⟨_, wr_of_lt _ hlt, by simp [h1], ?_⟩
        intro k
        rw [List.getElem?_set]
        by_cases hk : x.toNat = k
        · subst hk
          simp only [if_true, hlt]
          simp
          omega
        · rw [if_neg hk, h2]
          simp only [List.mem_append, List.mem_singleton]
          constructor
          · rintro ⟨a, b⟩; exact ⟨a, Or.inl b⟩
          · rintro ⟨a, b | b⟩
            · exact ⟨a, b⟩
            · omega)
    have hsel : SelectsColumns mask l := by
      intro k; rw [hI.1]; exact hI.2 k
    have hn0 : mask.length ≠ 0 := by
      obtain ⟨i, hi⟩ := List.exists_mem_of_ne_nil l hl
      have := hb i hi
      rw [hI.1]; omega
    refine ⟨mask, hI.1, hsel, ?_, ?_, ?_⟩
    · simp only [getIsCategorical, if_neg hl0]
      rw [if_neg]
      · rw [hm]; rfl
      · simp only [Bool.or_eq_true, List.any_eq_true, decide_eq_true_eq, not_or, not_exists, not_and]
        exact ⟨fun i hi => by have := hb i hi; omega, fun i hi => by have := hb i hi; omega⟩
    · simp [getIsCategorical, hI.1]
      intro h; exact hn0 (hI.1.trans h)
    · intro mask' hml hs'
      apply List.ext_getElem?
      intro k
      by_cases hk : k < n
      · have a := hs' k
        have b := hsel k
        rw [hml] at a; rw [hI.1] at b
        rw [List.getElem?_eq_getElem (by omega)] at a ⊢
        rw [List.getElem?_eq_getElem (by omega)] at b ⊢
        have c := a.trans b.symm
        simp only [Option.some.injEq] at c ⊢
        exact Bool.eq_iff_iff.2 c
      · rw [List.getElem?_eq_none (by omega), List.getElem?_eq_none (by omega)]
  · intro m hm hl
    simp [getIsCategorical, hl]
    intro h; subst h; exact absurd (List.length_eq_zero_iff.1 hl) hm
  · intro m hm hl
    have : m.length ≠ 0 := by simpa using hm
    simp [getIsCategorical, hl, hm]
  · intro k hk
    simp [getIsCategorical]; omega

example : ([2, 0, 2] : List Int) ≠ [] ∧ (∀ i ∈ ([2, 0, 2] : List Int), 0 ≤ i ∧ i < (3 : Nat)) ∧
    SelectsColumns [true, false, true] [2, 0, 2] := by
  refine ⟨by simp, by simp, ?_⟩
  intro k
  match k with
  | 0 => simp
  | 1 => simp
  | 2 => simp
  | k + 3 => simp

end Verif
