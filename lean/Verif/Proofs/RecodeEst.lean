import Verif.Proofs.RecodeFit
import Verif.Proofs.EstEnd
import Verif.Proofs.EstFail
import Verif.Spec.RecodeEst

/-! # `fit` and `predict` of the estimators on transformed datasets -/
namespace Verif

open Spec

set_option linter.unusedSectionVars false

section
variable {L V K F Y P G W N : Type} [LinearOrder L] [DecidableEq V] [DecidableEq N] [LinearOrder K] [Field K] [IsStrictOrderedRing K]
  [FloorSemiring K] [Num F]

theorem nCols_recode (ch : Nat → V → V) (D : Dataset N V) : nCols (recode ch D) = nCols D := by
  cases D <;> simp [recode, nCols]

theorem mem_colCells_frame {X : List (N × Series V)} {j : Nat} {p : N × Series V} (h : X[j]? = some p) : colCells (.frame X) j = p.2.cells := by
  simp [colCells, h]

theorem mem_colCells_array {kind : Kind} {X : List (List (Option V))} {j : Nat} {c : List (Option V)} (h : X[j]? = some c) :
    colCells (.array kind X : Dataset N V) j = c := by
  simp [colCells, h]

/-- `transform` on a transformed dataset, when the thresholds have moved with the values. -/
theorem transform_recode {N' : Type} [DecidableEq N'] {cv : Conv V K} {cfg : EncCfg K} {enc enc' : List (FitCol V K)} {g : Nat → Word} {n : Nat}
    {ch : Nat → V → V} (hl : enc'.length = enc.length) {E : Dataset N' V} (hE : DistinctNames E)
    (hdt : ∀ j, ch j ≠ id → NumericDtype E j)
    (hR : ∀ j fc fc', enc[j]? = some fc → enc'[j]? = some fc' → (ch j = id ∧ fc' = fc) ∨
      (ch j ≠ id ∧ ∃ thr thr', fc = .num thr ∧ fc' = .num thr' ∧ ∃ hl : thr'.length = thr.length,
        ∀ v, InColumn E j v → (cv.toFloat v = none ∧ cv.toFloat (ch j v) = none) ∨
          ∃ x x', cv.toFloat v = some x ∧ cv.toFloat (ch j v) = some x' ∧ ∀ i (h : i < thr.length), (x' ≤ thr'[i]'(hl ▸ h) ↔ x ≤ thr[i]))) :
    encoderTransform cv cfg enc' g n (recode ch E) = encoderTransform cv cfg enc g n E := by
  refine encoderTransform_same hl (by cases E <;> exact hE) ?_
  cases E with
  | frame X =>
    intro j p fc fc' hp hf hf'
    rcases hR j fc fc' hf hf' with ⟨h1, h2⟩ | ⟨_, thr, thr', h1, h2, hl, h3⟩
    · exact Or.inl ⟨h2, h1⟩
    · refine Or.inr ⟨thr, thr', h1, h2, hl, fun v hv => h3 v (inColumn_iff.2 ?_)⟩
      rw [mem_colCells_frame hp]; exact hv
  | array kind X =>
    intro j c fc fc' hp hf hf'
    rcases hR j fc fc' hf hf' with ⟨h1, h2⟩ | ⟨hid, thr, thr', h1, h2, hl, h3⟩
    · exact Or.inl ⟨h2, h1⟩
    · have hk : kind = .uif := hdt j hid
      subst hk
      rw [if_pos rfl]
      refine Or.inr ⟨thr, thr', h1, h2, hl, fun v hv => h3 v (inColumn_iff.2 ?_)⟩
      rw [mem_colCells_array hp]; exact hv

theorem transform_recode_order {N' : Type} [DecidableEq N'] {cv : Conv V K} {cfg : EncCfg K} {D : Dataset N V} {enc enc' : List (FitCol V K)}
    {g : Nat → Word} {n : Nat} {ch : Nat → V → V} {φ : Nat → K → K} (hch : ∀ j, ch j = id ∨ Increasing cv cfg.cap D j (ch j) (φ j))
    (hl : enc'.length = enc.length)
    (hR : ∀ (j : Nat) fc fc', enc[j]? = some fc → enc'[j]? = some fc' → ColRel cv none D j (ch j) (φ j) fc fc')
    {E : Dataset N' V} (hE : DistinctNames E) (hv : ∀ j, ch j ≠ id → NumericDtype E j ∧ ∀ v, InColumn E j v → InColumn D j v) :
    encoderTransform cv cfg enc' g n (recode ch E) = encoderTransform cv cfg enc g n E := by
  refine transform_recode hl hE (fun j h => (hv j h).1) fun j fc fc' hf hf' => ?_
  rcases hR j fc fc' hf hf' with h | ⟨hid, thr, thr', h1, h2, ⟨hl, h3⟩, _⟩
  · exact Or.inl h
  · refine Or.inr ⟨hid, thr, thr', h1, h2, hl, fun v hvE => Or.inr ?_⟩
    have hD := (hv j hid).2 v hvE
    obtain ⟨x, hx, _, _, hx'⟩ := ((hch j).resolve_left hid).number v hD
    exact ⟨x, φ j x, hx, hx', h3 rfl v x (inColumn_iff.1 hD) hx⟩

theorem transform_recode_affine {N' : Type} [DecidableEq N'] {cv : Conv V K} {cfg : EncCfg K} {D : Dataset N V} {enc enc' : List (FitCol V K)}
    {g : Nat → Word} {n : Nat} {ch : Nat → V → V} {α β : Nat → K} {subset : Option (List Nat)} (hα : ∀ j, 0 < α j)
    (hl : enc'.length = enc.length)
    (hR : ∀ (j : Nat) fc fc', enc[j]? = some fc → enc'[j]? = some fc' → ColRel cv subset D j (ch j) (fun x => α j * x + β j) fc fc')
    {E : Dataset N' V} (hE : DistinctNames E) (hv : ∀ j, ch j ≠ id → Affine cv E j (ch j) (α j) (β j)) :
    encoderTransform cv cfg enc' g n (recode ch E) = encoderTransform cv cfg enc g n E := by
  refine transform_recode hl hE (fun j h => (hv j h).dtype) fun j fc fc' hf hf' => ?_
  rcases hR j fc fc' hf hf' with h | ⟨hid, thr, thr', h1, h2, _, h3⟩
  · exact Or.inl h
  · have h3 := h3 fun a b => by field_simp; ring
    subst h3
    refine Or.inr ⟨hid, thr, _, h1, h2, by simp, fun v hvE => ?_⟩
    have hn := (hv j hid).number v hvE
    cases hx : cv.toFloat v with
    | none => rw [hx] at hn; exact Or.inl ⟨rfl, hn⟩
    | some x =>
      rw [hx] at hn
      refine Or.inr ⟨x, _, rfl, hn, fun i h => ?_⟩
      simp only [List.getElem_map, add_le_add_iff_right, mul_le_mul_iff_right₀ (hα j)]

theorem isCat_same {cv : Conv V K} {subset : Option (List Nat)} {D : Dataset N V} {ch : Nat → V → V} {φ : Nat → K → K} {enc enc' : List (FitCol V K)}
    (hl : enc'.length = enc.length)
    (hR : ∀ (j : Nat) fc fc', enc[j]? = some fc → enc'[j]? = some fc' → ColRel cv subset D j (ch j) (φ j) fc fc') :
    enc'.map FitCol.isCat = enc.map FitCol.isCat := by
  refine List.ext_getElem (by simp [hl]) fun j h1 h2 => ?_
  simp only [List.getElem_map]
  rw [List.length_map] at h1 h2
  rcases hR j _ _ (List.getElem?_eq_getElem h2) (List.getElem?_eq_getElem h1) with ⟨_, h⟩ | ⟨_, thr, thr', h, h', _⟩
  · rw [h]
  · rw [h, h']; rfl

/-- The second half of `fit` on a transformed dataset. -/
theorem fitRest_recode {lib : Lib V K F G W} {a : FitArgs N V} {p : FitData F Y P G} {s s' : World L V K F P G W} {ch : Nat → V → V}
    {φ : Nat → K → K} (hm : 1 ≤ s.self.maxBins) (hch : ∀ j, ch j = id ∨ Increasing lib.conv lib.cap a.X j (ch j) (φ j))
    (h : fitRest lib a p s = (.ok (), s')) (hnum : ∀ j, ch j ≠ id → s'.self.isCategorical_[j]? ≠ some true)
    (htr : ∀ cfg enc enc' subset, cfg.cap = lib.cap → ((subsetOf lib s.self a.nRows (seedsOf lib s.self s.np).2).1 = subset) → enc'.length = enc.length →
      (∀ (j : Nat) fc fc', enc[j]? = some fc → enc'[j]? = some fc' → ColRel lib.conv subset a.X j (ch j) (φ j) fc fc') →
      encoderTransform lib.conv cfg enc' lib.words a.nRows (recode ch a.X) = encoderTransform lib.conv cfg enc lib.words a.nRows a.X) :
    ∃ cfg enc enc', s'.self.encoder = some (cfg, enc) ∧ cfg.cap = lib.cap ∧
      fitRest lib { a with X := recode ch a.X } p s = (.ok (), { s' with self := { s'.self with encoder := some (cfg, enc') } }) ∧
      enc'.length = enc.length ∧
      ∀ (j : Nat) fc fc', enc[j]? = some fc → enc'[j]? = some fc' →
        ColRel lib.conv (subsetOf lib s.self a.nRows (seedsOf lib s.self s.np).2).1 a.X j (ch j) (φ j) fc fc' := by
  obtain ⟨o, rfl⟩ := fitRest_inv h
  obtain ⟨enc', henc', hl, hR⟩ := encoderFit_same (cfg := s.self.encCfg lib a.nRows o.ic) (by exact hm) (by exact hch) (enc := o.enc)
    (fun j hid cs hcs => by
      refine hnum j hid ?_
      simp only [Outcome.est, List.getElem?_map, hcs]
      rfl) o.henc
  have htr' := htr (s.self.encCfg lib a.nRows o.ic) o.enc enc' _ rfl rfl hl hR
  have hisc := isCat_same hl hR
  refine ⟨_, o.enc, enc', rfl, rfl, ?_, hl, hR⟩
  let o' : Outcome lib { a with X := recode ch a.X } p s.self s.np :=
    { mf := o.mf, ic := o.ic, enc := enc', fba := o.fba, trees := o.trees
      hmf := by simp only [nCols_recode]; exact o.hmf
      hrs := o.hrs
      hic := by simp only [nCols_recode]; exact o.hic
      hacc := o.hacc
      henc := henc'
      hfba := htr'.trans o.hfba
      htrees := by rw [hisc]; exact o.htrees }
  rw [fitRest_ok o']
  simp only [Outcome.est, nCols_recode]
  rw [show o'.enc.map FitCol.isCat = o.enc.map FitCol.isCat from hisc]
  rfl

/-- The settings used by the encoder. -/
def encSettings (s : World L V K F P G W) : Nat × Option Nat × CatMin := (s.self.maxBins, s.self.subsample, s.self.catMin)

theorem fitChecks_settings (a : FitArgs N V) (k : Nat) :
    Py.Keeps (encSettings (L := L) (V := V) (K := K) (F := F) (P := P) (G := G) (W := W)) (fitChecks a k) := by
  unfold fitChecks
  refine Py.Keeps.bind (fun s => by rw [keepCategorical_eq]; rfl) fun _ => (Py.Keeps.raiseIf _ _).bind fun _ => ?_
  cases a.weights with
  | none => exact Py.Keeps.pure _
  | some b => exact (Py.Keeps.read _).bind fun w => (Py.Keeps.raiseIf _ _).bind fun _ => Py.Keeps.pure _

theorem prepClassifier_settings (lib : Lib V K F G W) (a : FitArgs N V) (y : List L) (sw : List F) :
    Py.Keeps (encSettings (L := L)) (prepClassifier lib a y sw) := by
  unfold prepClassifier
  refine Py.Keeps.bind ?_ fun ys => (Py.Keeps.read _).bind fun e => (Py.Keeps.raiseIf _ _).bind fun _ => ?_
  · unfold encodeY
    refine (Py.Keeps.read _).bind fun o => (Py.Keeps.raiseIf _ _).bind fun _ => (Py.Keeps.raiseIf _ _).bind fun _ => ?_
    refine (Py.Keeps.modify (by intro; rfl)).bind fun _ => ?_
    split
    · split
      · refine Py.Keeps.bind ?_ fun _ => Py.Keeps.pure _
        unfold setMulticlass
        exact (Py.Keeps.read _).bind fun _ => (Py.Keeps.raiseIf _ _).bind fun _ => Py.Keeps.modify (by intro; rfl)
      · exact Py.Keeps.pure _
    · exact Py.Keeps.pure _
  · refine (Py.Keeps.modify (by intro; rfl)).bind fun _ => Py.Keeps.bind ?_ fun _ => Py.Keeps.pure _
    unfold writeBack
    split
    · exact Py.Keeps.modify (by intro; rfl)
    · exact Py.Keeps.pure _

/-- `fit` looks at the dataset only in its second half. -/
theorem fitClassifier_split {lib : Lib V K F G W} {a : FitArgs N V} {y : List L} {s s' : World L V K F (List F) G W}
    (h : fitClassifier lib a y s = (.ok (), s')) :
    ∃ (p : FitData F (List F) (List F) G) (s1 : World L V K F (List F) G W), encSettings s1 = encSettings s ∧ fitRest lib a p s1 = (.ok (), s') ∧
      ∀ X : Dataset N V, fitClassifier lib { a with X := X } y s = fitRest lib { a with X := X } p s1 := by
  unfold fitClassifier at h
  obtain ⟨sw, t1, h1, h⟩ := Py.bind_inv h
  obtain ⟨p, t2, h2, h⟩ := Py.bind_inv h
  have k1 := fitChecks_settings (L := L) (K := K) (P := List F) (G := G) (W := W) a y.length s
  have k2 := prepClassifier_settings lib a y sw t1
  rw [h1] at k1
  rw [h2] at k2
  refine ⟨p, t2, k2.trans k1, h, fun X => ?_⟩
  unfold fitClassifier
  rw [Py.bind_of_ok (s' := t1) (a := sw) (by exact h1), Py.bind_of_ok (s' := t2) (a := p) (by exact h2)]

theorem fitRegressor_split {lib : Lib V K F G W} {a : FitArgs N V} {y : List F} {s s' : World L V K F F G W}
    (h : fitRegressor lib a y s = (.ok (), s')) :
    ∃ (p : FitData F (F × F) F G) (s1 : World L V K F F G W), encSettings s1 = encSettings s ∧ fitRest lib a p s1 = (.ok (), s') ∧
      ∀ X : Dataset N V, fitRegressor lib { a with X := X } y s = fitRest lib { a with X := X } p s1 := by
  unfold fitRegressor at h
  obtain ⟨sw, t1, h1, h⟩ := Py.bind_inv h
  obtain ⟨p, t2, h2, h⟩ := Py.bind_inv h
  have k1 := fitChecks_settings (L := L) (K := K) (P := F) (G := G) (W := W) a y.length s
  rw [h1] at k1
  cases h2
  refine ⟨_, t1, k1, h, fun X => ?_⟩
  unfold fitRegressor
  rw [Py.bind_of_ok (s' := t1) (a := sw) (by exact h1)]
  rfl

theorem recode_order {lib : Lib V K F G W} {a : FitArgs N V} {p : FitData F Y P G} {s s' : World L V K F P G W} {ch : Nat → V → V}
    (hm : 1 ≤ s.self.maxBins) (hsub : UsesAllRows s.self a.nRows) (hX : DistinctNames a.X) (hch : OrderKept lib a.X ch)
    (h : fitRest lib a p s = (.ok (), s')) (hcat : CategoricalKept s'.self ch) :
    ∃ enc', fitRest lib { a with X := recode ch a.X } p s = (.ok (), { s' with self := withEncoder s'.self enc' }) ∧
      ∀ (N' : Type) [DecidableEq N'] (n : Nat) (E : Dataset N' V), DistinctNames E → ValuesFrom a.X ch E →
        (withEncoder s'.self enc').encode lib n (recode ch E) = s'.self.encode lib n E := by
  have hs : (subsetOf lib s.self a.nRows (seedsOf lib s.self s.np).2).1 = none := by
    unfold subsetOf
    split
    · rfl
    · rename_i k hk
      rw [if_neg (by have := hsub k hk; omega)]
  have hφ : ∀ j, ∃ φ, ch j = id ∨ Increasing lib.conv lib.cap a.X j (ch j) φ := fun j => by
    rcases hch j with h | ⟨φ, h⟩
    · exact ⟨id, Or.inl h⟩
    · exact ⟨φ, Or.inr h⟩
  choose φ hφ using hφ
  obtain ⟨cfg, enc, enc', he, hcap, hfit, hl, hR⟩ := fitRest_recode hm hφ h hcat (by
    intro cfg enc enc' subset hcap hsub' hl hR
    rw [hs] at hsub'
    subst hsub'
    refine transform_recode_order (by rw [hcap]; exact hφ) hl hR hX fun j hj => ?_
    exact ⟨((hφ j).resolve_left hj).dtype, fun v hv => hv⟩)
  refine ⟨some (cfg, enc'), hfit, fun N' _ n E hE hv => ?_⟩
  rw [hs] at hR
  simp only [Est.encode, withEncoder, he]
  exact transform_recode_order (by rw [hcap]; exact hφ) hl hR hE hv

theorem recode_affine {lib : Lib V K F G W} {a : FitArgs N V} {p : FitData F Y P G} {s s' : World L V K F P G W} {ch : Nat → V → V}
    {α β : Nat → K} (hα : ∀ j, 0 < α j)
    (hm : 1 ≤ s.self.maxBins) (hX : DistinctNames a.X)
    (hch : ∀ j, ch j = id ∨ Increasing lib.conv lib.cap a.X j (ch j) fun x => α j * x + β j)
    (h : fitRest lib a p s = (.ok (), s')) (hcat : CategoricalKept s'.self ch) :
    ∃ enc', fitRest lib { a with X := recode ch a.X } p s = (.ok (), { s' with self := withEncoder s'.self enc' }) ∧
      ∀ (N' : Type) [DecidableEq N'] (n : Nat) (E : Dataset N' V), DistinctNames E →
        (∀ j, ch j ≠ id → Affine lib.conv E j (ch j) (α j) (β j)) →
        (withEncoder s'.self enc').encode lib n (recode ch E) = s'.self.encode lib n E := by
  obtain ⟨cfg, enc, enc', he, hcap, hfit, hl, hR⟩ := fitRest_recode hm hch h hcat (by
    intro cfg enc enc' subset hcap hsub' hl hR
    refine transform_recode_affine hα hl hR hX fun j hj => ⟨((hch j).resolve_left hj).dtype, fun v hv => ?_⟩
    obtain ⟨x, h1, _, _, h2⟩ := ((hch j).resolve_left hj).number v hv
    rw [h1, h2]; rfl)
  refine ⟨some (cfg, enc'), hfit, fun N' _ n E hE hv => ?_⟩
  simp only [Est.encode, withEncoder, he]
  exact transform_recode_affine hα hl hR hE hv

end

end Verif
