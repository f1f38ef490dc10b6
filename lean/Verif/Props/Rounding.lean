import Verif.Proofs.RoundedProba
import Verif.Proofs.Float32Eval
import Verif.Proofs.EstToy
import Verif.Proofs.EncoderObj
import Verif.Props.Rescale

/-! # C92: class probabilities in floating-point arithmetic -/
set_option linter.unusedSectionVars false
namespace Verif

open Spec

section
variable {L V K F G W N : Type} [LinearOrder L] [DecidableEq V] [DecidableEq N] [LinearOrder K] [Field K] [IsStrictOrderedRing K]
  [FloorSemiring K] [LinearOrder F] [Num F]

/-- **C92**, partial: in every arithmetic with rounding the probabilities of a classifier are between 0 and 1, for all data, when the trees are not
aggregated. Missing: aggregation, see `C92_aggregation_violated`. -/
theorem C92_partial {B : Nat} (hF : FloatLaws F B) {lib : Lib V K F G W} {a : FitArgs N V} {y : List L} {s : World L V K F (List F) G W} {eps : F}
    (heps : Num.zero ≤ eps) (hlib : LibOK lib a.nRows) (hp : ParamsValid s.self (nCols a.X)) (hd : DataValid lib.conv a s y.length) (ht : a.targetsOK = true)
    (hrefit : s.self.ovr = true → s.self.fitted = true → 2 < y.dedup.length) (hst : StrategyOK y.dedup.length s.self.strategy)
    (hagg : s.self.aggregation = false) (hE : s.self.nEstimators ≤ B) (hC : max 2 y.dedup.length ≤ B)
    (hdir : Num.zero ≤ s.self.dirichlet) (hw : ∀ w ∈ s.weights, Num.zero ≤ w)
    (hpos : Num.zero < s.self.dirichlet ∨ s.self.balanced = false ∧ ∀ w ∈ s.weights, Num.zero < w) :
    ∃ s', fitClassifier lib a y s = (.ok (), s') ∧ s'.self.classes.Pairwise (· < ·) ∧ (∀ l, l ∈ s'.self.classes ↔ l ∈ y) ∧
      AcceptedBy lib s'.self a.X ∧
      ∀ (N' : Type) [DecidableEq N'] (n : Nat) (X : Dataset N' V), 0 < n → GoodInput n X → AcceptedBy lib s'.self X →
        ∃ proba, s'.self.predictProba lib eps n X = .ok proba ∧ proba.length = n ∧ ∀ p ∈ proba, UnitVector s'.self.classes.length p := by
  rw [← sortedUnique_length] at hrefit hst hC
  have hsw := hF.weightsOf_sign (a := a) hw
  have hW : ∀ w ∈ classWeights s.self y (weightsOf a s), (∀ v ∈ w, Num.zero ≤ v) ∧ (Num.zero < s.self.dirichlet ∨ ∀ v ∈ w, Num.zero < v) := by
    intro w hwm
    obtain ⟨h1, h2⟩ := hF.classWeights_sign hsw.1 w hwm
    exact ⟨h1, hpos.imp id fun h => h2 h.1 (hsw.2 h.2)⟩
  obtain ⟨e0, o, he0, hfit, hfacts⟩ := fitClassifier_ok (okW := fun _ => True) hlib hp hd ht hrefit
    (fun h => by rw [hagg] at h; cases h) hst (fun k hk => hF.toNat_ofNat k (by omega)) (fun _ _ => trivial)
  subst he0
  obtain ⟨cfg, enc, henc, -, -, -, -, -, hA⟩ := hfacts.encoder
  refine ⟨_, hfit, sortedUnique_sorted y, fun l => mem_sortedUnique, ⟨cfg, enc, henc, hA⟩, fun N' _ n X hn hX hA => ?_⟩
  obtain ⟨cfg', enc', he', hA'⟩ := hA
  obtain ⟨fba, hb, hrows, hx⟩ := hfacts.encode hn hX (fun c e h => by
    have := h.symm.trans he'
    injection this with this
    obtain ⟨rfl, rfl⟩ := Prod.mk.inj this
    exact hA')
  have htrees := hF.fit_predict (e0 := preparedEst (withCategorical a.categorical s.self) y) rfl hlib (strategy_tree hst _) hdir rfl hagg hW hfacts hx
  have hy : y ≠ [] := by
    intro h0; have := hd.labels; have := hd.rows.1; rw [h0] at *; simp_all
  have htr := hfacts.nTrees
  change o.est.trees.length = if staysOvr s.self y then s.self.nEstimators * (sortedUnique y).length else s.self.nEstimators at htr
  change ∃ proba, o.est.predictProba lib eps n X = .ok proba ∧ proba.length = n ∧ ∀ p ∈ proba, UnitVector (sortedUnique y).length p
  unfold Est.predictProba
  rw [hb, bind_ok]
  change ∃ proba, (if !true then _ else if staysOvr s.self y then predictProbaOvr eps (sortedUnique y).length s.self.nEstimators o.est.trees fba
    else predictProba (sortedUnique y).length o.est.trees fba) = .ok proba ∧ _
  rw [← hrows]
  cases hov : staysOvr s.self y with
  | true =>
    simp only [hov, if_true, Bool.not_true, Bool.false_eq_true, if_false] at htrees htr ⊢
    exact hF.probaOvr_of_rows (sortedUnique_pos hy) heps (by rw [htr, Nat.mul_comm]) htrees
  | false =>
    simp only [hov, Bool.not_true, Bool.false_eq_true, if_false] at htrees htr ⊢
    refine hF.proba_of_rows (fun h0 => ?_) (by omega) htrees
    rw [h0] at htr
    have := hp.estimators
    simp at htr
    omega

end

/-! ### Violation -/

section

/-- External code; the bootstrap draws the rows 0 and 2 twice and leaves out the rows 3 and 4. -/
def roundLib : Lib Nat ℚ F32 Nat Nat where
  seeded s k := (List.range k).map (· + s)
  seededGlobal w k := ((List.range k).map (· + w), w + 1)
  choice w _ k := (List.range k, w)
  depth w := (w, w)
  boot _ _ := [0, 0, 1, 2, 2]
  frames := 1
  flog n := Nat.log 3 n
  fsqrt n := Nat.sqrt n
  cap := 1000
  words _ := 0
  garbage _ := ⟨fun _ => ⟨none, 0, false, none, 0, 0, 0, 0⟩, fun _ => 77, fun _ => 99⟩
  rng := toyRng
  argsort l := (List.range l.length).insertionSort fun i j => (l.getD i (F32.of 0)).1 ≤ (l.getD j (F32.of 0)).1
  conv := exConv

/-- A classifier with one tree that has at most one split, and the weights of the rows. -/
def roundWorld (agg : Bool) : World Nat Nat ℚ F32 (List F32) Nat Nat :=
  ⟨{ fitted := false, nEstimators := 1, criterion := .gini, step := F32.of 1, dirichlet := F32.of 1, aggregation := agg, maxDepth := some 1, minSplit := 2,
     minLeaf := 1, maxBins := 5, categoricalFeatures := .none, maxFeatures := .none, subsample := none, catMin := .int 4, handleUnknownError := false,
     randomState := some (some 7), balanced := false, ovr := false, strategy := .binary, classes := [], nClasses := 0, nTrees := 0,
     nClassesPerTree := 0, maxFeatures_ := 0, seeds := [], isCategorical_ := [], encoder := none, trees := [], nSamples := 0, nFeatures := 0 },
   [F32.of 16383, F32.of 128, F32.of 64, F32.of (2 ^ 21), F32.of 1], 0⟩

/-- One column of words. -/
def roundX : Dataset String Nat := .frame [("b", { kind := .bOSU, cells := [some 0, some 1, some 1, some 0, some 1] })]

/-- The arguments of `fit`. -/
def roundArgs : FitArgs String Nat := ⟨roundX, 5, some true, .none, false, true⟩

theorem roundLib_ok : LibOK roundLib 5 where
  seeded s k := by simp [roundLib]
  seededGlobal w k := by simp [roundLib]
  choice w k hk := by
    refine ⟨by simp [roundLib], List.nodup_range, fun x hx => ?_⟩
    have := List.mem_range.1 hx; omega
  boot s := by simp [roundLib]
  returns s := ⟨_, rfl⟩
  argsort l := List.perm_insertionSort _ _

theorem roundWorld_valid (agg : Bool) : ParamsValid (roundWorld agg).self (nCols roundArgs.X) :=
  ⟨by simp [roundWorld], by simp [roundWorld], rfl, by simp [roundWorld], by simp [roundWorld], ⟨_, rfl⟩, by simp [roundWorld], by simp [roundWorld]⟩

theorem roundData_valid (agg : Bool) : DataValid roundLib.conv roundArgs (roundWorld agg) 5 where
  rows := by simp [roundArgs]
  labels := rfl
  columns := by simp [roundArgs, roundX, nCols]
  weights _ := by simp [roundWorld, roundArgs]
  good := ⟨by decide, by simp [roundArgs, GoodSeries]⟩
  small := by simp [roundArgs, roundX, SmallDtypes]
  fittable := ⟨none, rfl, by
    intro p hp
    simp at hp
    rcases hp with rfl
    simp⟩

/-- The fit with the given exp and log. -/
def roundFit (exp log : F32 → F32) : M Unit × World Nat Nat ℚ F32 (List F32) Nat Nat :=
  let _ := f32With exp log
  fitClassifier roundLib roundArgs [0, 1, 0, 1, 1] (roundWorld true)

/-- The probabilities of the rows after the fit. -/
def roundProba (exp log : F32 → F32) : M (List (List F32)) :=
  let _ := f32With exp log
  (roundFit exp log).2.self.predictProba roundLib (F32.of 0) 5 roundX

/-- **C92** is violated with aggregation in float32, on valid parameters and data: `log_weight_tree` of the root is the loss minus log 2, which is rounded to the loss minus 1, since
float32 numbers of this size are integers. So `alpha = 0.5 * exp(loss - log_weight_tree)` is e / 2 instead of at most 1, and the second row gets the
probabilities 1.174 and -0.174. -/
theorem C92_aggregation_violated :
    (fitClassifier roundLib roundArgs [0, 1, 0, 1, 1] (roundWorld true)).1 = .ok () ∧
    ∃ rows p q, (fitClassifier roundLib roundArgs [0, 1, 0, 1, 1] (roundWorld true)).2.self.predictProba roundLib Num.zero 5 roundX = .ok rows ∧
      rows[1]? = some [p, q] ∧ p.1 = (4925209 / 4194304 : ℚ) ∧ q.1 = (-11694477 / 67108864 : ℚ) ∧ ¬∀ r ∈ rows, UnitVector 2 r := by
  change (roundFit f32Exp f32Log).1 = .ok () ∧ ∃ rows p q, roundProba f32Exp f32Log = .ok rows ∧ _
  rw [← tableExp_eq, ← tableLog_eq]
  have h : roundProba tableExp tableLog = .ok
      [[F32.of (2086041 / 2097152), F32.of (11377763 / 2147483648)], [F32.of (4925209 / 4194304), F32.of (-11694477 / 67108864)],
       [F32.of (4925209 / 4194304), F32.of (-11694477 / 67108864)], [F32.of (2086041 / 2097152), F32.of (11377763 / 2147483648)],
       [F32.of (4925209 / 4194304), F32.of (-11694477 / 67108864)]] := by decide +kernel
  refine ⟨by decide +kernel, _, F32.of (4925209 / 4194304), F32.of (-11694477 / 67108864), h, rfl, by decide +kernel, by decide +kernel, fun hr => ?_⟩
  have := ((hr _ (List.mem_cons_of_mem _ (List.mem_cons_self ..))).2 _ (List.mem_cons_self ..)).2
  exact absurd (show (F32.of (4925209 / 4194304)).1 ≤ (F32.of 1).1 from this) (by decide +kernel)

/-- `C92_partial` for the same data in float32, without aggregation. -/
example : ∃ s', fitClassifier roundLib roundArgs [0, 1, 0, 1, 1] (roundWorld false) = (.ok (), s') ∧
    ∃ proba, s'.self.predictProba roundLib Num.zero 5 roundX = .ok proba ∧ proba.length = 5 ∧ ∀ p ∈ proba, UnitVector s'.self.classes.length p := by
  obtain ⟨s', h1, -, -, h2, h3⟩ := C92_partial f32_laws (a := roundArgs) (y := [0, 1, 0, 1, 1]) (s := roundWorld false) (eps := Num.zero) (le_refl _)
    roundLib_ok (roundWorld_valid false) (roundData_valid false) rfl (fun h => by cases h) (by rw [show ([0, 1, 0, 1, 1] : List Nat).dedup.length = 2 by decide]; simp [roundWorld, StrategyOK]) rfl
    (by simp [roundWorld]) (by rw [show ([0, 1, 0, 1, 1] : List Nat).dedup.length = 2 by decide]; norm_num) (show (F32.of 0).1 ≤ (F32.of 1).1 by decide +kernel)
    (by
      intro w hw
      have hw' : w ∈ [F32.of 16383, F32.of 128, F32.of 64, F32.of (2 ^ 21), F32.of 1] := hw
      have : ∀ v ∈ [F32.of 16383, F32.of 128, F32.of 64, F32.of (2 ^ 21), F32.of 1], (F32.of 0).1 ≤ v.1 := by decide +kernel
      exact this w hw')
    (.inl (show (F32.of 0).1 < (F32.of 1).1 by decide +kernel))
  exact ⟨s', h1, h3 String 5 roundX (by norm_num) (roundData_valid false).good h2⟩

end

end Verif
