import Verif.Model.Life

/-! Specification of the life of an estimator after `fit`. -/
namespace Verif.Spec

/-- The state after a sequence of assignments, each of which may raise an exception that the caller catches. -/
def attempts {A S : Type} (f : A → Py S Unit) : List A → S → S
  | [], s => s
  | a :: l, s => attempts f l (f a s).2

/-- The last positive number that is assigned to `step`, otherwise `v`. -/
def lastPositiveStep {F K : Type} [Num F] (v : F) : List (Assign F K) → F
  | [] => v
  | .step x :: l => lastPositiveStep (if Num.le x Num.zero then v else x) l
  | _ :: l => lastPositiveStep v l

/-- The assignments to attributes that both estimators have. -/
def baseOf {F K : Type} : ClsAssign F K → Option (Assign F K)
  | .base a => some a
  | _ => none

/-- The last number that is not negative and is assigned to `dirichlet`, otherwise `v`. -/
def lastAcceptedDirichlet {F K : Type} [Num F] (v : F) : List (ClsAssign F K) → F
  | [] => v
  | .dirichlet x :: l => lastAcceptedDirichlet (if Num.lt x Num.zero then v else x) l
  | _ :: l => lastAcceptedDirichlet v l

section
variable {L V K F P G W : Type} [LinearOrder L] [DecidableEq V] [LinearOrder K] [Field K] [FloorSemiring K] [Num F]

/-- Two fitted classifiers answer every question in the same way. -/
structure SameClassifier (lib : Lib V K F G W) (e e' : Est L V K F (List F) G) : Prop where
  proba : ∀ (N : Type) [DecidableEq N] (eps : F) (n : Nat) (X : Dataset N V), e.predictProba lib eps n X = e'.predictProba lib eps n X
  predict : ∀ (N : Type) [DecidableEq N] (eps : F) (n : Nat) (X : Dataset N V), e.predict lib eps n X = e'.predict lib eps n X
  trees : ∀ (N : Type) [DecidableEq N] (n : Nat) (X : Dataset N V), e.predictProbaTrees lib n X = e'.predictProbaTrees lib n X
  leaves : ∀ (N : Type) [DecidableEq N] (n : Nat) (X : Dataset N V), e.apply lib n X = e'.apply lib n X
  classes : e.getClasses = e'.getClasses
  nClasses : e.getNClasses = e'.getNClasses
  nSamples : e.getNSamplesIn = e'.getNSamplesIn
  nFeatures : e.getNFeaturesIn = e'.getNFeaturesIn

/-- Two fitted regressors answer every question in the same way. -/
structure SameRegressor (lib : Lib V K F G W) (e e' : Est L V K F F G) : Prop where
  predict : ∀ (N : Type) [DecidableEq N] (n : Nat) (X : Dataset N V), e.predictReg lib n X = e'.predictReg lib n X
  leaves : ∀ (N : Type) [DecidableEq N] (n : Nat) (X : Dataset N V), e.apply lib n X = e'.apply lib n X
  depths : ∀ (N : Type) [DecidableEq N] (n : Nat) (X : Dataset N V), e.weightedDepth lib n X = e'.weightedDepth lib n X
  nSamples : e.getNSamplesIn = e'.getNSamplesIn
  nFeatures : e.getNFeaturesIn = e'.getNFeaturesIn

end

end Verif.Spec
