import Verif.Model.Basic

/-! # Impurity criteria and information gain (/repo/wildwood/_impurity.py)

`x ** 2` is `x * x`. The functions over classes read `y_sum[k]` for `k < n_classes` with checked reads. -/
namespace Verif

variable {F : Type} [Num F]

/-- `information_gain_proxy`, _impurity.py:22-57. -/
def informationGainProxy (impL impR wL wR : F) : F :=
  Num.sub (Num.mul (Num.neg wL) impL) (Num.mul wR impR)

/-- `information_gain`, _impurity.py:67-119. -/
def informationGain (w impP impL impR wP wL wR : F) : F :=
  Num.mul (Num.div wP w)
    (Num.sub (Num.sub impP (Num.mul (Num.div wR wP) impR)) (Num.mul (Num.div wL wP) impL))

/-- Loop `for k in range(n_classes): y_sum_sq += y_sum[k] * y_sum[k]`, _impurity.py:157-158 and 210-212. -/
def sumSq (nClasses : Nat) (y : List F) : M F :=
  (List.range nClasses).foldlM
    (fun (s : F) k => do let v ← rd y k; return Num.add s (Num.mul v v)) Num.zero

/-- `gini_node`, _impurity.py:135-159. -/
def giniNode (nClasses : Nat) (w : F) (y : List F) : M F := do
  let s ← sumSq nClasses y
  return Num.sub Num.one (Num.div s (Num.mul w w))

/-- `gini_childs`, _impurity.py:177-216. The interleaved loop over both children is two loops here. -/
def giniChilds (nClasses : Nat) (wL wR : F) (yL yR : List F) : M (F × F) := do
  let sL ← sumSq nClasses yL
  let sR ← sumSq nClasses yR
  return (Num.sub Num.one (Num.div sL (Num.mul wL wL)), Num.sub Num.one (Num.div sR (Num.mul wR wR)))

/-- `entropy_node`, _impurity.py:232-258. -/
def entropyNode (nClasses : Nat) (w : F) (y : List F) : M F :=
  (List.range nClasses).foldlM
    (fun (s : F) k => do
      let v ← rd y k
      if Num.lt Num.zero v then
        let p := Num.div v w
        return Num.sub s (Num.mul p (Num.log p))
      else return s) Num.zero

/-- `entropy_childs`, _impurity.py:274-315. The interleaved loop over both children is two loops here. -/
def entropyChilds (nClasses : Nat) (wL wR : F) (yL yR : List F) : M (F × F) := do
  let eL ← entropyNode nClasses wL yL
  let eR ← entropyNode nClasses wR yR
  return (eL, eR)

/-- `mse_node`, _impurity.py:330-349. -/
def mseNode (w ySum ySqSum : F) : F :=
  Num.sub (Num.div ySqSum w) (Num.mul (Num.div ySum w) (Num.div ySum w))

/-- `mse_childs`, _impurity.py:359-399. -/
def mseChilds (wL wR yL yR ySqL ySqR : F) : F × F :=
  (mseNode wL yL ySqL, mseNode wR yR ySqR)

/-- The classification criteria of _utils.py:24-32 (mse is used by regression only). -/
inductive Criterion
  | gini
  | entropy
  deriving DecidableEq, Repr

/-- `apply_childs_impurity_function_clf`, /repo/wildwood/_split.py:355-380. -/
def childsImpurityClf (c : Criterion) (nClasses : Nat) (wL wR : F) (yL yR : List F) : M (F × F) :=
  match c with
  | .gini => giniChilds nClasses wL wR yL yR
  | .entropy => entropyChilds nClasses wL wR yL yR

end Verif
