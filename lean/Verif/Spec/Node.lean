import Verif.Spec.Split

/-! Specification of node statistics: sums over the samples of the node, one sample after the other in the order of the
node's range (so that the statements also hold for floating point sums). -/
namespace Verif.Spec

variable {F Y P G : Type} [Num F]

/-- The samples of `l` whose bin for feature `j` is `b`. -/
def inBin (D : Data F) (j b : Nat) (l : List Nat) : List Nat := l.filter fun i => decide (D.X i j = b)

/-- Total weight of the samples `l`. -/
def sumW (D : Data F) (l : List Nat) : F := l.foldl (fun s i => Num.add s (D.w i)) Num.zero

/-- Label statistics of the samples `l`. -/
def sumY (T : Task F Y P G) (D : Data F) (l : List Nat) : M Y :=
  l.foldlM (fun y i => T.addY y (D.w i) (D.y i)) T.zeroY

/-- Prediction of a node with training samples `l`. -/
def nodePred (T : Task F Y P G) (D : Data F) (l : List Nat) : M P := do
  let p ← l.foldlM (fun p i => T.addP p (D.w i) (D.y i)) T.zeroP
  T.endP p (sumW D l)

/-- Loss of the prediction `p` on the validation samples `l`. -/
def nodeLoss (T : Task F Y P G) (D : Data F) (p : P) (l : List Nat) : M F :=
  l.foldlM (fun loss i => T.addLoss p loss (D.w i) (D.y i)) Num.zero

/-- `h` holds the statistics of the bins of feature `j` for a node with the given samples. -/
structure HistOK (T : Task F Y P G) (c : Ctx F) (D : Data F) (j : Nat) (train valid : List Nat) (h : Hist F Y) :
    Prop where
  lenN : h.nTrain.length = c.maxNBins
  lenV : h.nValid.length = c.maxNBins
  nTrain : ∀ b, b < c.maxNBins → h.nTrain[b]? = some (inBin D j b train).length
  wTrain : ∀ b, b < c.maxNBins → h.wTrain[b]? = some (sumW D (inBin D j b train))
  ySum : ∀ b, b < c.maxNBins → ∃ y, h.ySum[b]? = some y ∧ sumY T D (inBin D j b train) = .ok y
  lenY : h.ySum.length = c.maxNBins
  neNodup : h.neTrain.Nodup
  neMem : ∀ b, b ∈ h.neTrain ↔ ∃ i ∈ train, D.X i j = b
  nValid : ∀ b, b < c.maxNBins → h.nValid[b]? = some (if c.aggregation then (inBin D j b valid).length else 0)
  wValid : c.aggregation = true → ∀ b, b < c.maxNBins → h.wValid[b]? = some (sumW D (inBin D j b valid))
  nevNodup : h.neValid.Nodup
  nevMem : ∀ b, b ∈ h.neValid ↔ c.aggregation = true ∧ ∃ i ∈ valid, D.X i j = b

/-- What is needed of the labels, and the operations of a task are defined on them. -/
structure TaskSafe (T : Task F Y P G) (lab : F → Prop) (okY : Y → Prop) (okP : P → Prop) : Prop where
  zeroY : okY T.zeroY
  addY : ∀ y w l, okY y → lab l → ∃ y', T.addY y w l = .ok y' ∧ okY y'
  plusY : ∀ a b, okY a → okY b → okY (T.plusY a b)
  minusY : ∀ a b, okY a → okY b → okY (T.minusY a b)
  zeroP : okP T.zeroP
  addP : ∀ p w l, okP p → lab l → ∃ p', T.addP p w l = .ok p' ∧ okP p'
  endP : ∀ p w, okP p → ∃ p', T.endP p w = .ok p' ∧ okP p'
  addLoss : ∀ p x w l, okP p → lab l → ∃ x', T.addLoss p x w l = .ok x'
  childs : ∀ wL wR a b, okY a → okY b → ∃ r, T.childs wL wR a b = .ok r
  orders : ∀ (bins : List Nat) (ySum : List Y) (g : G), (∀ b ∈ bins, ∃ y, ySum[b]? = some y ∧ okY y) →
    ∃ os g', T.orders bins ySum g = .ok (os, g') ∧ ∀ o ∈ os, o.Perm bins

end Verif.Spec
