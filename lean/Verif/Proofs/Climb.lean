import Verif.Proofs.TreeFacts

set_option linter.unusedSectionVars false

/-! Predictions of a fitted tree: the loop from the leaf up to the root computes a recursion on the tree. -/
namespace Verif

open Spec

variable {F Y P G V : Type} [Num F]

/-- The coefficient of the root of a subtree. -/
def alphaOf (step : F) (t : GTree F Y P) : F :=
  Num.mul Num.half (Num.exp (Num.sub (Num.mul (Num.neg step) t.root.nc.loss) (treeLogW step t)))

/-- The node of the leaf that a row reaches. -/
def leafNode (x : Nat → Nat) : GTree F Y P → GNode F Y P
  | .leaf a => a
  | .node a l r => if goesLeft a.sp (x a.sp.feature) then leafNode x l else leafNode x r

/-- The value aggregated on the way up to the root of a subtree. -/
def aggOf (step : F) (val : GNode F Y P → V) (mix : F → V → V → V) (x : Nat → Nat) : GTree F Y P → V
  | .leaf a => val a
  | .node a l r => mix (alphaOf step (.node a l r)) (val a)
      (if goesLeft a.sp (x a.sp.feature) then aggOf step val mix x l else aggOf step val mix x r)

theorem leafNode_sub (x : Nat → Nat) (t : GTree F Y P) (k : Nat) : SubAt t k (.leaf (leafNode x t)) (leafOf x t k) := by
  induction t generalizing k with
  | leaf a => exact .refl _ _
  | node a l r ihl ihr =>
    simp only [leafNode, leafOf]
    split
    · exact .left (ihl _)
    · exact .right (ihr _)

section
variable {T : Task F Y P G} {c : Ctx F} {D : Data F} {lab : F → Prop} {okP : P → Prop} {train valid : List Nat}
  {arr : TreeArr F P} {w : Work G} {t : GTree F Y P}

/-- One step up. -/
theorem climb_step (h : Facts T c D lab okP train valid arr w t) {step : F} (hw : Weighted arr.nodes step t 0)
    {val : Nat → M V} {g : GNode F Y P → V} (hval : ∀ k u, SubAt t 0 u k → val k = .ok (g u.root)) (mix : F → V → V → V)
    {u : GTree F Y P} {k p : Nat} {isL : Bool} {a : GNode F Y P} {l r : GTree F Y P} (hc : ChildOf D t u k p isL a l r)
    (fuel : Nat) (v : V) :
    climb arr.nodes step val mix (fuel + 1) k v =
      climb arr.nodes step val mix fuel p (mix (alphaOf step (.node a l r)) (g a) v) := by
  have hk0 : k ≠ 0 := by rw [hc.idx]; cases isL <;> simp
  have hu : SubAt t 0 u k := by
    rw [hc.idx, hc.tree]; cases isL
    · exact subAt_right hc.sub
    · exact subAt_left hc.sub
  obtain ⟨n, h1, h2⟩ := h.below hu
  obtain ⟨np, p1, p2⟩ := h.below hc.sub
  have hpar : n.parent = some p := by
    rw [h2.holds.fields.2.1, hc.rcd]; cases isL <;> rfl
  obtain ⟨np', w1, w2⟩ := (hw.sub hc.sub).root
  rw [p1.2] at w1
  injection w1 with w1
  subst w1
  have halpha : nodeAlpha step np = .ok (alphaOf step (.node a l r)) := by
    unfold nodeAlpha alphaOf
    rw [w2, p2.holds.isLeaf.2]
  rw [climb, if_pos hk0, rd_ok.2 h1.2, bind_ok, hpar]
  simp only [idx, bind_ok, rd_ok.2 p1.2, hval _ _ hc.sub, halpha, GTree.root]

/-- The loop from the leaf to the root of a subtree. -/
theorem climb_sub (h : Facts T c D lab okP train valid arr w t) {step : F} (hw : Weighted arr.nodes step t 0)
    {val : Nat → M V} {g : GNode F Y P → V} (hval : ∀ k u, SubAt t 0 u k → val k = .ok (g u.root)) (mix : F → V → V → V)
    (x : Nat → Nat) : ∀ (u : GTree F Y P) (k : Nat), SubAt t 0 u k → ∃ m, m < u.size ∧ ∀ fuel,
      climb arr.nodes step val mix (fuel + m) (leafOf x u k) (g (leafNode x u)) =
        climb arr.nodes step val mix fuel k (aggOf step g mix x u) := by
  intro u
  induction u with
  | leaf a => exact fun k _ => ⟨0, by simp [GTree.size], fun _ => rfl⟩
  | node a l r ihl ihr =>
    intro k hs
    simp only [leafOf, leafNode, aggOf, GTree.size]
    split
    · obtain ⟨m, h1, h2⟩ := ihl _ (subAt_left hs)
      refine ⟨m + 1, by omega, fun fuel => ?_⟩
      rw [show fuel + (m + 1) = fuel + 1 + m by omega, h2, climb_step h hw hval mix (h.child_left hs)]
    · obtain ⟨m, h1, h2⟩ := ihr _ (subAt_right hs)
      refine ⟨m + 1, by omega, fun fuel => ?_⟩
      rw [show fuel + (m + 1) = fuel + 1 + m by omega, h2, climb_step h hw hval mix (h.child_right hs)]

theorem climb_root (h : Facts T c D lab okP train valid arr w t) {step : F} (hw : Weighted arr.nodes step t 0)
    {val : Nat → M V} {g : GNode F Y P → V} (hval : ∀ k u, SubAt t 0 u k → val k = .ok (g u.root)) (mix : F → V → V → V)
    (x : Nat → Nat) :
    climb arr.nodes step val mix (arr.nodeCount + 1) (leafOf x t 0) (g (leafNode x t)) = .ok (aggOf step g mix x t) := by
  obtain ⟨m, h1, h2⟩ := climb_sub h hw hval mix x t 0 (.refl _ _)
  obtain ⟨f, hf⟩ : ∃ f, arr.nodeCount + 1 = (f + 1) + m := ⟨arr.nodeCount - m, by rw [h.count]; omega⟩
  rw [hf, h2]
  simp [climb]

theorem Facts.pred (h : Facts T c D lab okP train valid arr w t) (k : Nat) (u : GTree F Y P) (hs : SubAt t 0 u k) :
    rd arr.yPred k = .ok u.root.nc.yPred := by
  obtain ⟨n, _, h2⟩ := h.below hs
  exact rd_ok.2 h2.holds.pred

theorem Facts.findLeaf (h : Facts T c D lab okP train valid arr w t) {fba : FBA} {i : Nat} {x : Nat → Nat}
    (hx : ∀ j, j < D.d → fba.getValue i j = .ok (x j)) : findLeaf arr fba i = .ok (leafOf x t 0) :=
  h.findLeafFrom x hx t 0 _ (.refl _ _) (by rw [h.count]; omega)

/-- Prediction without aggregation. -/
theorem predictRow_leaf (h : Facts T c D lab okP train valid arr w t) {fba : FBA} {i : Nat} {x : Nat → Nat}
    (hx : ∀ j, j < D.d → fba.getValue i j = .ok (x j)) (mix : F → P → P → P) (step : F) :
    predictRow mix arr fba false step i = .ok (leafNode x t).nc.yPred := by
  unfold predictRow
  rw [h.findLeaf hx, bind_ok, h.pred _ _ (leafNode_sub x t 0), bind_ok]
  rfl

/-- Prediction with aggregation. -/
theorem predictRow_agg (h : Facts T c D lab okP train valid arr w t) {step : F} (hw : Weighted arr.nodes step t 0)
    {fba : FBA} {i : Nat} {x : Nat → Nat} (hx : ∀ j, j < D.d → fba.getValue i j = .ok (x j)) (mix : F → P → P → P) :
    predictRow mix arr fba true step i = .ok (aggOf step (fun a => a.nc.yPred) mix x t) := by
  unfold predictRow
  rw [h.findLeaf hx, bind_ok, h.pred _ _ (leafNode_sub x t 0), bind_ok, if_pos rfl]
  exact climb_root h hw (g := fun a => a.nc.yPred) h.pred mix x

/-- Weighted depth. -/
theorem weightedDepthRow_agg (h : Facts T c D lab okP train valid arr w t) {step : F} (hw : Weighted arr.nodes step t 0)
    {fba : FBA} {i : Nat} {x : Nat → Nat} (hx : ∀ j, j < D.d → fba.getValue i j = .ok (x j)) :
    weightedDepthRow arr fba step i = .ok (aggOf step (fun a => Num.ofNat a.rcd.depth) mixF x t) := by
  have hval : ∀ k u, SubAt t 0 u k → (do let n ← rd arr.nodes k; return (Num.ofNat n.depth : F) : M F) =
      .ok (Num.ofNat u.root.rcd.depth) := by
    intro k u hs
    obtain ⟨n, h1, h2⟩ := h.below hs
    rw [rd_ok.2 h1.2, bind_ok, h2.holds.fields.2.2.1]; rfl
  obtain ⟨n, h1, h2⟩ := h.below (leafNode_sub x t 0)
  unfold weightedDepthRow
  rw [h.findLeaf hx, bind_ok, rd_ok.2 h1.2, bind_ok, h2.holds.fields.2.2.1]
  exact climb_root h hw (g := fun a => (Num.ofNat a.rcd.depth : F)) hval mixF x

end

end Verif
