import Verif.Props.CollapseEdge
/-!
# Examples for C86
-/
namespace IFEM.ClosePatch
open IFEM IFEM.Spec IFEM.Props Spec

/-- A patch of `k` nodes with two unknowns per node, numbered from 11 on, and no neighbours. -/
def onePatch (nf k : Nat) : PatchModel Rat := ⟨[{ nf := nf, mlgn := (List.range k).map fun i : Nat => (i : Int) + 11 }], [[]]⟩

/-- The numbers of the nodes of the first patch. -/
def numbers (M : PatchModel Rat) : List Int := (M.patches.map fun p => p.mlgn).headD []

/-- The hypotheses of the theorems are met. -/
example : HasPatch (onePatch 2 9) 0 9 2 := ⟨_, rfl, rfl, rfl, by decide⟩

/-- A patch of 3 x 3 nodes closed in the first direction, then in the second: a torus of 2 x 2 nodes. -/
example : (closeAll (fun d => closeBoundaries2D 0 0 2 d 3 3 1) [1, 2] (onePatch 2 9)).map numbers = some [11, 12, 11, 14, 15, 14, 11, 12, 11] := by decide +kernel

/-- The order does not matter. -/
example : (closeAll (fun d => closeBoundaries2D 0 0 2 d 3 3 1) [2, 1] (onePatch 2 9)).map numbers = some [11, 12, 11, 14, 15, 14, 11, 12, 11] := by decide +kernel

/-- A patch of 2 x 3 x 2 nodes closed in the second and third direction. -/
example : (closeAll (fun d => closeBoundaries3D 0 0 3 d 2 3 2 1) [3, 2] (onePatch 3 12)).map numbers = some [11, 12, 13, 14, 11, 12, 11, 12, 13, 14, 11, 12] := by decide +kernel

/-- The hypotheses of `C86_close_3D_iff` are met by this patch. -/
example : ∃ M', closeAll (fun d => closeBoundaries3D 0 0 3 d 2 3 2 1) [3, 2] (onePatch 3 12) = some M' ∧
    ∀ x y, InGrid ![2, 3, 2] x → InGrid ![2, 3, 2] y → (nodeNum M' 0 (gridNode 1 ![2, 3, 2] x) = nodeNum M' 0 (gridNode 1 ![2, 3, 2] y) ↔ Glued [2, 1] ![2, 3, 2] x y) := by
  refine C86_close_3D_iff 0 (onePatch 3 12) 0 12 3 1 ![2, 3, 2] [2, 1] ⟨_, rfl, rfl, rfl, by decide⟩ (by decide) (by decide) (by decide) (by decide) ?_
  intro x y hx hy h
  apply gridNode_inj hx hy (start := 1)
  have hr := gridNode_range (start := 1) hx
  have hr' := gridNode_range (start := 1) hy
  have e : ∀ a, 1 ≤ a → a ≤ 12 → nodeNum (onePatch 3 12) 0 a = (a : Int) + 10 := by
    intro a h1 h2
    interval_cases a <;> decide +kernel
  simp at hr hr'
  rw [e _ (by omega) (by omega), e _ (by omega) (by omega)] at h
  omega

/-- A mixed patch has more unknowns per node than each of its bases, so nothing is merged: constraints are added instead. -/
example : (closeBoundaries2D 0 0 2 1 3 3 1 (onePatch 3 9)).map numbers = some (numbers (onePatch 3 9)) := by decide +kernel
example : (closeBoundaries2D 0 0 2 1 3 3 1 (onePatch 3 9)).map (fun M => (M.patches.map fun p => p.mpcs.map fun m => (m.node, m.dof)).headD []) =
    some [(11, 1), (11, 2), (14, 1), (14, 2), (17, 1), (17, 2)] := by decide +kernel

/-- A closed curve with one unknown per node gets a constraint instead of a common number. -/
example : (closeBoundaries1D 0 0 4 1 (onePatch 1 4)).map (fun M => (M.patches.map fun p => p.mpcs.map fun m => (m.node, m.dof)).headD []) =
    some [(11, 1)] := by decide +kernel

/-- Collapsing the right edge of a patch of 3 x 3 nodes. -/
example : (collapseEdge (fun _ _ => true) false 0 3 3 1 2 (onePatch 2 9)).1 = true := by decide +kernel
example : numbers (collapseEdge (fun _ _ => true) false 0 3 3 1 2 (onePatch 2 9)).2 = [11, 12, 13, 14, 15, 13, 17, 18, 13] := by decide +kernel

/-- Edge 3 of a patch whose second direction is swapped. -/
example : numbers (collapseEdge (fun _ _ => true) true 0 3 2 1 3 (onePatch 2 6)).2 = [11, 12, 13, 14, 14, 14] := by decide +kernel

/-- Nodes that are not co-located are refused. -/
example : (collapseEdge (fun a _ => a = 6) false 0 3 3 1 2 (onePatch 2 9)).1 = false := by decide +kernel

/-- The left edge of a patch of 2 x 3 nodes, whose last node has got a lower number from another patch: the edge is not collapsed into one node. -/
example : numbers (collapseEdge (fun _ _ => true) false 0 2 3 1 1 ⟨[{ nf := 2, mlgn := [11, 12, 13, 14, 5, 16] }], [[]]⟩).2 = [5, 12, 11, 14, 5, 16] := by decide +kernel

/-- Collapsing the top face of a patch of 2 x 3 x 2 nodes into its edge 3. -/
example : (collapseFace (fun _ _ => true) false 0 2 3 2 1 6 3 (onePatch 3 12)).1 = true := by decide +kernel
example : numbers (collapseFace (fun _ _ => true) false 0 2 3 2 1 6 3 (onePatch 3 12)).2 = [11, 12, 13, 14, 15, 16, 17, 18, 17, 18, 17, 18] := by decide +kernel

/-- Collapsing the right face of a patch of 2 x 3 x 2 nodes into its edge 12, and into a vertex. -/
example : numbers (collapseFace (fun _ _ => true) false 0 2 3 2 1 2 12 (onePatch 3 12)).2 = [11, 12, 13, 12, 15, 12, 17, 18, 19, 18, 21, 18] := by decide +kernel
example : numbers (collapseFace (fun _ _ => true) false 0 2 3 2 1 2 0 (onePatch 3 12)).2 = [11, 12, 13, 12, 15, 12, 17, 12, 19, 12, 21, 12] := by decide +kernel

/-- The hypotheses of `C86_collapse_face_iff` are met by this patch. -/
example : ∃ M', collapseFace (fun _ _ => true) false 0 2 3 2 1 (2 : Nat) (12 : Nat) (onePatch 3 12) = (true, M') ∧
    (∀ x y, OnFace ![2, 3, 2] 2 x → OnFace ![2, 3, 2] 2 y → (nodeNum M' 0 (gridNode 1 ![2, 3, 2] x) = nodeNum M' 0 (gridNode 1 ![2, 3, 2] y) ↔ SameAlong 12 x y)) ∧
    ∀ a, (∀ x, OnFace ![2, 3, 2] 2 x → a ≠ gridNode 1 ![2, 3, 2] x) → nodeNum M' 0 a = nodeNum (onePatch 3 12) 0 a := by
  refine C86_collapse_face_iff (fun _ _ => true) (onePatch 3 12) 0 12 3 1 ![2, 3, 2] 2 12 (by decide) (by decide) ⟨_, rfl, rfl, rfl, by decide⟩ (by decide) (by decide) (by decide) ?_ (fun _ _ _ _ _ => rfl)
  intro x y hx hy h
  have hr := gridNode_range (start := 1) hx
  have hr' := gridNode_range (start := 1) hy
  have e : ∀ a, 1 ≤ a → a ≤ 12 → nodeNum (onePatch 3 12) 0 a = (a : Int) + 10 := by
    intro a h1 h2
    interval_cases a <;> decide +kernel
  simp at hr hr'
  rw [e _ (by omega) (by omega), e _ (by omega) (by omega)]
  omega

/-- An edge that does not belong to the face is accepted: edge 1 of face 1 is taken for a vertex. -/
example : (collapseFace (fun _ _ => true) false 0 2 3 2 1 1 1 (onePatch 3 12)).1 = true := by decide +kernel

end IFEM.ClosePatch
