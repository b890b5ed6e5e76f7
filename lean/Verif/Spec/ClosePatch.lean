import Mathlib.Data.Fin.VecNotation
/-!
# Structured grids of nodes with closed directions
-/
namespace IFEM.ClosePatch.Spec

/-- The grid points of a patch with `n d` nodes in direction `d`. -/
def InGrid (n x : Fin 3 → Nat) : Prop := ∀ d, x d < n d

/-- The number of a grid point within its patch, from `start` on: the first direction runs fastest. -/
def gridNode (start : Nat) (n x : Fin 3 → Nat) : Nat := start + x 0 + n 0 * (x 1 + n 1 * x 2)

/-- The first or the last grid line in direction `d`. -/
def AtEnd (n x : Fin 3 → Nat) (d : Fin 3) : Prop := x d = 0 ∨ x d + 1 = n d

/-- The two grid points are the same when the first and last grid lines are identified in the directions of the list. -/
def Glued (closed : List (Fin 3)) (n x y : Fin 3 → Nat) : Prop := ∀ d, x d = y d ∨ (d ∈ closed ∧ AtEnd n x d ∧ AtEnd n y d)

/-- The grid points of a face of a hexahedral patch: faces 1, 3 and 5 are at the start of the three directions, faces 2, 4 and 6 at the end. -/
def OnFace (n : Fin 3 → Nat) (face : Nat) (x : Fin 3 → Nat) : Prop :=
  InGrid n x ∧
  ((face = 1 ∧ x 0 = 0) ∨ (face = 2 ∧ x 0 + 1 = n 0) ∨ (face = 3 ∧ x 1 = 0) ∨ (face = 4 ∧ x 1 + 1 = n 1) ∨ (face = 5 ∧ x 2 = 0) ∨ (face = 6 ∧ x 2 + 1 = n 2))

/-- The four edges of each face (edges 1-4 run in the first direction, 5-8 in the second, 9-12 in the third). -/
def faceEdges (face : Nat) : List Nat :=
  if face = 1 then [5, 7, 9, 11] else if face = 2 then [6, 8, 10, 12] else if face = 3 then [1, 3, 9, 10] else if face = 4 then [2, 4, 11, 12]
  else if face = 5 then [1, 2, 5, 6] else if face = 6 then [3, 4, 7, 8] else []

/-- The direction of an edge. -/
def edgeDir (edge : Nat) : Fin 3 := if edge ≤ 4 then 0 else if edge ≤ 8 then 1 else 2

/-- Two points of a face that become one when the face is collapsed into an edge, or into a vertex if the edge is zero. -/
def SameAlong (edge : Nat) (x y : Fin 3 → Nat) : Prop := edge = 0 ∨ x (edgeDir edge) = y (edgeDir edge)

/-- The `k`-th grid point of an edge of a quadrilateral patch. -/
def edgePoint (n1 n2 edge k : Nat) : Nat × Nat :=
  if edge = 1 then (0, k) else if edge = 2 then (n1-1, k) else if edge = 3 then (k, 0) else (k, n2-1)

/-- The number of grid points of an edge of a quadrilateral patch. -/
def edgeSize (n1 n2 edge : Nat) : Nat := if edge ≤ 2 then n2 else n1

end IFEM.ClosePatch.Spec
