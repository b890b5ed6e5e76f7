import Verif.Spec.Topology
/-!
# Specification: matching nodes of connected patches
-/
namespace IFEM.Spec

/-- Grid indices of node number `s` along local edge 1..4 of a surface patch with `n1 x n2` nodes; `swapV` tells whether the patch has been turned over in the second
direction, such that its edges 3 and 4 have changed places. -/
def edgePoint (n1 n2 : Nat) (swapV : Bool) (edge s : Nat) : Nat × Nat :=
  if edge = 1 then (0, s) else if edge = 2 then (n1-1, s) else if (edge = 3) ≠ (swapV = true) then (s, 0) else (s, n2-1)

/-- Number of nodes along a local edge. -/
def edgeLength (n1 n2 edge : Nat) : Nat := if edge ≤ 2 then n2 else n1

/-- Grid indices of node `(a, b)` of layer `t` (counted in the grid's direction) of the boundary layer at local face 1..6 of a volume patch. -/
def facePoint (n1 n2 n3 face thick a b t : Nat) : Nat × Nat × Nat :=
  if face = 1 then (t, a, b) else if face = 2 then (n1-thick+t, a, b)
  else if face = 3 then (a, t, b) else if face = 4 then (a, n2-thick+t, b)
  else if face = 5 then (a, b, t) else (a, b, n3-thick+t)

/-- Numbers of nodes in the two directions of a local face. -/
def faceLengths (n1 n2 n3 face : Nat) : Nat × Nat := if face ≤ 2 then (n2, n3) else if face ≤ 4 then (n1, n3) else (n1, n2)

/-- The position on a face of `m1 x m2` nodes which matches position `(i, j)` of the neighbour's face, by the three binary digits of the orientation flag:
the left one swaps the two directions, then the middle one reverses the first and the right one the second direction. -/
def matching (norient m1 m2 i j : Nat) : Nat × Nat :=
  let uv := if norient / 4 % 2 = 1 then (j, i) else (i, j)
  (if norient / 2 % 2 = 1 then m1 - 1 - uv.1 else uv.1, if norient % 2 = 1 then m2 - 1 - uv.2 else uv.2)

end IFEM.Spec
