import Verif.Model.LagNodes
import Mathlib.Algebra.BigOperators.Group.List.Basic
/-!
# Specification of the nodal coordinates of Lagrange patches
-/
namespace IFEM.Spec

variable {K : Type} [Field K]

/-- The movement of node `n` of `N` nodes in direction `i` by an update: the component of the displacement if the vector has the right size, or the shift. -/
def move (N n : Nat) (i : Fin 3) : LagNodes.Upd K → K
  | .displ d nsd => if d.length = nsd * N ∧ i.val < nsd then d.getD (nsd * n + i.val) 0 else 0
  | .origin o => o i

/-- Coordinate `i` of node `n`. -/
def nodeCoord (coord : List (Fin 3 → K)) (n : Nat) (i : Fin 3) : K := (coord.getD n fun _ => 0) i

end IFEM.Spec
