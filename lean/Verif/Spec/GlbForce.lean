import Verif.Model.GlbForce
/-!
# Specification of nodal force resultants
-/
namespace IFEM.Spec

variable {R : Type} [CommRing R]

/-- The place in the element vector where the DOFs of the node at position `p` begin. -/
def dofOffset (ndof : Int → Nat) (mnpc : List Int) (p : Nat) : Nat := ((mnpc.take p).map ndof).sum

/-- Component `j` of the element forces at all occurrences of a node in an element. -/
def elementForce (ndof : Int → Nat) (node : Int) (j : Nat) (mnpc : List Int) (ES : List R) : R :=
  ∑ p ∈ Finset.range mnpc.length, if mnpc[p]? = some node then ES.getD (dofOffset ndof mnpc p + j) 0 else 0

/-- The sum of the element forces over the elements. -/
def nodalForce (ndof : Int → Nat) (node : Int) (j : Nat) (els : List (List Int × List R)) : R :=
  (els.map fun e => elementForce ndof node j e.1 e.2).sum

end IFEM.Spec
