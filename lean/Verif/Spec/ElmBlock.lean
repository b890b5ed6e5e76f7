import Verif.Model.ElmBlock
import Mathlib.Data.List.Forall2
/-!
# Specification of blocks of visualization elements

What a block draws: a list of elements, each with an external number and the points of its corners.
-/
namespace IFEM.Spec
open IFEM.VBlk

variable {P Q : Type}

/-- The block stores the elements `els`, given by their node numbers, with the external numbers `ids`: the nodes exist; with one type the nodes
follow each other, and with mixed types (`nen = 0`) a negative number follows the nodes of each element. -/
structure Stores (B : Block P Q) (els : List (List Nat)) (ids : List Int) : Prop where
  names : B.minex = ids
  count : ids.length = els.length
  nodes : ∀ e ∈ els, ∀ k ∈ e, k < B.coord.length
  conn  : if B.nen > 0 then B.mmnpc = (els.flatMap fun e => e.map fun k : Nat => (k : Int)) ∧ ∀ e ∈ els, e.length = B.nen
          else B.mmnpc = els.flatMap fun e => (e.map fun k : Nat => (k : Int)) ++ [-1]

/-- The corner points of the elements. -/
def corners (coord : List P) (els : List (List Nat)) : List (List (Option P)) := els.map fun e => e.map fun k : Nat => coord[k]?

/-- The same corner points, up to the comparison of points. -/
def SameCorners (same : P → P → Prop) (X Y : List (List (Option P))) : Prop :=
  List.Forall₂ (List.Forall₂ fun x y => ∃ a b, x = some a ∧ y = some b ∧ (a = b ∨ same a b)) X Y

/-- The elements in blocks by their number of nodes, in the order 2, 3, 4, 6, 8, 9, 27. -/
def blockwise (els : List (List Nat)) : List (List Nat) := [2, 3, 4, 6, 8, 9, 27].flatMap fun n => els.filter fun e => e.length = n

/-- The node in row `m` (from pole to pole) of meridian `n` of a sphere with `nTheta` meridians and `nPhi` rows of elements: the poles have the
numbers 0 and 1, the other nodes follow meridian by meridian. -/
def sphereNode (nTheta nPhi n m : Nat) : Nat :=
  if m = 0 then 0 else if m = nPhi then 1 else 2 + (n % nTheta) * (nPhi - 1) + (m - 1)

/-- The node of a cylinder: the centres of the ends have the numbers 0 and `nTheta+1`, each followed by the nodes around it. -/
def cylinderRing (nTheta : Nat) (top : Bool) (n : Nat) : Nat := (if top then nTheta + 1 else 0) + 1 + n % nTheta

end IFEM.Spec
