import Mathlib.Data.List.Nodup
import Verif.Model.Colouring
/-!
# Specification: colouring of elements
-/
namespace IFEM.Spec
open IFEM.Threads

/-- Every one of the elements `0..nel-1` has exactly one colour. -/
structure IsColouring (groups : List (List Int)) (nel : Nat) : Prop where
  nodup : groups.flatten.Nodup
  mem : ∀ e : Int, e ∈ groups.flatten ↔ 0 ≤ e ∧ e < nel

/-- Assembly of element `e` of a Lagrange patch changes global node `g`: `g` is a node of the element, or a master of a constrained node of the element.
`MLGN` are the global numbers of the nodes of the patch, `MNPC` lists the (patch) nodes of each element. -/
def Touches (MLGN : List Nat) (MNPC : List (List Nat)) (mpcs : List NodeCpl) (e : Int) (g : Nat) : Prop :=
  ∃ (i : Nat) (nodes : List Nat) (n gn : Nat), e = i ∧ MNPC[i]? = some nodes ∧ n ∈ nodes ∧ MLGN[n]? = some gn ∧
    (g = gn ∨ ∃ c ∈ mpcs, c.slave = gn ∧ g ∈ c.masters)

/-- `support` (functions of each element) and `elms` (elements of each function) describe the same locally refined mesh. -/
structure LRMesh (support elms : List (List Nat)) : Prop where
  fwd : ∀ (e : Nat) (l : List Nat), support[e]? = some l → ∀ b ∈ l, ∃ m, elms[b]? = some m ∧ e ∈ m
  rng : ∀ (b : Nat) (m : List Nat), elms[b]? = some m → ∀ e ∈ m, e < support.length

end IFEM.Spec
