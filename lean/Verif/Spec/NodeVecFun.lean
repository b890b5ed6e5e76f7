import Verif.Model.NodeVecFun
/-!
# Specification of nodal fields as functions
-/
namespace IFEM.Spec

variable {K : Type} [Field K] [LinearOrder K]

/-- Two points are at most `d` apart in each coordinate. -/
def NearPt (d : K) (a b : NVFun.Pt K) : Prop := |a.x - b.x| ≤ d ∧ |a.y - b.y| ≤ d ∧ |a.z - b.z| ≤ d

instance (d : K) (a b : NVFun.Pt K) : Decidable (NearPt d a b) := inferInstanceAs (Decidable (_ ∧ _ ∧ _))

/-- Entries of node `n` (from 1) of a field with `nf` values per node; zero if there are fewer than three. -/
def nodeVal (v : List K) (nf : Nat) (n : Nat) (j : Nat) : K := if j < nf then v.getD (nf * (n - 1) + j) 0 else 0

/-- Point of the model: coordinates and number of a node of some patch. -/
def NodeOf (patches : List (List (NVFun.Pt K × Int))) (p : NVFun.Pt K × Int) : Prop := ∃ pch ∈ patches, p ∈ pch

end IFEM.Spec
