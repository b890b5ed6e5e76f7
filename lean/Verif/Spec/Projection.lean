import Verif.Model.Projection
import Verif.Spec.Matrix
import Mathlib.Algebra.BigOperators.Group.Finset.Basic
/-!
# Specification of the L2-projection

The value of a field at a point is the sum of basis functions times nodal values.  The projection of
a function is the field that differs from it by something orthogonal to all fields.
-/
namespace IFEM.Spec.L2
open IFEM IFEM.L2

variable {R : Type} [Field R]

/-- The value at a point of the field with the nodal values `c`. -/
def val (mnpc : List Nat) (p : Pt R) (c : Nat → R) : R := ∑ a ∈ Finset.range mnpc.length, p.N.getD a 0 * c (mnpc.getD a 0)

/-- The sum over all integration points. -/
def total (es : List (El R)) (g : List Nat → Pt R → R) : R := (es.map fun e => (e.pts.map fun p => g e.mnpc p).sum).sum

/-- The scalar product of two fields. -/
def inner (es : List (El R)) (v u : Nat → R) : R := total es fun m p => p.w * val m p v * val m p u

/-- The component `j` of the values to be projected, at a point. -/
def comp (p : Pt R) (j : Nat) : R := (p.f.getD []).getD j 0

/-- The scalar product of a field with the component `j` of the function. -/
def load (es : List (El R)) (j : Nat) (v : Nat → R) : R := total es fun m p => p.w * val m p v * comp p j

/-- The squared distance of a field from the component `j` of the function. -/
def dist2 (es : List (El R)) (j : Nat) (c : Nat → R) : R := total es fun m p => p.w * (val m p c - comp p j) ^ 2

/-- The elements have nodes below `n`, at every point one basis function per node, and `nrhs` values. -/
def Fits (n nrhs : Nat) (es : List (El R)) : Prop :=
  ∀ e ∈ es, e.mnpc ≠ [] ∧ (∀ i ∈ e.mnpc, i < n) ∧ ∀ p ∈ e.pts, p.N.length = e.mnpc.length ∧ ∃ f, p.f = some f ∧ f.length = nrhs

/-- The same for the first version, where elements may be empty and only points with a weight matter. -/
def Fits1 (n nrhs : Nat) (es : List (El R)) : Prop :=
  ∀ e ∈ es, (∀ i ∈ e.mnpc, i < n) ∧ ∀ p ∈ e.pts, p.w ≠ 0 → p.N.length = e.mnpc.length ∧ ∃ f, p.f = some f ∧ f.length = nrhs

/-- The bilinear form of the values of a sparse matrix. -/
def form (n : Nat) (M : Sparse R) (v u : Nat → R) : R :=
  ∑ i ∈ Finset.range n, ∑ k ∈ Finset.range n, v i * (M.get? (i+1) (k+1)).getD 0 * u k

/-- The part `j` of a right-hand side as a linear form. -/
def rhs (n : Nat) (B : List R) (j : Nat) (v : Nat → R) : R := ∑ i ∈ Finset.range n, v i * B.getD (j * n + i) 0

/-- A solver that returns nothing but solutions: for every right-hand side, matrix times solution. -/
def Solver (n : Nat) (solver : Sparse R → List R → Option (List R)) : Prop :=
  ∀ M B x, solver M B = some x → x.length = B.length ∧
    ∀ j i, j * n + i < B.length → i < n → ∑ k ∈ Finset.range n, (M.get? (i+1) (k+1)).getD 0 * x.getD (j * n + k) 0 = B.getD (j * n + i) 0

/-- The nodal values of the component `j` in the matrix of results. -/
def nodal (X : Mat R) (j : Nat) (i : Nat) : R := (X.get? ((j : Int) + 1) ((i : Int) + 1)).getD 0

/-- The field with the value 1 at the node `i` and 0 at all others. -/
def single (i : Nat) : Nat → R := fun k => if k = i then 1 else 0

/-- With several threads, the sparsity pattern covers the elements and all nodes. -/
def Covered (threads : Bool) (n : Nat) (MMNPC : List (List Nat)) (nel : Nat) (es : List (El R)) : Prop :=
  threads = true → (∀ m ∈ MMNPC.take (if nel = 0 then MMNPC.length else nel), ∀ i ∈ m, i < n) ∧
    (∀ i < n, ∃ m ∈ MMNPC.take (if nel = 0 then MMNPC.length else nel), i ∈ m) ∧
    ∀ e ∈ es, e.mnpc ∈ MMNPC.take (if nel = 0 then MMNPC.length else nel)

end IFEM.Spec.L2
