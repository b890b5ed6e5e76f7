import Verif.Spec.Galerkin
import Verif.Model.AlgSys
/-!
# Specification of an equation system with several matrices, vectors and scalars

Global shape functions `N` of the equations (`BasisField`), the lift `g` of the prescribed values (`LiftField`) and element sums, as for a single
matrix and vector in `Spec/Galerkin.lean`.
-/
namespace IFEM.Spec
open IFEM.Sam IFEM.AlgSys

variable {R : Type} [CommRing R]

/-- The work of the element forces `f` on `N`. -/
def vecWork (D : FEModel R) (iel : Nat) (N : Nat → R) (f : List R) : R :=
  ∑ i : Fin (D.dofsOf iel).length, atDof N (D.dofsOf iel)[i] * vval f ((i:Int)+1)

/-- The value of the bilinear form of the element matrix `M` for `N` and `u`. -/
def matWork (D : FEModel R) (iel : Nat) (N u : Nat → R) (M : Mat R) : R :=
  ∑ i : Fin (D.dofsOf iel).length, ∑ j : Fin (D.dofsOf iel).length,
    atDof N (D.dofsOf iel)[i] * M.val ((i:Int)+1) ((j:Int)+1) * atDof u (D.dofsOf iel)[j]

/-- The matrices and vectors of an element have the dimension of the element. -/
structure DataFits (D : FEModel R) (e : ElmData R) : Prop where
  range : 1 ≤ e.iel ∧ e.iel ≤ D.elems.length
  mats  : ∀ M ∈ e.A, MatFits D (D.nodesOf e.iel) M
  vecs  : ∀ f ∈ e.b, f.length = (D.dofsOf e.iel).length

/-- Square matrices and vectors of `n` equations; the associated vectors exist. -/
structure SysFits (n : Nat) (A : List (Mat R × Option Nat)) (b : List (List R)) : Prop where
  mats  : ∀ p ∈ A, p.1.WF ∧ p.1.nrow = n ∧ p.1.ncol = n
  vecs  : ∀ v ∈ b, v.length = n
  assoc : ∀ p ∈ A, ∀ j, p.2 = some j → j < b.length

/-- For each system matrix the vector that receives the contributions of the prescribed values: always the first one if there is only one
matrix, otherwise the associated vector, if any. -/
def links (A : List (Mat R × Option Nat)) (b : List (List R)) : List (Option Nat) :=
  if A.length = 1 ∧ b ≠ [] then [some 0] else A.map Prod.snd

/-- The contribution of an element to the entry of matrix `i` of the equations with the shape functions `N` and `N'`. -/
def matPart (D : FEModel R) (e : ElmData R) (i : Nat) (N N' : Nat → R) : R :=
  if e.withLHS = true ∧ e.rhsOnly = false then (e.A[i]?).elim 0 (matWork D e.iel N N') else 0

/-- The contribution of an element to the entry of vector `j` of the equation with the shape function `N`, for the lift `g`: its forces, minus the
terms of the prescribed values from all matrices linked with this vector. -/
def vecPart (D : FEModel R) (ls : List (Option Nat)) (e : ElmData R) (j : Nat) (N g : Nat → R) : R :=
  (e.b[j]?).elim 0 (vecWork D e.iel N) -
    ∑ i ∈ Finset.range ls.length, if ls[i]? = some (some j) ∧ e.withLHS = true then (e.A[i]?).elim 0 (matWork D e.iel N g) else 0

/-- Entry `(r,c)` of system matrix `i`. -/
def matVal (A : List (Mat R × Option Nat)) (i : Nat) (r c : Int) : R := ((A.map Prod.fst).getD i ⟨0, 0, []⟩).val r c

/-- Entry `r` of system vector `j`. -/
def vecVal (b : List (List R)) (j : Nat) (r : Int) : R := vval (b.getD j []) r

end IFEM.Spec
