import Verif.Spec.FEModel
import Verif.Model.AlgEq
import Mathlib.Algebra.BigOperators.Fin
import Mathlib.Order.Interval.Finset.Defs
import Mathlib.Data.Int.Interval
/-!
# Specification: the discrete variational problem

Element sums and virtual work, without reference to equations, assembly or storage.
-/
namespace IFEM.Spec
open IFEM.Sam
variable {R : Type} [CommRing R]

/-- An element matrix has the dimension of the element. -/
structure MatFits (D : FEModel R) (nodes : List Int) (eK : Mat R) : Prop where
  wf  : eK.WF
  row : eK.nrow = (D.elmDofs nodes).length
  col : eK.ncol = (D.elmDofs nodes).length

/-- The nodes of element `iel` (1-based). -/
def FEModel.nodesOf (D : FEModel R) (iel : Nat) : List Int := D.elems.getD (iel-1) []

/-- The DOFs of element `iel`. -/
def FEModel.dofsOf (D : FEModel R) (iel : Nat) : List (Option Nat) := D.elmDofs (D.nodesOf iel)

/-- Element data (number, matrix, vector) conforming to the model. -/
structure ElemFits (D : FEModel R) (e : Elem R) : Prop where
  range : 1 ≤ e.iel ∧ e.iel ≤ D.elems.length
  mat   : MatFits D (D.nodesOf e.iel) e.eK
  vec   : e.eF.length = (D.dofsOf e.iel).length

/-- Work of the element residual `F_e - K_e u` on the variation `w`. -/
def elmWork (D : FEModel R) (u w : Nat → R) (e : Elem R) : R :=
  ∑ i : Fin (D.dofsOf e.iel).length, atDof w (D.dofsOf e.iel)[i] *
    (vval e.eF ((i:Int)+1) -
      ∑ j : Fin (D.dofsOf e.iel).length, e.eK.val ((i:Int)+1) ((j:Int)+1) * atDof u (D.dofsOf e.iel)[j])

/-- `u` solves the constrained discrete problem given by the elements `es`: it obeys the constraints and
the sum of the element residuals does no work on any admissible variation. -/
structure Solves (D : FEModel R) (es : List (Elem R)) (u : Nat → R) : Prop where
  adm  : D.Admissible 1 u
  work : ∀ w, D.Admissible 0 w → (es.map (elmWork D u w)).sum = 0

/-- `x` solves the linear equation system `K x = B`. -/
def SolvesSystem (n : Nat) (K : Mat R) (B x : List R) : Prop :=
  ∀ r : Int, 1 ≤ r → r ≤ n → ∑ c ∈ Finset.Icc (1:Int) n, K.val r c * vval x c = vval B r

/-- The matrix is symmetric. -/
def Symm (K : Mat R) : Prop := ∀ r c, K.val r c = K.val c r

end IFEM.Spec
