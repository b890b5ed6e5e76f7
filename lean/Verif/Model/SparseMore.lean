import Verif.Model.Sparse
import Mathlib.Algebra.Order.Ring.Defs
/-!
# Truncation of small entries of a sparse matrix

Models `SparseMatrix::truncate` (src/LinAlg/SparseMatrix.C:484-513).  The printed summary is not modelled.
-/
namespace IFEM.Sparse
variable {R : Type} [CommRing R] [LinearOrder R]

/-- The loop over the diagonal entries (SparseMatrix.C:488-494). -/
def diagTol (m : VMap R) : R :=
  m.foldl (fun tol p => if p.1.1 = p.1.2 then (if p.2 > tol then p.2 else if p.2 < -tol then -p.2 else tol) else tol) 0

/-- `truncate(threshold)` (SparseMatrix.C:484-513); `none` = returns false. -/
def truncate (M : Sparse R) (threshold : R) : Option (Sparse R) :=
  if M.editable = .locked then none else
    let tol := diagTol M.elem * threshold
    if M.editable = .pattern then
      some { M with elem := M.elem.filter fun p => decide (p.2 ≤ -tol) || decide (p.2 ≥ tol) }
    else
      some { M with elem := M.elem.map fun p => if p.2 ≤ -tol ∨ p.2 ≥ tol then p else (p.1, 0) }

end IFEM.Sparse
