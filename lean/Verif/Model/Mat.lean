import Verif.Model.Arrays
/-!
# Dense matrices

Models `utl::matrix` (src/LinAlg/matrix.h:307-620, column-wise storage, 1-based `operator()`
with index `r-1+nrow*(c-1)`).
-/
namespace IFEM

/-- src/LinAlg/matrix.h:307-320, 455-490 (`matrixBase::n`, `elem`, `matrix::nrow`, `ncol`): column-major storage. -/
structure Mat (R : Type) where
  nrow : Nat
  ncol : Nat
  elem : List R

namespace Mat
variable {R : Type}

/-- The storage has the declared size (maintained by `redim`/`resize`, src/LinAlg/matrix.h:337-369, 488). -/
def WF (m : Mat R) : Prop := m.elem.length = m.nrow * m.ncol

/-- `matrix::operator()(r,c) const` (src/LinAlg/matrix.h:606-611), 1-based; the index check that
`INDEX_CHECK` only performs in debug mode is always performed here. -/
def get? (m : Mat R) (r c : Int) : Option R :=
  if 1 ≤ r ∧ r ≤ m.nrow ∧ 1 ≤ c ∧ c ≤ m.ncol then
    m.elem[(r-1).toNat + m.nrow * (c-1).toNat]?
  else none

/-- `m(r,c) += v` through `matrix::operator()(r,c)` (src/LinAlg/matrix.h:597-602). -/
def addAt? [Add R] (m : Mat R) (r c : Int) (v : R) : Option (Mat R) :=
  if 1 ≤ r ∧ r ≤ m.nrow ∧ 1 ≤ c ∧ c ≤ m.ncol then
    match m.elem[(r-1).toNat + m.nrow * (c-1).toNat]? with
    | some x => some { m with elem := m.elem.set ((r-1).toNat + m.nrow * (c-1).toNat) (x + v) }
    | none => none
  else none

/-- A zero matrix, `resize(r,c,true)` (src/LinAlg/matrix.h:337-369, 488). -/
def zero [Zero R] (r c : Nat) : Mat R := ⟨r, c, List.replicate (r*c) 0⟩

/-- Specification view: the mathematical entry at `(r,c)`, zero outside the matrix. -/
def val [Zero R] (m : Mat R) (r c : Int) : R := (m.get? r c).getD 0

end Mat

/-- Specification view: the entry of a vector at the 1-based index `r`, zero outside. -/
def vval {R : Type} [Zero R] (b : List R) (r : Int) : R := (at1? b r).getD 0

end IFEM
