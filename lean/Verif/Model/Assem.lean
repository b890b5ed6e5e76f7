import Verif.Model.Sam
import Verif.Model.Mat
import Mathlib.Data.List.FinRange
import Mathlib.Algebra.Ring.Defs
/-!
# Assembly of element matrices

`assemDense` (src/LinAlg/DenseMatrix.C:235-309) and `assemSparse` (src/LinAlg/SparseMatrix.C:614-690)
are line-by-line identical loops except for the type of `SM`.  The tables they read are never written,
so the loops are modelled as the list, in source order, of the additions
they perform; `none` in the list stands for an out-of-bounds table access.
-/
namespace IFEM

/-- One addition performed by the assembly loops: `SM(r,c) += v` or `SV(r) += v`. -/
inductive Upd (R : Type) where
  | mat (r c : Int) (v : R)
  | vec (r : Int) (v : R)

variable {R : Type} [CommRing R]

/-- `eM(i+1,j+1)` for 0-based element DOF indices. -/
def Mat.elm? (eM : Mat R) (i j : Nat) : Option R := eM.get? ((i : Int)+1) ((j : Int)+1)

namespace Sam

/-- First part: elements corresponding to free dofs (DenseMatrix.C:239-257, SparseMatrix.C:618-636). -/
def assemFree (eM : Mat R) (meen : List Int) : List (Option (Upd R)) :=
  (List.finRange meen.length).flatMap fun (j : Fin meen.length) =>
    let jeq := meen[j]
    if jeq < 1 then [] else
      (eM.elm? j j).map (Upd.mat jeq jeq) ::
      ((List.finRange meen.length).filter (· < j)).flatMap fun (i : Fin meen.length) =>
        let ieq := meen[i]
        if ieq < 1 then [] else
          [(eM.elm? i j).map (Upd.mat ieq jeq), (eM.elm? j i).map (Upd.mat jeq ieq)]

/-- Contributions of constrained dof `j` to the right-hand side (DenseMatrix.C:270-285). -/
def assemSlaveRHS (s : Sam R) (eM : Mat R) (meen : List Int) (j : Fin meen.length) (c0 : R) :
    List (Option (Upd R)) :=
  (List.finRange meen.length).flatMap fun (i : Fin meen.length) =>
    let ieq := meen[i]
    if ieq > 0 then [(eM.elm? i j).map fun v => Upd.vec ieq (-(c0 * v))]
    else if -ieq > 0 then
      (s.masterTerms (-ieq)).map fun t =>
        t.bind fun t => (eM.elm? i j).map fun v => Upd.vec t.1 (-(c0 * t.2 * v))
    else []

/-- Contributions of constrained dof `j` to the matrix (DenseMatrix.C:287-307). -/
def assemSlaveMat (s : Sam R) (eM : Mat R) (meen : List Int) (j : Fin meen.length) :
    List (Option (Upd R)) :=
  (s.masterTerms (-meen[j])).flatMap fun tj =>
    match tj with
    | none => [none]
    | some (jeq, cj) =>
      (List.finRange meen.length).flatMap fun (i : Fin meen.length) =>
        let ieq := meen[i]
        if ieq > 0 then
          [(eM.elm? i j).map fun v => Upd.mat ieq jeq (cj * v),
           (eM.elm? j i).map fun v => Upd.mat jeq ieq (cj * v)]
        else if -ieq > 0 then
          (s.masterTerms (-ieq)).map fun ti =>
            ti.bind fun ti => (eM.elm? i j).map fun v => Upd.mat ti.1 jeq (ti.2 * cj * v)
        else []

/-- Body of the second loop, for element dof `j` (DenseMatrix.C:261-308). -/
def assemSlave (s : Sam R) (eM : Mat R) (meen : List Int) (haveSV : Bool) (j : Fin meen.length) :
    List (Option (Upd R)) :=
  if -meen[j] < 1 then [] else
    match s.offset? (-meen[j]) with
    | none => [none]
    | some c0 =>
      (if haveSV then s.assemSlaveRHS eM meen j c0 else []) ++ s.assemSlaveMat eM meen j

/-- Second part: weighted contributions of the constrained dofs (DenseMatrix.C:259-308,
SparseMatrix.C:638-688). -/
def assemSlaves (s : Sam R) (eM : Mat R) (meen : List Int) (haveSV : Bool) : List (Option (Upd R)) :=
  (List.finRange meen.length).flatMap fun (j : Fin meen.length) => s.assemSlave eM meen haveSV j

/-- `assemDense` / `assemSparse`: all additions performed, in order. -/
def assemUpd (s : Sam R) (eM : Mat R) (meen : List Int) (haveSV : Bool) : List (Option (Upd R)) :=
  assemFree eM meen ++ s.assemSlaves eM meen haveSV

/-- Perform one addition on a dense matrix and a right-hand-side vector. -/
def applyDense (st : Mat R × List R) : Option (Upd R) → Option (Mat R × List R)
  | none => none
  | some (.mat r c v) => (st.1.addAt? r c v).map fun m => (m, st.2)
  | some (.vec r v) => (add1? st.2 r v).map fun b => (st.1, b)

/-- `DenseMatrix::assemble(eM,sam,B,e)` (DenseMatrix.C:342-369).  `none` = returns false or leaves an
array.  An empty `B` is not touched (`SV.empty()`).  The flags of non-zero equations are modelled in
`Model/SysMat.lean`. -/
def assembleDense (s : Sam R) (K : Mat R) (B : List R) (eM : Mat R) (iel : Int) :
    Option (Mat R × List R) :=
  if K.nrow ≠ s.neq ∨ K.ncol < s.neq then none else do
    let meen ← s.getElmEqns iel eM.nrow
    (s.assemUpd eM meen (!B.isEmpty)).foldlM applyDense (K, B)

end Sam
end IFEM
