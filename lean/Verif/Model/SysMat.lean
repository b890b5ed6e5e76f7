import Verif.Model.Sparse
import Verif.Model.Diag
import Mathlib.Algebra.Field.Defs
/-!
# Flags of non-zero equations of a system matrix

Models the member `nonZeroEqs` of `SystemMatrix` (src/LinAlg/SystemMatrix.h:231-233, 387; SystemMatrix.C:177-262), which is
common to all storage types: a list of flags, initially `[false]`.  The flags are modelled beside the matrix, because all
storage types handle them in the same way: `assemble(eM,sam,..,e)` ends with `flagNonZeroEqs(sam,meen)`
(DenseMatrix.C:333, 363, SparseMatrix.C:813, 829, DiagMatrix.C:103) and `add(sigma,ieq)` with `flagNonZeroEq(ieq)`.
-/
namespace IFEM.SysMat
variable {R : Type} [CommRing R]

/-- The flags of a new system matrix (SystemMatrix.h:231). -/
def newFlags : List Bool := [false]

/-- `initNonZeroEqs()` (SystemMatrix.C:177-181) for a matrix of dimension `n`. -/
def initFlags (n : Nat) : List Bool := List.replicate n false

/-- `flagNonZeroEq(ieq)` (SystemMatrix.C:184-196); `none` = returns false. -/
def flagEq (f : List Bool) (ieq : Int) : Option (List Bool) :=
  if f.length = 1 then some [true]
  else if ieq = 0 then some (f.map fun _ => true)
  else if ieq < 0 ∨ ieq > f.length then none
  else set1? f ieq true

/-- Body of the loop of `flagNonZeroEqs(sam,meq)` (SystemMatrix.C:206-219); `none` = returns false or an array is left. -/
def flagStep (s : Sam R) (f : List Bool) (ieq : Int) : Option (List Bool) :=
  if ieq > f.length then none
  else if ieq < 0 then
    (s.masterTerms (-ieq)).foldlM (fun (f : List Bool) t => t.bind fun t => set1? f t.1 true) f
  else if ieq > 0 then set1? f ieq true
  else some f

/-- `flagNonZeroEqs(sam,meq)` (SystemMatrix.C:199-223). -/
def flagEqs (s : Sam R) (f : List Bool) (meq : List Int) : Option (List Bool) :=
  if f.length = 1 then some [true] else meq.foldlM (flagStep s) f

/-- `flagNonZeroEqs(B)` (SystemMatrix.C:226-241) with the flags `g` of `B`. -/
def flagFrom (f g : List Bool) : List Bool :=
  if f.length = 1 then [true] else f.zipIdx.map fun p => p.1 || (g[p.2]?).getD false

/-- `isZero()` (SystemMatrix.C:244-251) for a matrix of dimension `n`. -/
def isZero (n : Nat) (f : List Bool) : Bool := if n < 1 then false else f.all (!·)

/-- `endAssembly()` (SystemMatrix.C:260-268) for a storage type with dimension function `dim` and `add(sigma,ieq)` (without
the flagging) `addD`; `none` = returns false. -/
def endAssembly {M : Type} (dim : M → Nat) (addD : M → R → Int → Option M) (st : M × List Bool) : Option (M × List Bool) :=
  if st.2.length > 1 ∧ isZero (dim st.1) st.2 = false then
    (List.range' 1 st.2.length).foldlM (fun (st : M × List Bool) (i : Nat) =>
      match st.2[i - 1]? with
      | none => none
      | some true => some st
      | some false => do
        let m ← addD st.1 (10 ^ 9) i
        let f ← flagEq st.2 i
        return (m, f)) st
  else some st

/-- The flagging at the end of `assemble(eM,sam,B,e)`, which `SAM::assembleSystem` calls for non-empty element matrices
only (SAM.C:430-467). -/
def flagElm (s : Sam R) (f : List Bool) (e : Sam.Elem R) : Option (List Bool) :=
  if e.eK.isEmpty then some f else do
    let meen ← s.getElmEqns e.iel e.eK.nrow
    flagEqs s f meen

/-- The element loop with flagging, for a storage type with element assembly `asm`. -/
def assembleAll {M : Type} (s : Sam R) (asm : M × List R → Sam.Elem R → Option (M × List R))
    (st : (M × List R) × List Bool) (es : List (Sam.Elem R)) : Option ((M × List R) × List Bool) :=
  es.foldlM (fun (st : (M × List R) × List Bool) e => do
    let mb ← asm st.1 e
    let f ← flagElm s st.2 e
    return (mb, f)) st

/-- `DenseMatrix::add(sigma,ieq)` (DenseMatrix.C:491-500) without the flagging; `none` = returns false or the array is left.
For `ieq ≤ 0` the BLAS call adds `sigma` to every `(nrow+1)`-th stored element, `nrow` times. -/
def denseAddDiag (K : Mat R) (sigma : R) (ieq : Int) : Option (Mat R) :=
  if ieq > K.nrow then none
  else if ieq > 0 then K.addAt? ieq ieq sigma
  else (List.range K.nrow).foldlM (fun (K : Mat R) (i : Nat) =>
    (add0? K.elem ((i * (K.nrow + 1) : Nat) : Int) sigma).map fun el => { K with elem := el }) K

/-- `DenseMatrix::add(B,alpha)` (DenseMatrix.C:476-488) for a dense `B`; `none` = returns false.
The second matrix may have fewer columns: `vector::add` adds as many elements as both have (vector.h). -/
def denseAdd (st stB : Mat R × List Bool) (alpha : R) : Option (Mat R × List Bool) :=
  if isZero stB.1.nrow stB.2 then some st
  else if st.1.nrow ≠ stB.1.nrow then none
  else if st.1.ncol < stB.1.ncol then none
  else some ({ st.1 with elem := st.1.elem.zipIdx.map fun p => p.1 + alpha * (stB.1.elem[p.2]?).getD 0 }, flagFrom st.2 stB.2)

/-- `DiagMatrix::add(sigma,ieq)` (DiagMatrix.C:174-184) without the flagging; `none` = returns false. -/
def diagAddDiag (d : List R) (sigma : R) (ieq : Int) : Option (List R) :=
  if ieq > d.length then none
  else if ieq > 0 then add1? d ieq sigma
  else some (d.map (· + sigma))

/-- `DiagMatrix::add(B,alpha)` (DiagMatrix.C:162-171); `none` = returns false. -/
def diagAdd (st stB : List R × List Bool) (alpha : R) : Option (List R × List Bool) :=
  if st.1.length ≠ stB.1.length then none
  else some (st.1.zipWith (fun a b => a + alpha * b) stB.1, flagFrom st.2 stB.2)

end IFEM.SysMat

namespace IFEM.SysMat
variable {F : Type} [Field F]

/-- The loop of `DiagMatrix::solve` (DiagMatrix.C:208-213): `j` is the offset of the pointer `b`, `tiny` the test
`fabs(pivot) < 1.0e-16`; `none` = the right-hand-side array is left. -/
def diagSolveLoop (tiny : F → Bool) : List F → Nat → Nat → List F → Option (Nat × List F)
  | [], _, nzero, b => some (nzero, b)
  | p :: ps, j, nzero, b =>
    if tiny p then diagSolveLoop tiny ps j (nzero + 1) b
    else match b[j]? with
      | none => none
      | some x => diagSolveLoop tiny ps (j + 1) nzero (b.set j (x / p))

/-- `DiagMatrix::solve(B)` (DiagMatrix.C:201-219): the returned value and the right-hand side, which holds the solution. -/
def diagSolve (tiny : F → Bool) (d b : List F) : Option (Bool × List F) :=
  if d.isEmpty then some (true, b) else do
    let r ← diagSolveLoop tiny d 0 0 b
    return (decide (r.1 = 0), r.2)

end IFEM.SysMat
