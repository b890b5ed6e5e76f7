import Verif.Model.AlgEq
import Verif.Model.SamQuery
/-!
# The algebraic equation system with several matrices, vectors and scalars

Models `AlgEqSystem` (src/ASM/AlgEqSystem.C:33-351): `init`, `setAssociatedVector`, `initialize` (here `initSystem`), `assemble`, `finalize` and `add`, and the element
matrices `ElmMats` (src/ASM/ElmMats.h, ElmMats.C), for dense storage.  As in `Model/AlgEq.lean`, `none` is a function returning false or an access
outside of an array; the state left behind then is not modelled.  The element loop can be run by several threads, each element by one of them
(`omp_get_thread_num()` is an argument); two threads never assemble at the same time (thread groups, C23), except for the scalars, for which each
thread has its own buffer.
-/
namespace IFEM.AlgSys
open IFEM

variable {R : Type} [CommRing R]

/-- `ElmMats` (ElmMats.h:104-130) with the number of the element and the thread that assembles it. -/
structure ElmData (R : Type) where
  iel : Nat
  thread : Nat
  A : List (Mat R)
  b : List (List R)
  c : List R
  rhsOnly : Bool
  withLHS : Bool

/-- The pointer `d` (AlgEqSystem.h:157): null, the address of `c`, or an array with one vector per thread. -/
inductive Buffer (R : Type) where
  | null
  | single
  | threads (d : List (List R))

/-- The members of `AlgEqSystem` (AlgEqSystem.h:154-158).  The vector associated with a matrix is given by its place in `b`. -/
structure Sys (R : Type) where
  A : List (Mat R × Option Nat)
  b : List (List R)
  c : List R
  d : Buffer R
  R : List R

/-- The empty matrix returned by `getNewtonMatrix` if there is none (ElmMats.C:32-47). -/
def emptyMat : Mat R := ⟨0, 0, []⟩

/-- `ElmMats::getNewtonMatrix` (ElmMats.C:32-47). -/
def ElmData.newton (e : ElmData R) : Mat R := e.A.headD emptyMat

/-- `ElmMats::getRHSVector` (ElmMats.C:50-65). -/
def ElmData.rhs (e : ElmData R) : List R := e.b.headD []

/-- `std::vector::resize(n,v)`. -/
def resize {β : Type} (l : List β) (n : Nat) (v : β) : List β := l.take n ++ List.replicate (n - l.length) v

/-- `AlgEqSystem::init` (AlgEqSystem.C:33-98) with `neq` equations and `nspdof` specified DOFs: the system matrices are set up as zero matrices,
and `StdVector::redim` (a vector resize) keeps the values of a vector kept from an earlier initialization. -/
def init (S : Sys R) (neq nspdof nmat nvec nscl : Nat) (reactions : Bool) : Sys R :=
  { A := if nmat = 1 ∧ nvec ≠ 0 then [(Mat.zero neq neq, some 0)] else List.replicate nmat (Mat.zero neq neq, none)
    b := (resize S.b nvec []).map fun v => resize v neq 0
    c := resize S.c nscl 0
    d := S.d
    R := if nmat = 1 ∧ nvec ≠ 0 ∧ reactions then List.replicate nspdof 0 else [] }

/-- `AlgEqSystem::setAssociatedVector` (AlgEqSystem.C:173-181). -/
def setAssociatedVector (S : Sys R) (imat ivec : Nat) : Sys R × Bool :=
  if imat < S.A.length ∧ ivec < S.b.length then ({ S with A := S.A.modify imat fun p => (p.1, some ivec) }, true) else (S, false)

/-- `AlgEqSystem::initialize` (AlgEqSystem.C:184-212); `SystemMatrix::init` sets all entries to zero. -/
def initSystem (S : Sys R) (initLHS : Bool) (nthread : Nat) : Sys R :=
  let c0 := S.c.map fun _ => 0
  { A := if initLHS then S.A.map fun p => (Mat.zero p.1.nrow p.1.ncol, p.2) else S.A
    b := S.b.map fun v => v.map fun _ => 0
    c := c0
    d := if c0 = [] then S.d else if nthread > 1 then .threads (List.replicate nthread c0) else .single
    R := S.R.map fun _ => 0 }

/-- The assembly of the vectors of an element into the system vectors (AlgEqSystem.C:253-254, 267-268). -/
def assembleVecs (s : Sam R) (iel : Nat) : List (List R) → List (List R) → Option (List (List R))
  | B :: bs, f :: fs => do
    let B' ← s.assembleVec B f iel
    let bs' ← assembleVecs s iel bs fs
    return B' :: bs'
  | bs, _ => some bs

/-- `SAM::assembleSystem(sysM,eM,iel)` (SAM.C:470-474) with `DenseMatrix::assemble(eM,sam,e)` (DenseMatrix.C:312-339): no right-hand side. -/
def assembleLhs (s : Sam R) (K : Mat R) (eK : Mat R) (iel : Nat) : Option (Mat R) :=
  if eK.isEmpty then some K else (s.assembleDense K [] eK iel).map Prod.fst

/-- The loop body for the matrices of an element (AlgEqSystem.C:273-283). -/
def matStep (s : Sam R) (iel : Nat) (rhsOnly : Bool) (K : Mat R) (a : Option Nat) (eK : Mat R) (b : List (List R)) : Option (Mat R × List (List R)) :=
  match a with
  | some j =>
    match b[j]? with
    | none => none
    | some B =>
      if rhsOnly then (s.assembleRhsOnly B eK iel).map fun B' => (K, b.set j B')
      else (s.assembleMat K B eK iel).map fun r => (r.1, b.set j r.2)
  | none =>
    if rhsOnly then some (K, b)
    else (assembleLhs s K eK iel).map fun K' => (K', b)

/-- The loop over the matrices (AlgEqSystem.C:272-283). -/
def assembleMats (s : Sam R) (iel : Nat) (rhsOnly : Bool) :
    List (Mat R × Option Nat) → List (Mat R) → List (List R) → Option (List (Mat R × Option Nat) × List (List R))
  | (K, a) :: As, eK :: eKs, b =>
    match matStep s iel rhsOnly K a eK b with
    | none => none
    | some (K', b') =>
      match assembleMats s iel rhsOnly As eKs b' with
      | none => none
      | some (As', b'') => some ((K', a) :: As', b'')
  | As, _, b => some (As, b)

/-- The reaction forces from an element vector and an element matrix (`reac` in AlgEqSystem.C:233-249). -/
def reactStep (s : Sam R) (iel : Nat) (rf : List R) (e : ElmData R) : Option (List R) :=
  if rf = [] then some []
  else
    (if e.rhs = [] then some rf else s.assembleReactions rf e.rhs iel).bind fun rf1 =>
      if e.withLHS then s.assembleMatReactions rf1 e.newton iel else some rf1

/-- The matrix part of the branch for one matrix (AlgEqSystem.C:241-249). -/
def newtonStep (s : Sam R) (K : Mat R) (B : List R) (e : ElmData R) : Option (Mat R × List R) :=
  if e.withLHS then
    if e.rhsOnly then (s.assembleRhsOnly B e.newton e.iel).map fun B' => (K, B')
    else s.assembleMat K B e.newton e.iel
  else some (K, B)

/-- The matrices and vectors in `AlgEqSystem::assemble` (AlgEqSystem.C:229-284). -/
def assembleSystems (s : Sam R) (A : List (Mat R × Option Nat)) (b : List (List R)) (e : ElmData R) :
    Option (List (Mat R × Option Nat) × List (List R)) :=
  match A, b with
  | [(K, a)], B :: bs =>
    match s.assembleVec B e.rhs e.iel with
    | none => none
    | some B1 =>
      match newtonStep s K B1 e with
      | none => none
      | some (K', B2) =>
        match assembleVecs s e.iel bs (e.b.drop 1) with
        | none => none
        | some bs' => some ([(K', a)], B2 :: bs')
  | A, b =>
    match assembleVecs s e.iel b e.b with
    | none => none
    | some b' => if e.withLHS then assembleMats s e.iel e.rhsOnly A e.A b' else some (A, b')

/-- `d[it][i] += elMat->c[i]` for all `i` below both sizes (AlgEqSystem.C:295-296). -/
def addTo : List R → List R → List R
  | x :: xs, y :: ys => (x + y) :: addTo xs ys
  | xs, _ => xs

/-- The assembly of the scalars (AlgEqSystem.C:290-296). -/
def assembleScl (c : List R) (d : Buffer R) (thread : Nat) (ec : List R) : Option (List R × Buffer R) :=
  if c = [] ∨ ec = [] then some (c, d)
  else
    match d with
    | .null => none
    | .single => if thread = 0 then some (addTo c ec, .single) else none
    | .threads l =>
      match l[thread]? with
      | none => none
      | some x => some (c, .threads (l.set thread (addTo x ec)))

/-- `AlgEqSystem::assemble` (AlgEqSystem.C:215-303). -/
def assemble (s : Sam R) (S : Sys R) (e : ElmData R) : Option (Sys R) :=
  if e.A = [] ∧ e.b = [] then some S
  else
    match (if S.A.length = 1 ∧ S.b ≠ [] then reactStep s e.iel S.R e else some S.R), assembleSystems s S.A S.b e, assembleScl S.c S.d e.thread e.c with
    | some R', some (A', b'), some (c', d') => some ⟨A', b', c', d', R'⟩
    | _, _, _ => none

/-- `AlgEqSystem::finalize` (AlgEqSystem.C:306-351): there is nothing to do for dense matrices and vectors in `endAssembly`. -/
def finalize (S : Sys R) (nthread : Nat) : Option (Sys R) :=
  if S.c = [] then some S
  else if nthread > 1 then
    match S.d with
    | .threads l =>
      if l.length < nthread then none
      else some { S with c := (l.take nthread).foldl addTo S.c, d := .null }
    | _ => none
  else some S

/-- `AlgEqSystem::add` (AlgEqSystem.C:132-149) for vectors; the bound of the loop over the vectors is the number of matrices of `that`, the
bound of the loop over the reaction forces the number of vectors. -/
def addVecs (nA : Nat) : Nat → List (List R) → List (List R) → Option (List (List R))
  | i, B :: bs, tb =>
    if i < nA then
      match tb with
      | [] => none
      | T :: ts => (addVecs nA (i+1) bs ts).map fun r => addTo B T :: r
    else some (B :: bs)
  | _, [], _ => some []

/-- `DenseMatrix::add(B,1)` (DenseMatrix.C:476-488): the entries in storage order; the matrix is unchanged if the dimensions do not fit.  The
test for a matrix without contributions (`isZero`) is not modelled. -/
def addMat (K T : Mat R) : Mat R := if K.nrow ≠ T.nrow ∨ K.ncol < T.ncol then K else { K with elem := addTo K.elem T.elem }

/-- `AlgEqSystem::add` (AlgEqSystem.C:132-149). -/
def add (S T : Sys R) : Option (Sys R) :=
  match addVecs T.A.length 0 S.b T.b with
  | none => none
  | some b' =>
    if min S.b.length T.R.length > S.R.length then none
    else
      some { S with
        A := S.A.zipIdx.map fun p => match T.A[p.2]? with | some t => (addMat p.1.1 t.1, p.1.2) | none => p.1
        b := b'
        c := addTo S.c T.c
        R := addTo (S.R.take S.b.length) T.R ++ S.R.drop S.b.length }

/-- The element loop. -/
def assembleAll (s : Sam R) (S : Sys R) (es : List (ElmData R)) : Option (Sys R) := es.foldlM (assemble s) S

end IFEM.AlgSys
