import Verif.Model.WeakOps
import Verif.Model.Sparse
import Verif.Model.SysMat
/-!
# Global L2-projection

Models src/ASM/GlbL2projector.C (both versions) with `assembleL2matrices` of ASMs2Drecovery.C and
ASMs3Drecovery.C, `SparseMatrix::assemble(eM,meq)`, `SparseMatrix::preAssemble(MMNPC,nel)`,
`StdVector::assemble` and `SystemMatrix::solve(b,x)`.

Simplifications: exact arithmetic in a field; node numbers are not negative; an integration point
comes with the values of the basis functions, its weight and the values to be projected (`none` if
their evaluation failed); the linear equation solver is a parameter; the elements are assembled one
after the other; accesses outside an array and error messages from the sparse matrix are `none`.
-/
namespace IFEM.L2
open IFEM.Weak

variable {R : Type} [Field R]

/-- An integration point: basis functions, weight times Jacobian determinant, values to project.
GlbL2projector.C:344-371 -/
structure Pt (R : Type) where
  N : List R
  w : R
  f : Option (List R)

/-- An element: its nodes, from 0, and its integration points. -/
structure El (R : Type) where
  mnpc : List Nat
  pts : List (Pt R)

/-- The loop over the right-hand sides.  GlbL2projector.C:368-369, ASMs2Drecovery.C:292-293 -/
def addVecs (b : List (List R)) (N f : List R) (w : R) : Option (List (List R)) :=
  (List.range f.length).foldlM (fun (b : List (List R)) (j : Nat) => do
    let v ← b[j]?
    let x ← f[j]?
    some (b.set j (addStr v N (x * w) 0 1))) b

/-- `GL2::evalInt`.  GlbL2projector.C:344-371 -/
def evalInt (st : Mat R × List (List R)) (p : Pt R) : Option (Mat R × List (List R)) := do
  let f ← p.f
  let A ← outerTo st.1 p.N p.N true p.w
  let b ← addVecs st.2 p.N f p.w
  some (A, b)

/-- The element matrix and vectors, from a new `L2Mats`.  GlbL2projector.C:185-192 -/
def elmInt (nrhs : Nat) (e : El R) : Option (Mat R × List (List R)) :=
  e.pts.foldlM evalInt (Mat.zero e.mnpc.length e.mnpc.length, List.replicate nrhs (List.replicate e.mnpc.length 0))

/-- The inner loop of `L2GlobalInt::assemble` for the matrix.  GlbL2projector.C:496-500 -/
def rowA (A : Mat R) (mnpc : List Nat) (i inod : Nat) (M : Sparse R) : Option (Sparse R) :=
  (List.range mnpc.length).foldlM (fun (M : Sparse R) (j : Nat) => do
    let jnod ← mnpc[j]?
    let a ← A.get? ((i : Int) + 1) ((j : Int) + 1)
    M.addAt? inod (jnod + 1) a) M

/-- The inner loop of `L2GlobalInt::assemble` for the vectors: the right-hand side and `inod`.
GlbL2projector.C:501-505 -/
def rowB (b : List (List R)) (dim i : Nat) (st : List R × Nat) : Option (List R × Nat) :=
  b.foldlM (fun (st : List R × Nat) (v : List R) => do
    let x ← v[i]?
    let B ← add1? st.1 (st.2 : Int) x
    some (B, st.2 + dim)) st

/-- `L2GlobalInt::assemble`; the flags of non-zero equations are not used afterwards.
GlbL2projector.C:488-508 -/
def assemble2 (n : Nat) (mnpc : List Nat) (A : Mat R) (b : List (List R)) (st : Sparse R × List R) : Option (Sparse R × List R) :=
  (List.range mnpc.length).foldlM (fun (st : Sparse R × List R) (i : Nat) => do
    let inod ← mnpc[i]?
    let M ← rowA A mnpc i (inod + 1) st.1
    let r ← rowB b n i (st.2, inod + 1)
    some (M, r.1)) st

/-- One off-diagonal pair of `SparseMatrix::preAssemble(MMNPC,nel)`.  SparseMatrix.C:780-781 -/
def prePair (M : Sparse R) (inod jnod : Nat) : Option (Sparse R) := do
  let M ← M.setAt? (jnod + 1) (inod + 1) 0
  M.setAt? (inod + 1) (jnod + 1) 0

/-- One node of an element in `SparseMatrix::preAssemble(MMNPC,nel)`.  SparseMatrix.C:775-782 -/
def preNode (mnpc : List Nat) (M : Sparse R) (j : Nat) : Option (Sparse R) := do
  let jnod ← mnpc[j]?
  let M ← M.setAt? (jnod + 1) (jnod + 1) 0
  (List.range j).foldlM (fun (M : Sparse R) (i : Nat) => do
    let inod ← mnpc[i]?
    prePair M inod jnod) M

/-- `SparseMatrix::preAssemble(MMNPC,nel)`; it does nothing with one thread.
SparseMatrix.C:765-786 -/
def preAssemble (threads : Bool) (M : Sparse R) (MMNPC : List (List Nat)) (nel : Nat) : Option (Sparse R) :=
  if threads then do
    let M ← (MMNPC.take (if nel = 0 then MMNPC.length else nel)).foldlM (fun (M : Sparse R) (mnpc : List Nat) =>
      (List.range mnpc.length).foldlM (preNode mnpc) M) M
    M.compressPattern
  else some M

variable [DecidableEq R]

/-- `if (A(i,i) == 0.0) A(i,i) = 1.0`; the reading through the non-const operator adds the entry to
an open pattern.  GlbL2projector.C:412-413 -/
def fixDiag (M : Sparse R) (i : Nat) : Option (Sparse R) := do
  let M ← M.modify? id i i
  let v ← M.get? i i
  if v = 0 then M.setAt? i i 1 else some M

/-- `SystemMatrix::solve(b,x)` after the equations have been solved: the matrix of solutions.
SystemMatrix.C:302-322 -/
def arrange (n : Nat) (s : List R) : Option (Mat R) :=
  let nrhs := if n > 0 then s.length / n else 0
  if n * nrhs ≠ s.length then none
  else (Mat.pairs nrhs n).foldlM (fun (x : Mat R) (q : Nat × Nat) => do
    let v ← s[q.1 * n + q.2]?
    x.setAt? (q.1 + 1) (q.2 + 1) v) (Mat.zero nrhs n)

/-- The loop over the elements, version 2. -/
def integrate2 (n nrhs : Nat) (es : List (El R)) (st : Sparse R × List R) : Option (Sparse R × List R) :=
  es.foldlM (fun (st : Sparse R × List R) (e : El R) => do
    let r ← elmInt nrhs e
    assemble2 n e.mnpc r.1 r.2 st) st

/-- The system of the projection, version 2: the constructor of `GL2`, `preAssemble`, the loop over the elements
and the diagonal entries.  GlbL2projector.C:227-260, 384-413, 527-533 -/
def system2 (threads : Bool) (n nrhs : Nat) (MMNPC : List (List Nat)) (nel : Nat) (es : List (El R)) : Option (Sparse R × List R) := do
  let M ← preAssemble threads ({ nrow := n, ncol := n, solver := .superlu } : Sparse R) MMNPC nel
  let st ← integrate2 n nrhs es (M, List.replicate (n * nrhs) 0)
  let M ← (List.range' 1 n).foldlM fixDiag st.1
  some (M, st.2)

/-- `ASMbase::L2projection`, with a solver that returns the solution vectors or fails.
GlbL2projector.C:523-551 -/
def project2 (solver : Sparse R → List R → Option (List R)) (threads : Bool) (n nrhs : Nat) (MMNPC : List (List Nat)) (nel : Nat)
    (es : List (El R)) : Option (Mat R) := do
  let st ← system2 threads n nrhs MMNPC nel es
  let s ← solver st.1 st.2
  arrange n s

/-- The copy of the rows of one function.  GlbL2projector.C:452-456 -/
def copyRows (X : Mat R) (n irow ncomp : Nat) : Option (Mat R) :=
  (Mat.pairs ncomp n).foldlM (fun (Y : Mat R) (q : Nat × Nat) => do
    let v ← X.get? ((irow + q.1 : Nat) : Int) ((q.2 : Int) + 1)
    Y.setAt? (q.1 + 1) (q.2 + 1) v) (Mat.zero ncomp n)

/-- The splitting of the solutions in `GL2::solve`: one matrix for each function.
GlbL2projector.C:445-460 -/
def split (X : Mat R) (n : Nat) (dims : List Nat) : Option (List (Mat R)) :=
  match dims with
  | [] => none
  | [_] => some [X]
  | d :: ds => do
    let r ← ds.foldlM (fun (st : List (Mat R) × Nat) (ncomp : Nat) => do
      let Y ← copyRows X n st.2 ncomp
      some (st.1 ++ [Y], st.2 + ncomp)) (([] : List (Mat R)), d + 1)
    let X ← X.expandRows d true
    some (X :: r.1)

/-- `SparseMatrix::assemble(eM,meq)` without the flags.  SparseMatrix.C:848-859 -/
def assembleA (A : Mat R) (mnpc : List Nat) (M : Sparse R) : Option (Sparse R) :=
  (Mat.pairs A.nrow A.ncol).foldlM (fun (M : Sparse R) (q : Nat × Nat) => do
    let inod ← mnpc[q.1]?
    let jnod ← mnpc[q.2]?
    let a ← A.get? ((q.1 : Int) + 1) ((q.2 : Int) + 1)
    M.addAt? (inod + 1) (jnod + 1) a) M

/-- `StdVector::assemble`: the vector and `ofs`.  SystemMatrix.C:65-75 -/
def assembleB (b : List (List R)) (mnpc : List Nat) (neq : Nat) (B : List R) : Option (List R × Nat) :=
  b.foldlM (fun (st : List R × Nat) (v : List R) => do
    let B ← (List.range v.length).foldlM (fun (B : List R) (i : Nat) => do
      let inod ← mnpc[i]?
      let x ← v[i]?
      add1? B ((st.2 + inod + 1 : Nat) : Int) x) st.1
    some (B, st.2 + neq)) (B, 0)

/-- The flags of `SparseMatrix::assemble(eM,meq)`.  SparseMatrix.C:850-852 -/
def flagNodes (mnpc : List Nat) (f : List Bool) : Option (List Bool) :=
  mnpc.foldlM (fun (f : List Bool) (i : Nat) => SysMat.flagEq f ((i : Int) + 1)) f

/-- One point of `assembleL2matrices`; singular points are left out.  ASMs2Drecovery.C:281-293 -/
def evalInt1 (st : Mat R × List (List R)) (p : Pt R) : Option (Mat R × List (List R)) :=
  if p.w = 0 then some st else evalInt st p

/-- One element of `assembleL2matrices`.  ASMs2Drecovery.C:231-297 -/
def element1 (n nrhs : Nat) (st : (Sparse R × List Bool) × List R) (e : El R) : Option ((Sparse R × List Bool) × List R) :=
  if e.mnpc.isEmpty then some st
  else do
    let r ← e.pts.foldlM evalInt1 (Mat.zero e.mnpc.length e.mnpc.length, List.replicate nrhs (List.replicate e.mnpc.length 0))
    let f ← flagNodes e.mnpc st.1.2
    let M ← assembleA r.1 e.mnpc st.1.1
    let B ← assembleB r.2 e.mnpc n st.2
    some ((M, f), B.1)

/-- The system of the projection, version 1, for a patch with (`active`) or without element activation; `es` are the
active elements.  GlbL2projector.C:586-648, ASMs2Drecovery.C:211-302 -/
def system1 (active threads : Bool) (n nrhs : Nat) (gmnpc : List (List Nat)) (es : List (El R)) : Option (Sparse R × List R) := do
  let M ← preAssemble threads ({ nrow := n, ncol := n, solver := .superlu } : Sparse R) gmnpc gmnpc.length
  let st ← es.foldlM (element1 n nrhs) ((M, if active then SysMat.initFlags n else SysMat.newFlags), List.replicate (n * nrhs) 0)
  let r ← SysMat.endAssembly (fun M : Sparse R => M.nrow) Sparse.addDiag st.1
  some (r.1, st.2)

/-- The corner values replace those of the projection.  GlbL2projector.C:690-705 -/
def enforceEnds (X sCorner : Mat R) (corners : List Nat) : Option (Mat R) :=
  (List.range corners.length).foldlM (fun (X : Mat R) (i : Nat) => do
    let c ← corners[i]?
    let v ← sCorner.getColumn (i + 1)
    X.fillColumn c v) X

/-- `ASMbase::globalL2projection`; `ends` are the corner nodes and values if they shall be enforced.
GlbL2projector.C:578-708 -/
def project1 (solver : Sparse R → List R → Option (List R)) (active threads : Bool) (n nrhs : Nat) (gmnpc : List (List Nat))
    (es : List (El R)) (ends : Option (List Nat × Mat R)) : Option (Mat R) := do
  let st ← system1 active threads n nrhs gmnpc es
  let s ← solver st.1 st.2
  let X ← arrange n s
  match ends with
  | none => some X
  | some q => enforceEnds X q.2 q.1

/-- The point indices of an element in the order of the loops, 2D.  ASMs2Drecovery.C:235-237, 271-272 -/
def points2 (ng1 ng2 nel1 iel : Nat) : List Nat :=
  ((List.range ng2).foldl (fun (st : List Nat × Nat) (_ : Nat) =>
    let r := (List.range ng1).foldl (fun (st : List Nat × Nat) (_ : Nat) => (st.1 ++ [st.2], st.2 + 1)) st
    (r.1, r.2 + ng1*(nel1-1))) ([], ((iel/nel1)*ng1*nel1 + iel%nel1)*ng2)).1

/-- The point indices of an element in the order of the loops, 3D.  ASMs3Drecovery.C:243-246, 282-284 -/
def points3 (ng1 ng2 ng3 nel1 nel2 iel : Nat) : List Nat :=
  ((List.range ng3).foldl (fun (st : List Nat × Nat) (_ : Nat) =>
    let r := (List.range ng2).foldl (fun (st : List Nat × Nat) (_ : Nat) =>
      let r := (List.range ng1).foldl (fun (st : List Nat × Nat) (_ : Nat) => (st.1 ++ [st.2], st.2 + 1)) st
      (r.1, r.2 + ng1*(nel1-1))) st
    (r.1, r.2 + ng2*(nel2-1)*ng1*nel1)) ([], (((iel/(nel1*nel2))*ng2*nel2 + (iel/nel1)%nel2)*ng1*nel1 + iel%nel1)*ng3)).1

/-- `expandTensorGrid2`.  GlbL2projector.C:59-72 -/
def expandGrid2 {α : Type} (u v : List α) : List α × List α :=
  (v.flatMap fun _ => u, v.flatMap fun y => u.map fun _ => y)

/-- `expandTensorGrid3`.  GlbL2projector.C:92-107 -/
def expandGrid3 {α : Type} (u v w : List α) : List α × List α × List α :=
  (w.flatMap fun _ => v.flatMap fun _ => u, w.flatMap fun _ => v.flatMap fun y => u.map fun _ => y, w.flatMap fun z => v.flatMap fun _ => u.map fun _ => z)

/-- The dimensionless parameter handed to `evalPoint` by `L2FuncIntegrand::evaluate` for the
parameter `g` in the domain from `u0` to `u1`.  GlbL2projector.C:157-158 -/
def funcParam (u0 u1 g : R) : R := u0 + g / (u1 - u0)

/-- The parameter `evalPoint` evaluates at, for a dimensionless parameter.  ASMs2D.C (evalPoint) -/
def evalParam (u0 u1 xi : R) : R := (1 - xi) * u0 + xi * u1

end IFEM.L2
