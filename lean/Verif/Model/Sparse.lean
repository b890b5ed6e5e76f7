import Verif.Model.AlgEq
import Verif.Model.SamQuery
/-!
# Sparse system matrices

Models `SparseMatrix` (src/LinAlg/SparseMatrix.h, .C): the editable index-pair map, its locked-pattern variant
and the two compressed formats.  The equation solvers, printing, and OpenMP reductions are not modelled
(a reduction is a sum, computed sequentially here).
-/
namespace IFEM

/-- `SparseMatrix::ValueMap` = `std::map<std::pair<size_t,size_t>,Real>` (SparseMatrix.h:43-48), by its list of
pairs in iteration order. -/
abbrev VMap (R : Type) := List ((Nat × Nat) × R)

namespace VMap
variable {R : Type}

/-- `operator<` of `std::pair<size_t,size_t>`. -/
def keyLt (a b : Nat × Nat) : Bool := decide (a.1 < b.1) || (a.1 == b.1 && decide (a.2 < b.2))

/-- `std::map::find`. -/
def find? (m : VMap R) (k : Nat × Nat) : Option R := (List.find? (fun p => p.1 == k) m).map Prod.snd

/-- `m[k] = f(m[k])`, where `m[k]` inserts a zero if `k` is missing. -/
def modify [Zero R] (f : R → R) (k : Nat × Nat) : VMap R → VMap R
  | [] => [(k, f 0)]
  | (k', x) :: m =>
    if k == k' then (k', f x) :: m
    else if keyLt k k' then (k, f 0) :: (k', x) :: m
    else (k', x) :: modify f k m

end VMap

/-- The `editable` flag (SparseMatrix.h:282): 'P' (pattern editable), 'V' (values editable) or 0 (compressed). -/
inductive Editable | pattern | values | locked
deriving DecidableEq

/-- `SparseMatrix::SparseSolver` (SparseMatrix.h:38-39). -/
inductive SparseSolver | none | superlu | samg | umfpack
deriving DecidableEq

/-- Member data (SparseMatrix.h:282-306). -/
structure Sparse (R : Type) where
  nrow : Nat
  ncol : Nat
  editable : Editable := .pattern
  solver : SparseSolver
  elem : VMap R := []
  IA : List Int := []
  JA : List Int := []
  A : List R := []

namespace Sparse
variable {R : Type}

/-- `solver == SUPERLU || solver == UMFPACK`: column-oriented compressed format, 0-based (SparseMatrix.C:288, 323). -/
def colFormat (M : Sparse R) : Bool := M.solver == .superlu || M.solver == .umfpack

/-- `std::vector::resize(n,v)`. -/
def resizeTo {α : Type} (a : List α) (n : Nat) (v : α) : List α := a.take n ++ List.replicate (n - a.length) v

/-- `std::find(JA.begin()+b, JA.begin()+e, x)`: the position, `some none` = not found;
`none` = the range leaves the array. -/
def findFrom (JA : List Int) (x : Int) : List Int → Option (Option Int)
  | [] => some none
  | p :: ps => do
    let y ← at0? JA p
    if y = x then return some p else findFrom JA x ps

/-- The position of entry `(r,c)` in the compressed format (SparseMatrix.C:288-301, 323-334). -/
def locate (M : Sparse R) (r c : Nat) : Option (Option Int) :=
  if M.colFormat then do
    let b ← at0? M.IA ((c : Int) - 1)
    let e ← at0? M.IA c
    findFrom M.JA ((r : Int) - 1) (intRange b e)
  else do
    let b ← at0? M.IA ((r : Int) - 1)
    let e ← at0? M.IA r
    findFrom M.JA c (intRange (b-1) (e-1))

/-- Index range check (SparseMatrix.C:272, 314). -/
def inRange (M : Sparse R) (r c : Nat) : Bool := decide (1 ≤ r ∧ r ≤ M.nrow ∧ 1 ≤ c ∧ c ≤ M.ncol)

/-- `operator()(r,c) const` (SparseMatrix.C:311-338): zero for out-of-range indices and missing entries. -/
def get? [Zero R] (M : Sparse R) (r c : Nat) : Option R :=
  if !M.inRange r c then some 0
  else match M.editable with
  | .locked => do
    match ← M.locate r c with
    | some p => at0? M.A p
    | none => some 0
  | _ => some ((VMap.find? M.elem (r, c)).getD 0)

/-- `M(r,c) = f(M(r,c))` through the non-const `operator()` (SparseMatrix.C:270-308).  `none` when an error message
is printed and the result goes to a scratch variable: index out of range or entry missing in a locked pattern
(or an array is left). -/
def modify? [Zero R] (M : Sparse R) (f : R → R) (r c : Nat) : Option (Sparse R) :=
  if !M.inRange r c then none
  else match M.editable with
  | .pattern => some { M with elem := VMap.modify f (r, c) M.elem }
  | .values =>
    match VMap.find? M.elem (r, c) with
    | some _ => some { M with elem := VMap.modify f (r, c) M.elem }
    | none => none
  | .locked => do
    match ← M.locate r c with
    | some p => do
      let x ← at0? M.A p
      let A ← set0? M.A p (f x)
      return { M with A := A }
    | none => none

/-- `M(r,c) += v`. -/
def addAt? [Zero R] [Add R] (M : Sparse R) (r c : Nat) (v : R) : Option (Sparse R) := M.modify? (· + v) r c

/-- `M(r,c) = v`. -/
def setAt? [Zero R] (M : Sparse R) (r c : Nat) (v : R) : Option (Sparse R) := M.modify? (fun _ => v) r c

/-- `size()` (SparseMatrix.h:80): the number of stored entries. -/
def size (M : Sparse R) : Nat := if M.editable = .locked then M.A.length else M.elem.length

/-- `lockPattern` (SparseMatrix.C:196-201). -/
def lockPattern (M : Sparse R) (doLock : Bool) : Sparse R :=
  if M.editable = .locked then M else { M with editable := if doLock then .values else .pattern }

/-- `resize(r,c,forceEditable)` (SparseMatrix.C:204-234). -/
def resize [Zero R] (M : Sparse R) (r c : Nat) (forceEditable : Bool := false) : Sparse R :=
  let c := if c = 0 then r else c
  if r = M.nrow ∧ c = M.ncol ∧ !forceEditable then
    { M with elem := M.elem.map fun p => (p.1, 0), A := M.A.map fun _ => 0 }
  else { M with nrow := r, ncol := c, editable := .pattern, elem := [], IA := [], JA := [], A := [] }

/-- `init` (SparseMatrix.C:798-801). -/
def init [Zero R] (M : Sparse R) : Sparse R := M.resize M.nrow M.ncol

/-- `redim` (SparseMatrix.C:237-253); `none` = returns false. -/
def redim (M : Sparse R) (r c : Nat) : Option (Sparse R) :=
  if M.editable ≠ .pattern then none else
    let c := if c > 0 then c else r
    some { M with nrow := r, ncol := c, elem := M.elem.filter fun p => !(decide (p.1.1 > r) || decide (p.1.2 > c)) }

/-- The loop `while (row > cur_row) IA[cur_row++] = ix+1;` (SparseMatrix.C:909-910), with value `v = ix+1`. -/
def fillIA (IA : List Int) (cur row : Nat) (v : Int) : Option (List Int) :=
  (intRange cur row).foldlM (fun (IA : List Int) i => set0? IA i v) IA

/-- The row-pointer loop (SparseMatrix.C:904-911) over the map entries. -/
def rowPtrs : VMap R → List Int → Nat → Nat → Option (List Int)
  | [], IA, _, _ => some IA
  | p :: ps, IA, cur, ix => do
    let IA' ← fillIA IA cur p.1.1 ((ix : Int) + 1)
    rowPtrs ps IA' (max cur p.1.1) (ix+1)

/-- Swap of two array elements. -/
def swap? {α : Type} (a : List α) (i j : Int) : Option (List α) := do
  let x ← at0? a i
  let y ← at0? a j
  let a ← set0? a i y
  set0? a j x

/-- Diagonal term first, for row `r` (0-based) (SparseMatrix.C:917-929). -/
def diagFirst (st : List Int × List R) (IA : List Int) (r : Nat) : Option (List Int × List R) := do
  let b ← at0? IA r
  let e ← at0? IA ((r : Int) + 1)
  let rstart := b - 1
  let rend := e - 1
  match ← findFrom st.1 ((r : Int) + 1) (intRange rstart rend) with
  | none => return st
  | some d =>
    if d > rstart then do
      let JA ← swap? st.1 rstart d
      let A ← swap? st.2 rstart d
      return (JA, A)
    else return st

/-- `optimiseRows()` (SparseMatrix.C:876-932), not transposed; `none` = returns false. -/
def optimiseRows (M : Sparse R) [Zero R] : Option (Sparse R) :=
  if M.editable = .locked then none else do
    let nnz := M.elem.length
    let IA ← set0? (resizeTo M.IA (M.nrow+1) ((nnz : Int)+1)) 0 1
    let IA ← rowPtrs M.elem IA 1 0
    let (JA, A) ← (List.range M.nrow).foldlM (fun st r => diagFirst st IA r)
      (M.elem.map fun p => (p.1.2 : Int), M.elem.map Prod.snd)
    return { M with editable := .locked, elem := [], IA := IA, JA := JA, A := A }

/-- The counting loop `IA[col-1]++` (SparseMatrix.C:945-950, 992-998) over a list of column numbers;
`none` if an index is out of the range `1..ncol` (returns false). -/
def countCols (ncol : Nat) : List Nat → List Int → Option (List Int)
  | [], IA => some IA
  | c :: cs, IA =>
    if c ≤ ncol then do
      let x ← at0? IA ((c : Int) - 1)
      let IA ← set0? IA ((c : Int) - 1) (x+1)
      countCols ncol cs IA
    else none

/-- The loop `for (j = 1; j < ncol; j++) { k += jsize; jsize = IA[j]; IA[j] = k; }` (SparseMatrix.C:954-958, 1002-1006). -/
def prefixLoop : List Int → List Int → Int → Int → Option (List Int)
  | [], IA, _, _ => some IA
  | j :: js, IA, k, jsize => do
    let x ← at0? IA j
    let IA ← set0? IA j (k + jsize)
    prefixLoop js IA (k + jsize) x

/-- Column pointers from column counts (SparseMatrix.C:953-958). -/
def colStarts (ncol : Nat) (IA : List Int) : Option (List Int) := do
  let x ← at0? IA 0
  let IA ← set0? IA 0 0
  prefixLoop (intRange 1 ncol) IA 0 x

/-- The reset loop (SparseMatrix.C:969-971, 1015-1017): `IA[j] = IA[j-1]` for `j = ncol..1`, then `IA[0] = 0`. -/
def shiftStarts (ncol : Nat) (IA : List Int) : Option (List Int) := do
  let IA ← (intRange 1 ((ncol : Int)+1)).reverse.foldlM (fun (IA : List Int) j => do
    let x ← at0? IA (j-1)
    set0? IA j x) IA
  set0? IA 0 0

/-- The placement loop (SparseMatrix.C:961-966) over triplets (row, column, value). -/
def place : List (Nat × Nat × R) → List Int → List Int → List R → Option (List Int × List Int × List R)
  | [], IA, JA, A => some (IA, JA, A)
  | (r, c, v) :: ts, IA, JA, A => do
    let k ← at0? IA ((c : Int) - 1)
    let IA ← set0? IA ((c : Int) - 1) (k+1)
    let JA ← set0? JA k ((r : Int) - 1)
    let A ← set0? A k v
    place ts IA JA A

/-- Compression of a list of triplets into column-oriented format (common part of the two `optimiseCols`). -/
def compressCols [Zero R] (ncol : Nat) (IA0 : List Int) (ts : List (Nat × Nat × R)) :
    Option (List Int × List Int × List R) := do
  let IA ← countCols ncol (ts.map fun t => t.2.1) (resizeTo IA0 (ncol+1) 0)
  let IA ← colStarts ncol IA
  let (IA, JA, A) ← place ts IA (List.replicate ts.length 0) (List.replicate ts.length 0)
  let IA ← shiftStarts ncol IA
  return (IA, JA, A)

/-- `optimiseCols()` (SparseMatrix.C:936-977); `none` = returns false. -/
def optimiseCols [Zero R] (M : Sparse R) : Option (Sparse R) :=
  if M.editable = .locked then none
  else if M.elem.any fun p => decide (p.1.1 > M.nrow) then none
  else do
    let (IA, JA, A) ← compressCols M.ncol M.IA (M.elem.map fun p => (p.1.1, p.1.2, p.2))
    return { M with editable := .locked, elem := [], IA := IA, JA := JA, A := A }

/-- `optimiseCols(dofc)` (SparseMatrix.C:984-1023): the pattern is given as one set of (1-based) columns per row.
The map `elem` is left as it is, but it is not used in the locked state. -/
def optimiseColsPat [Zero R] (M : Sparse R) (dofc : List (List Int)) : Option (Sparse R) :=
  if M.editable = .locked then none
  else if dofc.length > M.nrow ∧ (dofc.drop M.nrow).any (fun l => !l.isEmpty) then none
  else do
    let ts := (List.zipIdx dofc).flatMap fun p => p.1.map fun k => (p.2 + 1, k.toNat, (0 : R))
    if dofc.any (fun l => l.any (· < 1)) then none else
    let (IA, JA, A) ← compressCols M.ncol M.IA ts
    return { M with editable := .locked, IA := IA, JA := JA, A := A }

/-- `compressPattern` (SparseMatrix.C:789-795). -/
def compressPattern [Zero R] (M : Sparse R) : Option (Sparse R) :=
  match M.solver with
  | .superlu | .umfpack => M.optimiseCols
  | .samg => M.optimiseRows
  | .none => some M

/-- `mult` (SparseMatrix.C:515-522). -/
def mult [Mul R] (M : Sparse R) (alpha : R) : Sparse R :=
  if M.editable = .locked then { M with A := M.A.map (· * alpha) }
  else { M with elem := M.elem.map fun p => (p.1, p.2 * alpha) }

/-- All stored entries `(row, column, value)` in the order `add`, `multiply` and `Linfnorm` visit them, reading the
compressed arrays in the format given by `col` (SparseMatrix.C:546-556, 592-602, 1412-1421). -/
def triplets (M : Sparse R) (col : Bool) : Option (List (Int × Int × R)) :=
  if M.editable ≠ .locked then some (M.elem.map fun p => ((p.1.1 : Int), (p.1.2 : Int), p.2))
  else if col then do
    let parts ← (List.range' 1 M.ncol).mapM fun (j : Nat) => do
      let b ← at0? M.IA ((j : Int) - 1)
      let e ← at0? M.IA j
      (intRange b e).mapM fun i => do return ((← at0? M.JA i) + 1, (j : Int), ← at0? M.A i)
    return parts.flatten
  else do
    let parts ← (List.range' 1 M.nrow).mapM fun (i : Nat) => do
      let b ← at0? M.IA ((i : Int) - 1)
      let e ← at0? M.IA i
      (intRange b e).mapM fun j => do return ((i : Int), ← at0? M.JA (j-1), ← at0? M.A (j-1))
    return parts.flatten

variable [CommRing R]

/-- `add(B,alpha)` (SparseMatrix.C:525-562), the flags of non-zero equations aside; `none` = returns false.
`B.isZero()` is passed as an argument.  In the third branch the format of `B` is guessed from **this** solver. -/
def add (M B : Sparse R) (alpha : R) (bIsZero : Bool) : Option (Sparse R) :=
  if bIsZero then some M
  else if B.nrow > M.nrow ∨ B.ncol > M.ncol then none
  else if M.editable = .pattern then do
    let ts ← B.triplets M.colFormat
    return { M with elem := ts.foldl (fun m t => VMap.modify (· + alpha * t.2.2) (t.1.toNat, t.2.1.toNat) m) M.elem }
  else if M.editable = .locked ∧ B.editable = .locked then
    if M.A.length = B.A.length ∧ M.IA = B.IA ∧ M.JA = B.JA then
      some { M with A := List.zipWith (fun a b => a + alpha * b) M.A B.A }
    else none
  else none

/-- `add(sigma,ieq)` (SparseMatrix.C:565-575); the result of the flagging of equations is not modelled. -/
def addDiag (M : Sparse R) (sigma : R) (ieq : Int) : Option (Sparse R) :=
  if ieq > M.nrow then none
  else if ieq > 0 then M.addAt? ieq.toNat ieq.toNat sigma
  else (List.range' 1 (min M.nrow M.ncol)).foldlM (fun M i => M.addAt? i i sigma) M

/-- `multiply(B,C)` (SparseMatrix.C:578-606): the product; `none` = returns false.
Note that the column-oriented branch is taken for SUPERLU only. -/
def multiply (M : Sparse R) (x : List R) : Option (List R) :=
  if x.length < M.ncol then none else do
    let ts ← M.triplets (M.solver == .superlu)
    ts.foldlM (fun (y : List R) t => do
      let xv ← at1? x t.2.1
      add1? y t.1 (t.2.2 * xv)) (List.replicate M.nrow 0)

/-- Perform one addition of `assemSparse` (SparseMatrix.C:614-690).  Equation numbers are `int`; a non-positive one
converts to a `size_t` outside the matrix, which `operator()` rejects. -/
def applyUpd (st : Sparse R × List R) : Option (Upd R) → Option (Sparse R × List R)
  | none => none
  | some (.mat r c v) => if r < 1 ∨ c < 1 then none else (st.1.addAt? r.toNat c.toNat v).map fun m => (m, st.2)
  | some (.vec r v) => (add1? st.2 r v).map fun b => (st.1, b)

/-- `assemble(eM,sam,B,e)` (SparseMatrix.C:817-830) without the flagging of equations; `none` = returns false, or an
entry is missing in a locked pattern, or an array is left. -/
def assemble (s : Sam R) (M : Sparse R) (B : List R) (eM : Mat R) (iel : Int) : Option (Sparse R × List R) := do
  let meen ← s.getElmEqns iel eM.nrow
  (s.assemUpd eM meen (!B.isEmpty)).foldlM applyUpd (M, B)

/-- `augment(B,r0,c0)` (SparseMatrix.C:460-480); `none` = returns false. -/
def augment (M B : Sparse R) (r0 c0 : Nat) : Option (Sparse R) :=
  if M.editable ≠ .pattern ∨ B.editable = .locked then none else
    let n1 := if r0 + B.nrow > M.nrow then r0 + B.nrow else M.nrow
    let m1 := if r0 + B.nrow > M.ncol then r0 + B.nrow else M.ncol
    let m2 := if c0 + B.ncol > m1 then c0 + B.ncol else m1
    let n2 := if c0 + B.ncol > n1 then c0 + B.ncol else n1
    some { M with
      nrow := n2
      ncol := m2
      elem := B.elem.foldl (fun m p =>
        VMap.modify (· + p.2) (c0 + p.1.2, r0 + p.1.1) (VMap.modify (· + p.2) (r0 + p.1.1, c0 + p.1.2) m)) M.elem }

/-- `getColumn(c,col)` (SparseMatrix.C:1500-1511); `none` = returns false (or an array is left). -/
def getColumn (M : Sparse R) (c : Nat) : Option (List R) :=
  if M.elem.isEmpty ∨ c < 1 ∨ c > M.ncol then none else
    M.elem.foldlM (fun (col : List R) p =>
      if p.1.2 = c then set1? col p.1.1 p.2 else some col) (List.replicate M.nrow 0)

/-! ## Pre-assembly of the sparsity pattern -/

/-- `preAssemble(sam,delayLocking)` (SparseMatrix.C:731-762), with the couplings `dofc` computed by
`sam.getDofCouplings`; `none` when an assignment or `optimiseCols`/`optimiseRows` fails. -/
def preAssemblePat (M : Sparse R) (dofc : List (List Int)) (delayLocking : Bool) : Option (Sparse R) :=
  if M.editable ≠ .pattern then some M
  else if delayLocking then do
    let M ← (List.zipIdx dofc).foldlM (fun M p =>
      p.1.foldlM (fun (M : Sparse R) k => if k < 1 then none else M.setAt? (p.2+1) k.toNat 0) M) M
    return { M with editable := .values }
  else
    let M := { M with editable := .values }
    match M.solver with
    | .superlu | .umfpack => M.optimiseColsPat dofc
    | .samg => M.optimiseRows
    | .none => some M

/-- `preAssemble(sam,delayLocking)`. -/
def preAssemble (s : Sam R) (M : Sparse R) (delayLocking : Bool) : Option (Sparse R) := do
  let dofc ← s.getDofCouplings
  M.preAssemblePat dofc delayLocking

/-- `initAssembly(sam,preAssembly)` (SparseMatrix.C:718-729) without OpenMP: 'F' locks the pattern, 'f' delays. -/
def initAssembly (s : Sam R) (M : Sparse R) (preAssembly : Option Bool) : Option (Sparse R) :=
  let M := M.resize s.neq s.neq
  match preAssembly with
  | some delay => M.preAssemble s delay
  | none => some M

/-- `SAM::assembleSystem(sysK,sysRHS,eK,iel)` (SAM.C:430-467) without reaction forces, for sparse storage. -/
def assembleMat (s : Sam R) (M : Sparse R) (B : List R) (eK : Mat R) (iel : Int) : Option (Sparse R × List R) :=
  if eK.isEmpty then some (M, B) else assemble s M B eK iel

/-- `AlgEqSystem::assemble` (AlgEqSystem.C:230-250), see `Sam.assembleElm`, for sparse storage. -/
def assembleElm (s : Sam R) (st : Sparse R × List R) (e : Sam.Elem R) : Option (Sparse R × List R) := do
  let B ← s.assembleVec st.2 e.eF e.iel
  assembleMat s st.1 B e.eK e.iel

/-- The element loop. -/
def assembleAll (s : Sam R) (st : Sparse R × List R) (es : List (Sam.Elem R)) : Option (Sparse R × List R) :=
  es.foldlM (assembleElm s) st

end Sparse
end IFEM
