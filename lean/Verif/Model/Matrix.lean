import Verif.Model.Mat
import Mathlib.Algebra.Field.Basic
import Mathlib.Algebra.Order.Group.Unbundled.Abs
/-!
# Dense matrices: operations

Models `utl::matrix` and `utl::vector` (src/LinAlg/matrix.h).  Nested loops over indices are written as one loop over the pairs (or triples) of indices in the
same order.  The matrix products are those of the implementation without BLAS (1575-1825); of the BLAS versions only the choice of the entries that are used in
`dot`, `norm2`, `asum` and `normInf` is modelled (1105-1180).  `none` is an access outside an array.
-/
namespace IFEM
namespace Mat

variable {R : Type}

/-- The pairs of indices `i < m`, `j < n` with `j` running fastest. -/
def pairs (m n : Nat) : List (Nat × Nat) := (List.range m).flatMap fun i => (List.range n).map fun j => (i, j)

/-- The triples of indices with the last one running fastest. -/
def triples (m n k : Nat) : List (Nat × Nat × Nat) := (List.range m).flatMap fun i => (pairs n k).map fun q => (i, q)

/-- `m(r,c) = v` (matrix.h:597-602). -/
def setAt? (m : Mat R) (r c : Nat) (v : R) : Option (Mat R) :=
  if 1 ≤ r ∧ r ≤ m.nrow ∧ 1 ≤ c ∧ c ≤ m.ncol ∧ r - 1 + m.nrow * (c - 1) < m.elem.length then
    some { m with elem := m.elem.set (r - 1 + m.nrow * (c - 1)) v }
  else none

/-- `matrixBase::redim` and `matrix::resize` (matrix.h:337-369, 488-491, 1065-1068). -/
def resize [Zero R] (m : Mat R) (r c : Nat) (forceClear : Bool) : Mat R :=
  let m : Mat R := if forceClear then (if m.nrow * m.ncol = r * c then { m with elem := m.elem.map fun _ => 0 } else ⟨0, 0, []⟩) else m
  if m.nrow = r ∧ m.ncol = c then m
  else if m.nrow * m.ncol = r * c then ⟨r, c, m.elem⟩
  else
    let e := if !forceClear && decide (m.nrow ≠ r) then [] else m.elem
    ⟨r, c, e.take (r*c) ++ List.replicate (r*c - e.length) 0⟩

/-- `memmove` of `n` entries within an array; `none` when it leaves the array. -/
def memmove (a : List R) (dst src n : Nat) : Option (List R) :=
  if src + n ≤ a.length ∧ dst + n ≤ a.length then some (a.take dst ++ (a.drop src).take n ++ a.drop (dst + n)) else none

/-- Writes the values one after the other from position `i` on; `none` when it leaves the array. -/
def write (a : List R) (i : Nat) (v : List R) : Option (List R) :=
  if i + v.length ≤ a.length then some (a.take i ++ v ++ a.drop (i + v.length)) else none

/-- `matrix::expandRows` (matrix.h:497-532).  `none` also stands for the endless loop over `r` with `oldRows = 0` and at least two columns. -/
def expandRows [Zero R] (m : Mat R) (inc : Int) (setRows : Bool) : Option (Mat R) :=
  let inc : Int := if setRows then inc - m.nrow else inc
  let new : Int := (m.nrow : Int) + inc
  if new < 1 ∨ m.ncol < 1 then some ⟨0, 0, []⟩
  else if inc < 0 then do
    let e ← (List.range (m.ncol - 1)).foldlM (fun e c => memmove e (new.toNat * (c+1)) (m.nrow * (c+1)) new.toNat) m.elem
    return ⟨new.toNat, m.ncol, e.take (new.toNat * m.ncol)⟩
  else if inc > 0 then
    if m.nrow = 0 ∧ 2 ≤ m.ncol then none
    else do
      let e0 := m.elem ++ List.replicate (new.toNat * m.ncol - m.elem.length) 0
      let e ← (List.range (m.ncol - 1)).reverse.foldlM (fun e c => do
        let e ← memmove e (new.toNat * (c+1)) (m.nrow * (c+1)) m.nrow
        write e (m.nrow + new.toNat * c) (List.replicate (new.toNat - m.nrow) 0)) e0
      return ⟨new.toNat, m.ncol, e⟩
  else some m

/-- Column `c` (0-based) of a matrix. -/
def col (m : Mat R) (c : Nat) : List R := (m.elem.drop (m.nrow * c)).take m.nrow

/-- `matrix::augmentRows` (matrix.h:537-560): status and matrix. -/
def augmentRows [Zero R] (m B : Mat R) (prepend : Bool) : Option (Bool × Mat R) :=
  if B.ncol ≠ m.ncol then some (false, m)
  else do
    let nr := m.nrow + B.nrow
    let offset := if prepend then B.nrow else 0
    let e0 := m.elem ++ List.replicate (nr * m.ncol - m.elem.length) 0
    let e ← (List.range m.ncol).reverse.foldlM (fun e c => do
      let e ← if 0 < c ∨ prepend = true then memmove e (nr * c + offset) (m.nrow * c) m.nrow else some e
      write e (nr * c + (if prepend then 0 else m.nrow)) (B.col c)) e0
    return (true, ⟨nr, m.ncol, e⟩)

/-- `matrix::augmentCols` (matrix.h:563-571). -/
def augmentCols (m B : Mat R) : Bool × Mat R :=
  if B.nrow ≠ m.nrow then (false, m) else (true, ⟨m.nrow, m.ncol + B.ncol, m.elem ++ B.elem⟩)

/-- `matrix::getRow` (matrix.h:615-625), 1-based. -/
def getRow (m : Mat R) (r : Nat) : Option (List R) :=
  if m.nrow < 2 then some m.elem else (List.range m.ncol).mapM fun i => m.elem[r - 1 + m.nrow * i]?

/-- `matrix::getColumn` (matrix.h:628-637), 1-based. -/
def getColumn (m : Mat R) (c : Nat) : Option (List R) :=
  if m.ncol < 2 then some m.elem
  else if m.nrow * (c-1) + m.nrow ≤ m.elem.length then some (m.col (c-1)) else none

/-- `matrix::fillColumn` (matrix.h:659-664), 1-based. -/
def fillColumn (m : Mat R) (c : Nat) (data : List R) : Option (Mat R) :=
  (write m.elem (m.nrow * (c-1)) (data.take m.nrow)).map fun e => { m with elem := e }

/-- `matrix::fillRow` (matrix.h:674-681), 1-based. -/
def fillRow (m : Mat R) (r : Nat) (data : List R) : Option (Mat R) :=
  if m.nrow < 2 then (write m.elem 0 (data.take m.elem.length)).map fun e => { m with elem := e }
  else (List.range m.ncol).foldlM (fun m i => do
    let v ← data[i]?
    m.setAt? r (i+1) v) m

/-- The index pairs of the block loops (matrix.h:688-694): those with `i+r-1 <= nrow` and `j+c-1 <= ncol`. -/
def blockPairs (m block : Mat R) (r c : Nat) (transposed : Bool) : List (Nat × Nat) :=
  pairs (min (if transposed then block.ncol else block.nrow) (m.nrow + 1 - r)) (min (if transposed then block.nrow else block.ncol) (m.ncol + 1 - c))

/-- `transposed ? block(j,i) : block(i,j)` for 0-based indices. -/
def opGet? (b : Mat R) (transposed : Bool) (i j : Nat) : Option R :=
  if transposed then b.get? (j+1) (i+1) else b.get? (i+1) (j+1)

/-- `matrix::fillBlock` (matrix.h:684-695). -/
def fillBlock (m block : Mat R) (r c : Nat) (transposed : Bool) : Option (Mat R) :=
  (blockPairs m block r c transposed).foldlM (fun m q => do
    let v ← opGet? block transposed q.1 q.2
    m.setAt? (q.1 + r) (q.2 + c) v) m

/-- `matrix::addBlock` (matrix.h:698-709). -/
def addBlock [Add R] [Mul R] (m block : Mat R) (s : R) (r c : Nat) (transposed : Bool) : Option (Mat R) :=
  (blockPairs m block r c transposed).foldlM (fun m q => do
    let v ← opGet? block transposed q.1 q.2
    m.addAt? (q.1 + r) (q.2 + c) (s * v)) m

/-- `matrix::extractBlock` (matrix.h:712-726). -/
def extractBlock [Add R] (m block : Mat R) (r c : Nat) (addTo transposed : Bool) : Option (Mat R) :=
  (blockPairs m block r c transposed).foldlM (fun b q => do
    let v ← m.get? ((q.1 + r : Nat) : Int) ((q.2 + c : Nat) : Int)
    match addTo, transposed with
    | true, true => b.addAt? (q.2 + 1) (q.1 + 1) v
    | true, false => b.addAt? (q.1 + 1) (q.2 + 1) v
    | false, true => b.setAt? (q.2 + 1) (q.1 + 1) v
    | false, false => b.setAt? (q.1 + 1) (q.2 + 1) v) block

/-- `matrix::diag(const T*,size_t)` (matrix.h:740-748). -/
def diag [Zero R] (m : Mat R) (d : List R) (dim : Nat) : Option (Mat R) :=
  let m := if dim > 0 then m.resize dim dim true else m.resize m.nrow m.ncol true
  (List.range (min m.nrow m.ncol)).foldlM (fun m r => do
    let v ← d[r]?
    m.setAt? (r+1) (r+1) v) m

/-- `matrix::transpose` (matrix.h:769-779). -/
def transpose (m : Mat R) : Option (Mat R) := do
  let e ← (pairs m.nrow m.ncol).foldlM (fun (e : List R) q => do
    let v ← m.elem[q.1 + m.nrow * q.2]?
    if q.2 + m.ncol * q.1 < e.length then some (e.set (q.2 + m.ncol * q.1) v) else none) m.elem
  return ⟨m.ncol, m.nrow, e⟩

/-- The visited indices `off, off+inc, ...` below `n`. -/
def strided (off inc n : Nat) : List Nat := (List.range n).filter fun i => decide (off ≤ i ∧ (i - off) % inc = 0)

/-- `vector::sum` (matrix.h:260-271). -/
def vsum [Zero R] [Add R] (v : List R) (off inc max : Nat) : R :=
  if inc < 1 ∨ v = [] then 0
  else ((strided off inc (if max = 0 ∨ max > v.length then v.length else max)).map fun i => v.getD i 0).foldl (· + ·) 0

/-- `matrix::trace`, `rowsum` and `colsum` (matrix.h:782-786). -/
def trace [Zero R] [Add R] (m : Mat R) : R := vsum m.elem 0 (m.nrow + 1) 0
@[inherit_doc trace] def rowsum [Zero R] [Add R] (m : Mat R) (r : Nat) : R := vsum m.elem (r-1) m.nrow 0
@[inherit_doc trace] def colsum [Zero R] [Add R] (m : Mat R) (c : Nat) : R := vsum m.elem (m.nrow * (c-1)) 1 (m.nrow * c)

section ring
variable [Field R]

/-- `matrix::det` (matrix.h:791-809). -/
def det (m : Mat R) : R :=
  let a := m.val
  if m.ncol = 1 ∧ m.nrow ≥ 1 then a 1 1
  else if m.ncol = 2 ∧ m.nrow ≥ 2 then a 1 1 * a 2 2 - a 2 1 * a 1 2
  else if m.ncol = 3 ∧ m.nrow ≥ 3 then
    a 1 1 * (a 2 2 * a 3 3 - a 3 2 * a 2 3) - a 1 2 * (a 2 1 * a 3 3 - a 3 1 * a 2 3) + a 1 3 * (a 2 1 * a 3 2 - a 3 1 * a 2 2)
  else if m.ncol > 0 ∧ m.nrow > 0 then -999
  else 0

/-- `matrix::inverse` (matrix.h:814-852): the returned determinant and the matrix. -/
def inverse [LinearOrder R] (m : Mat R) (tol : R) : R × Mat R :=
  let a := m.val
  let D := m.det
  if D = -999 then (D, m)
  else if D ≤ tol ∧ D ≥ -tol then (0, m)
  else if m.ncol = 1 then (D, { m with elem := m.elem.set 0 (1 / D) })
  else if m.ncol = 2 then (D, ⟨2, 2, [a 2 2 / D, -a 2 1 / D, -a 1 2 / D, a 1 1 / D]⟩)
  else if m.ncol = 3 then (D, ⟨3, 3,
    [(a 2 2 * a 3 3 - a 3 2 * a 2 3) / D, -(a 2 1 * a 3 3 - a 3 1 * a 2 3) / D, (a 2 1 * a 3 2 - a 3 1 * a 2 2) / D,
     -(a 1 2 * a 3 3 - a 3 2 * a 1 3) / D, (a 1 1 * a 3 3 - a 3 1 * a 1 3) / D, -(a 1 1 * a 3 2 - a 3 1 * a 1 2) / D,
     (a 1 2 * a 2 3 - a 2 2 * a 1 3) / D, -(a 1 1 * a 2 3 - a 2 1 * a 1 3) / D, (a 1 1 * a 2 2 - a 2 1 * a 1 2) / D]⟩)
  else (D, m)

/-- `matrix::isSymmetric` (matrix.h:856-869). -/
def isSymmetric [LinearOrder R] (m : Mat R) (tol : R) : Bool :=
  decide (m.nrow = m.ncol) && (pairs m.nrow m.nrow).all fun q =>
    !(decide (q.2 < q.1)) || (let diff := m.elem.getD (q.1 + m.nrow * q.2) 0 - m.elem.getD (q.2 + m.nrow * q.1) 0
      !(decide (diff < -tol) || decide (diff > tol)))

/-- `matrix::add` (matrix.h:1644-1653). -/
def add (m A : Mat R) (alfa : R) : Mat R :=
  { m with elem := m.elem.zipIdx.map fun p => if p.2 < A.elem.length then p.1 + alfa * A.elem.getD p.2 0 else p.1 }

/-- `matrix::multiply(c)` (matrix.h:1656-1661). -/
def scalar (m : Mat R) (c : R) : Mat R := { m with elem := m.elem.map fun x => x * c }

/-- `matrix::scale` (matrix.h:1664-1670): the columns are scaled. -/
def scale (m : Mat R) (d : List R) (dim : Nat) : Option (Mat R) :=
  (pairs (min dim m.ncol) m.nrow).foldlM (fun m q => do
    let s ← d[q.1]?
    let x ← m.elem[q.2 + m.nrow * q.1]?
    m.setAt? (q.2 + 1) (q.1 + 1) (x * s)) m

/-- `matrix::multiply(A,B,transA,transB,addTo,alpha)` (matrix.h:1725-1755). -/
def multiply (C A B : Mat R) (transA transB addTo : Bool) (alpha : R) : Option (Mat R) :=
  let M := if transA then A.ncol else A.nrow
  let N := if transB then B.nrow else B.ncol
  let K := if transA then A.nrow else A.ncol
  if K ≠ (if transB then B.ncol else B.nrow) then some ⟨0, 0, []⟩
  else
    let C := if !addTo || C.elem.isEmpty then C.resize M N true else C
    (triples M N K).foldlM (fun C q => do
      let a ← opGet? A transA q.1 q.2.2
      let b ← opGet? B transB q.2.2 q.2.1
      C.addAt? (q.1 + 1) (q.2.1 + 1) (alpha * a * b)) C

/-- `matrix::multiply(X,Y,transA,addTo)` (matrix.h:1673-1693) with the check of `compatible` (matrix.h:976-988): status and result. -/
def mulVec (A : Mat R) (X Y : List R) (transA : Bool) (addTo : Int) : Option (Bool × List R) :=
  if ¬ (A.nrow > 0 ∧ A.ncol > 0 ∧ (if transA then A.nrow else A.ncol) = X.length) then some (false, Y)
  else
    let Y := if addTo = 0 ∨ Y = [] then List.replicate (if transA then A.ncol else A.nrow) 0 else Y
    ((pairs Y.length X.length).foldlM (fun (Y : List R) (q : Nat × Nat) => do
      let a ← opGet? A transA q.1 q.2
      let x ← X[q.2]?
      let y ← Y[q.1]?
      some (Y.set q.1 (y + a * (if addTo < 0 then -x else x)))) Y).map fun Y => (true, Y)

/-- `matrix::multiply(X,Y,alpha,beta,transA)` with unit strides and no offsets (matrix.h:1690-1723): status and result. -/
def gemv [DecidableEq R] (A : Mat R) (X Y : List R) (alpha beta : R) (transA : Bool) : Option (Bool × List R) :=
  if ¬ (A.nrow > 0 ∧ A.ncol > 0 ∧ (if transA then A.nrow else A.ncol) = X.length) then some (false, Y)
  else
    let Y := if beta = 0 ∨ Y = [] then List.replicate (if transA then A.ncol else A.nrow) 0 else if beta ≠ 1 then Y.map fun y => y * beta else Y
    ((pairs Y.length X.length).foldlM (fun (Y : List R) (q : Nat × Nat) => do
      let a ← opGet? A transA q.1 q.2
      let x ← X[q.2]?
      let y ← Y[q.1]?
      some (Y.set q.1 (y + alpha * a * x))) Y).map fun Y => (true, Y)

/-- `matrix::outer_product` (matrix.h:1799-1819): status and matrix. -/
def outer (m : Mat R) (X Y : List R) (addTo : Bool) (alpha : R) : Option (Bool × Mat R) :=
  if addTo = true ∧ ¬ (X.length = m.nrow ∧ Y.length = m.ncol) then some (false, m)
  else
    let m := if addTo then m else m.resize X.length Y.length false
    ((pairs m.ncol m.nrow).foldlM (fun (m : Mat R) (q : Nat × Nat) => do
      let x ← X[q.2]?
      let y ← Y[q.1]?
      let old ← m.elem[q.2 + m.nrow * q.1]?
      m.setAt? (q.2 + 1) (q.1 + 1) (if addTo then old + alpha * x * y else alpha * x * y)) m).map fun m => (true, m)

end ring

/-! ## Strided vector operations -/

/-- The indices used by `vector::dot`, `norm2`, `asum`, `normInf` without BLAS (matrix.h:1575-1625): `off, off+inc, ...` inside the vector. -/
def plainIdx (size off inc : Nat) : List Nat := strided off inc size

/-- The number of entries passed to BLAS in `dot`, `norm2` and `asum` (matrix.h:1109-1110, 1118, 1153). -/
def blasCount (size off inc : Nat) : Nat := if inc > 1 then size / inc else size - off

/-- The indices used by BLAS: `off + k*inc` for `k < n`. -/
def blasIdx (n off inc : Nat) : List Nat := (List.range n).map fun k => off + k * inc

end Mat
end IFEM
