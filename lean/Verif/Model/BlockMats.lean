import Verif.Model.Matrix
/-!
# Block element matrices

Models src/ASM/BlockElmMats.C and BlockElmMats.h: the element matrix and vector of a coupled
problem put together from the blocks of its parts.

Simplifications: arithmetic in a ring; the basis index (a `char`) and the symmetry flags are
integers without overflow; access outside an array, undefined in the code, is `none`.
-/
namespace IFEM
namespace Blk

variable {R : Type}

/-- `BlockElmMats::Block`.  BlockElmMats.h:66-75 -/
structure Block where
  basis : Int
  ncmp : Nat
  idof : Nat

/-- `BlockElmMats::Basis`.  BlockElmMats.h:77-85 -/
structure Basis where
  nen : Nat
  ncmp : Nat

/-- A `BlockElmMats` object with the matrices and vectors of its base class.
BlockElmMats.h:87-90, ElmMats.h:69-70 -/
structure Elm (R : Type) where
  A : List (Mat R)
  b : List (List R)
  neldof : Nat
  blockInfo : List Block
  basisInfo : List Basis
  symmFlag : List Int

/-- `BlockElmMats(nBlk,nBas)` followed by `resize(nA,nB)`.  BlockElmMats.h:37-38, ElmMats.C:18-23 -/
def Elm.init (nBlk nBas nA nB : Nat) : Elm R :=
  ⟨List.replicate nA ⟨0, 0, []⟩, List.replicate nB [], 0, List.replicate nBlk ⟨0, 0, 0⟩, List.replicate nBas ⟨0, 0⟩, []⟩

/-- `vector::resize(n)`.  src/LinAlg/matrix.h:277-290 -/
def vresize [Zero R] (v : List R) (n : Nat) : List R := if n = v.length then v else List.replicate n 0

/-- The matrix part of `redim`: the status and the matrices.  BlockElmMats.C:19-25 -/
def redimA [Zero R] (s : Elm R) (blk nen ncmp : Nat) (basis : Int) : Bool × List (Mat R) :=
  if basis < 0 then (true, s.A)
  else if blk ≤ s.blockInfo.length ∧ blk < s.A.length then
    (true, s.A.modify blk fun m => m.resize (nen*ncmp) (nen*ncmp) false)
  else (false, s.A)

/-- The vector part of `redim`.  BlockElmMats.C:27-30 -/
def redimB [Zero R] (s : Elm R) (blk nen ncmp : Nat) : Bool × List (List R) :=
  if blk ≤ s.blockInfo.length ∧ blk < s.b.length then (true, s.b.modify blk fun v => vresize v (nen*ncmp))
  else (false, s.b)

/-- The basis part of `redim`; `basis` is not negative here.  BlockElmMats.C:39-45 -/
def redimBasis (L : List Basis) (nen ncmp : Nat) (basis : Int) : Bool × List Basis :=
  if basis > 0 ∧ basis ≤ L.length then
    (true, L.modify (basis.toNat - 1) fun q => ⟨nen, q.ncmp + ncmp⟩)
  else (false, L)

/-- `BlockElmMats::redim`.  BlockElmMats.C:17-48 -/
def Elm.redim [Zero R] (s : Elm R) (blk nen ncmp : Nat) (basis : Int) : Bool × Elm R :=
  if blk = 0 then
    ((redimA s blk nen ncmp basis).1 && (redimB s blk nen ncmp).1,
      { s with A := (redimA s blk nen ncmp basis).2, b := (redimB s blk nen ncmp).2 })
  else
    ((redimA s blk nen ncmp basis).1 && (redimB s blk nen ncmp).1 && decide (blk ≤ s.blockInfo.length)
        && (redimBasis s.basisInfo nen ncmp (basis.natAbs : Int)).1,
      { s with
        A := (redimA s blk nen ncmp basis).2
        b := (redimB s blk nen ncmp).2
        blockInfo := s.blockInfo.set (blk-1) ⟨(basis.natAbs : Int), ncmp, 0⟩
        basisInfo := (redimBasis s.basisInfo nen ncmp (basis.natAbs : Int)).2 })

/-- The columns visited in row `ib` by the loops over the off-diagonal blocks, before the diagonal
is left out.  BlockElmMats.C:63,132 -/
def cols (n : Nat) (symm : Bool) (ib : Nat) : List Nat :=
  List.range' (if symm then ib+1 else 0) (n - if symm then ib+1 else 0)

/-- The off-diagonal pairs in the order of the loop in `redimOffDiag`.  BlockElmMats.C:62-64 -/
def loopPairs (n : Nat) (symm : Bool) : List (Nat × Nat) :=
  (List.range n).flatMap fun ib => ((cols n symm ib).filter fun jb => decide (jb ≠ ib)).map fun jb => (ib, jb)

/-- The search in `redimOffDiag`: the pair at which the counter reaches the block.
BlockElmMats.C:62-64 -/
def findOff : List (Nat × Nat) → Nat → Nat → Option (Nat × Nat)
  | [], _, _ => none
  | q :: L, kb, blk => if kb + 1 = blk then some q else findOff L (kb+1) blk

/-- The parameters of a block: number of nodes, components per node of its basis and of itself, first
degree of freedom.  BlockElmMats.C:117-121,139-143,185-189 -/
structure Info where
  nen : Nat
  nd : Nat
  nc : Nat
  idof : Nat

/-- `basisInfo[blockInfo[i].basis-1]` and `blockInfo[i]`. -/
def Elm.info (s : Elm R) (i : Nat) : Option Info := do
  let q ← s.blockInfo[i]?
  if q.basis ≤ 0 then none
  else
    let p ← s.basisInfo[q.basis.toNat - 1]?
    some ⟨p.nen, p.ncmp, q.ncmp, q.idof⟩

/-- The flags of `redimOffDiag`, allocated on the first call.  BlockElmMats.C:58-60 -/
def Elm.flags (s : Elm R) (symm : Bool) : List Int :=
  if s.symmFlag.isEmpty then List.replicate (s.blockInfo.length*(s.blockInfo.length-1) / (if symm then 2 else 1)) 0 else s.symmFlag

/-- `symm` in `redimOffDiag`.  BlockElmMats.C:58 -/
def Elm.symm1 (s : Elm R) : Bool := decide (s.A.length - 1 < s.blockInfo.length*(s.blockInfo.length+1)/2)

/-- The update of `redimOffDiag` for a pair that has been found.  BlockElmMats.C:66-70 -/
def Elm.setOff [Zero R] (s : Elm R) (flags : List Int) (blk : Nat) (symmetric : Int) (q : Nat × Nat) : Option (Elm R) := do
  let m ← s.A[blk]?
  let bi ← s.info q.1
  let bj ← s.info q.2
  if blk - s.blockInfo.length - 1 < flags.length then
    some { s with A := s.A.set blk (m.resize (bi.nen*bi.nc) (bj.nen*bj.nc) false), symmFlag := flags.set (blk - s.blockInfo.length - 1) symmetric }
  else none

/-- `BlockElmMats::redimOffDiag`.  BlockElmMats.C:51-74 -/
def Elm.redimOffDiag [Zero R] (s : Elm R) (blk : Nat) (symmetric : Int) : Option (Bool × Elm R) :=
  if blk ≤ s.blockInfo.length ∨ blk > s.A.length then some (false, s)
  else match findOff (loopPairs s.blockInfo.length s.symm1) s.blockInfo.length blk with
    | none => some (false, { s with symmFlag := s.flags s.symm1 })
    | some q => (s.setOff (s.flags s.symm1) blk symmetric q).map fun s' => (true, s')

/-- The number of element degrees of freedom.  BlockElmMats.C:80-83 -/
def Elm.count (s : Elm R) : Option Nat :=
  (List.range s.blockInfo.length).foldlM (fun (n : Nat) (i : Nat) => do
    let q ← s.info i
    some (n + q.nc*q.nen)) 0

/-- The inner loop of `finalize` for the basis `j` (0-based) with `nen` nodes: the blocks, `jdof` and
`ndof`.  BlockElmMats.C:91-97 -/
def finBlock (j nen : Nat) (s : List Block × Nat × Nat) (i : Nat) : List Block × Nat × Nat :=
  match s.1[i]? with
  | some q => if q.basis = (j : Int) + 1 then (s.1.set i { q with idof := s.2.1 }, s.2.1 + q.ncmp, s.2.2 + q.ncmp*nen) else s
  | none => s

/-- The outer loop of `finalize`: the blocks and `idof`.  BlockElmMats.C:86-99 -/
def finBasis (bases : List Basis) (n : Nat) (s : List Block × Nat) (j : Nat) : List Block × Nat :=
  let r := (List.range n).foldl (finBlock j ((bases[j]?.map Basis.nen).getD 0)) (s.1, s.2, 0)
  (r.1, s.2 + r.2.2)

/-- `BlockElmMats::finalize`.  BlockElmMats.C:77-102 -/
def Elm.finalize (s : Elm R) : Option (Bool × Elm R) := do
  let n ← s.count
  let r := (List.range s.basisInfo.length).foldl (finBasis s.basisInfo s.blockInfo.length) (s.blockInfo, 1)
  some (decide (r.2 - 1 = n), { s with neldof := n, blockInfo := r.1 })

/-- The indices `in < m`, `jn < n`, `i < p`, `j < q` of the loops over the entries of a block.
BlockElmMats.C:126-129,149-152 -/
def quads (m n p q : Nat) : List (Nat × Nat × Nat × Nat) :=
  (List.range m).flatMap fun a => (List.range n).flatMap fun c => (Mat.pairs p q).map fun t => (a, c, t)

/-- The insertion of a diagonal block.  BlockElmMats.C:123-130 -/
def insertDiag (N M : Mat R) (bi : Info) : Option (Mat R) :=
  if M.elem.isEmpty then some N
  else (quads bi.nen bi.nen bi.nc bi.nc).foldlM (fun (N : Mat R) (t : Nat × Nat × Nat × Nat) => do
    let v ← M.get? ((1 + bi.nc*t.1 + t.2.2.1 : Nat) : Int) ((1 + bi.nc*t.2.1 + t.2.2.2 : Nat) : Int)
    N.setAt? (bi.idof + bi.nd*t.1 + t.2.2.1) (bi.idof + bi.nd*t.2.1 + t.2.2.2) v) N

/-- The value put in the mirrored position.  BlockElmMats.C:155-158 -/
def mirror [Neg R] (N : Mat R) (flag : Int) (r c : Nat) (v : R) : Option (Mat R) :=
  if flag > 0 then N.setAt? c r v
  else if flag < 0 then N.setAt? c r (-v)
  else some N

/-- The insertion of an off-diagonal block.  BlockElmMats.C:145-159 -/
def insertOff [Neg R] (N M : Mat R) (bi bj : Info) (flag : Option Int) : Option (Mat R) :=
  if M.elem.isEmpty then some N
  else (quads bi.nen bj.nen bi.nc bj.nc).foldlM (fun (N : Mat R) (t : Nat × Nat × Nat × Nat) => do
    let v ← M.get? ((1 + bi.nc*t.1 + t.2.2.1 : Nat) : Int) ((1 + bj.nc*t.2.1 + t.2.2.2 : Nat) : Int)
    let N ← N.setAt? (bi.idof + bi.nd*t.1 + t.2.2.1) (bj.idof + bj.nd*t.2.1 + t.2.2.2) v
    let f ← flag
    mirror N f (bi.idof + bi.nd*t.1 + t.2.2.1) (bj.idof + bj.nd*t.2.1 + t.2.2.2) v) N

/-- One turn of the loop over the columns: the matrix and the counter `kb`.
BlockElmMats.C:132-160 -/
def Elm.offStep [Neg R] (s : Elm R) (ib : Nat) (bi : Info) (st : Mat R × Nat) (jb : Nat) : Option (Mat R × Nat) :=
  if 2 + st.2 < s.A.length ∧ jb ≠ ib then do
    let bj ← s.info jb
    let M ← s.A[2 + st.2]?
    let N ← insertOff st.1 M bi bj s.symmFlag[st.2 + 1 - s.blockInfo.length]?
    some (N, st.2 + 1)
  else some st

/-- One turn of the loop over the rows.  BlockElmMats.C:115-161 -/
def Elm.rowStep [Neg R] (s : Elm R) (symm : Bool) (st : Mat R × Nat) (ib : Nat) : Option (Mat R × Nat) := do
  let bi ← s.info ib
  let M ← s.A[1 + ib]?
  let N ← insertDiag st.1 M bi
  (cols s.blockInfo.length symm ib).foldlM (fun (st : Mat R × Nat) (jb : Nat) => s.offStep ib bi st jb) (N, st.2)

/-- `symmetry` in `getNewtonMatrix`.  BlockElmMats.C:114 -/
def Elm.symm2 (s : Elm R) : Bool := decide (s.A.length - 1 ≤ s.blockInfo.length*(s.blockInfo.length+1)/2)

/-- `BlockElmMats::getNewtonMatrix`: the matrix and the object, which keeps it.
BlockElmMats.C:105-171 -/
def Elm.newton [Neg R] [Zero R] (s : Elm R) : Option (Mat R × Elm R) := do
  let m ← s.A[0]?
  if m.elem.isEmpty then
    let r ← (List.range s.blockInfo.length).foldlM (fun (st : Mat R × Nat) (ib : Nat) => s.rowStep s.symm2 st ib)
      (m.resize s.neldof s.neldof false, s.blockInfo.length - 1)
    some (r.1, { s with A := s.A.set 0 r.1 })
  else some (m, s)

/-- The insertion of a block vector.  BlockElmMats.C:183-194 -/
def insertVec (v w : List R) (bi : Info) : Option (List R) :=
  (Mat.pairs bi.nen bi.nc).foldlM (fun (v : List R) (t : Nat × Nat) => do
    let x ← w[bi.nc*t.1 + t.2]?
    if 1 ≤ bi.idof ∧ bi.idof - 1 + bi.nd*t.1 + t.2 < v.length then some (v.set (bi.idof - 1 + bi.nd*t.1 + t.2) x) else none) v

/-- `BlockElmMats::getRHSVector`.  BlockElmMats.C:174-204 -/
def Elm.rhs [Zero R] (s : Elm R) : Option (List R × Elm R) := do
  let v ← s.b[0]?
  if v.isEmpty then
    let r ← (List.range s.blockInfo.length).foldlM (fun (v : List R) (ib : Nat) => do
      let bi ← s.info ib
      let w ← s.b[1 + ib]?
      insertVec v w bi) (vresize v s.neldof)
    some (r, { s with b := s.b.set 0 r })
  else some (v, s)

end Blk
end IFEM
