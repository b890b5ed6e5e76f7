import Verif.Model.Arrays
/-!
# Transfer between global and patch-level nodal vectors

Models `ASMbase::extractElmRes`, `extractNodalVec`, `injectNodalVec`, `extractNodeVec`, `injectNodeVec`
(src/ASM/ASMbase.C:1490-1686) and `ASMmxBase::extractNodeVecMx`, `injectNodeVecMx` (src/ASM/ASMmxBase.C:29-90).

An outer `none` is an access outside an array.  Otherwise the value is the return status together with the
output array.
-/
namespace IFEM

variable {α : Type}

/-- `std::copy(b.begin(), b.end(), a.begin()+i)`; `none` when it leaves the array. -/
def copy0? (a : List α) (i : Int) (b : List α) : Option (List α) :=
  if 0 ≤ i ∧ i.toNat + b.length ≤ a.length then
    some (a.take i.toNat ++ b ++ a.drop (i.toNat + b.length))
  else none

/-- The loop over the nodes in `ASMbase::extractNodalVec` (ASMbase.C:1538-1567) without `INDEX_CHECK`. -/
def extractNodalLoop (g : List α) (madof : List Int) : List Int → List α → Option (List α)
  | [], nodeVec => some nodeVec
  | inod :: rest, nodeVec => do
    let a ← at0? madof (inod-1)
    let b ← at0? madof inod
    if a - 1 = b - 1 then extractNodalLoop g madof rest nodeVec
    else do
      let s ← slice0? g (a-1) (b-1)
      extractNodalLoop g madof rest (nodeVec ++ s)

/-- `ASMbase::extractNodalVec` (ASMbase.C:1523-1570) without `INDEX_CHECK`: `mlgn` is `MLGN`, `nnod` the number of
real nodes of the patch (only those are used when `ngnod` is -2). -/
def extractNodalVec (mlgn : List Int) (nnod : Nat) (g : List α) (madof : List Int) (ngnod : Int) : Option (Bool × List α) :=
  if ngnod = 0 then some (false, [])
  else if ngnod = -2 ∧ mlgn.length < nnod then none
  else
    match extractNodalLoop g madof (if ngnod = -2 then mlgn.take nnod else mlgn) [] with
    | some v => some (true, v)
    | none => none

/-- The loop with `INDEX_CHECK` defined (ASMbase.C:1538-1567): the checks come before the array accesses. -/
def extractNodalLoopChk (g : List α) (madof : List Int) (ngnod : Int) : List Int → List α → Option (Bool × List α)
  | [], nodeVec => some (true, nodeVec)
  | inod :: rest, nodeVec =>
    if inod < 1 ∨ (inod > ngnod ∧ ngnod > 0) then some (false, nodeVec)
    else do
      let a ← at0? madof (inod-1)
      let b ← at0? madof inod
      if a - 1 = b - 1 then extractNodalLoopChk g madof ngnod rest nodeVec
      else if a - 1 < 0 ∨ a - 1 > b - 1 ∨ b - 1 > g.length then some (false, nodeVec)
      else do
        let s ← slice0? g (a-1) (b-1)
        extractNodalLoopChk g madof ngnod rest (nodeVec ++ s)

/-- The selected nodes of `injectNodalVec` (ASMbase.C:1588-1590): all, or those of the node type of the basis.
`types` holds the results of `getNodeType(1)`, `getNodeType(2)`, ... -/
def selectNodes (mlgn : List Int) (types : List Char) (basis : Nat) : List Int :=
  if basis = 0 then mlgn
  else ((mlgn.zip types).filter fun p => p.2 == (if basis = 1 then 'D' else Char.ofNat ('P'.toNat + basis - 2))).map Prod.fst

/-- The loop over the nodes in `ASMbase::injectNodalVec` (ASMbase.C:1590-1622) without `INDEX_CHECK`. -/
def injectNodalLoop (nodeVec : List α) (madof : List Int) : List Int → Int → List α → Option (List α)
  | [], _, g => some g
  | inod :: rest, ldof, g => do
    let a ← at0? madof (inod-1)
    let b ← at0? madof inod
    if b - 1 - (a - 1) = 0 then injectNodalLoop nodeVec madof rest ldof g
    else do
      let s ← slice0? nodeVec ldof (ldof + (b - 1 - (a - 1)))
      let g' ← copy0? g (a-1) s
      injectNodalLoop nodeVec madof rest (ldof + (b - 1 - (a - 1))) g'

/-- `ASMbase::injectNodalVec` (ASMbase.C:1573-1626) without `INDEX_CHECK`, for the selected nodes. -/
def injectNodalVec (nodes : List Int) (nodeVec g : List α) (madof : List Int) : Option (Bool × List α) :=
  if madof.isEmpty then some (false, g)
  else
    match injectNodalLoop nodeVec madof nodes 0 g with
    | some g' => some (true, g')
    | none => none

/-- The loop of `ASMbase::injectNodalVec` (ASMbase.C:1582-1622) with `INDEX_CHECK` defined. -/
def injectNodalLoopChk (nodeVec : List α) (madof : List Int) : List Int → Int → List α → Option (Bool × List α)
  | [], _, g => some (true, g)
  | inod :: rest, ldof, g =>
    if inod < 1 ∨ inod > madof.length then some (false, g)
    else do
      let a ← at0? madof (inod-1)
      let b ← at0? madof inod
      if b - 1 - (a - 1) = 0 then injectNodalLoopChk nodeVec madof rest ldof g
      else if b - 1 - (a - 1) < 0 ∨ ldof + (b - 1 - (a - 1)) > nodeVec.length then some (false, g)
      else if a - 1 + (b - 1 - (a - 1)) > g.length then some (false, g)
      else do
        let s ← slice0? nodeVec ldof (ldof + (b - 1 - (a - 1)))
        let g' ← copy0? g (a-1) s
        injectNodalLoopChk nodeVec madof rest (ldof + (b - 1 - (a - 1))) g'

/-- The number of nodes that are not Lagrange multipliers (ASMbase.C:1635, 1666): `lms` is the ordered set `myLMs`. -/
def nonLMnodes (mlgn : List Int) (lms : List Nat) : Nat :=
  match lms with
  | [] => mlgn.length
  | l :: _ => l - 1

/-- `getNodeID(i, noAddedNodes)` of ASMs2D (ASMs2D.C:355-367): `nxMap` maps a node with an added node to the latter.
With an empty map it is `ASMbase::getNodeID` (ASMbase.C:277-280). -/
def getNodeID (mlgn : List Int) (nxMap : List (Nat × Nat)) (inod : Nat) (noAddedNodes : Bool) : Int :=
  let inod := if noAddedNodes then (nxMap.lookup inod).getD inod else inod
  if inod < 1 ∨ inod > mlgn.length then 0 else mlgn.getD (inod-1) 0

/-- The loop of `ASMbase::extractNodeVec` (ASMbase.C:1642-1657) over the nodes with the given global numbers. -/
def extractNodeLoop (g : List α) (nndof : Nat) : List Int → List α → Option (List α)
  | [], v => some v
  | id :: rest, v => do
    let s ← slice0? g ((nndof : Int) * id - nndof) ((nndof : Int) * id)
    extractNodeLoop g nndof rest (v ++ s)

/-- `ASMbase::extractNodeVec` (ASMbase.C:1629-1658). -/
def extractNodeVec (mlgn : List Int) (nxMap : List (Nat × Nat)) (lms : List Nat) (nf : Nat) (g : List α) (nndof0 : Nat) (basis : Int) :
    Option (List α) :=
  let nndof := if nndof0 = 0 then nf else nndof0
  extractNodeLoop g nndof
    ((List.range (nonLMnodes mlgn lms)).map fun i => getNodeID mlgn nxMap (i+1) (decide (nndof = 1) || decide (basis < 0))) []

/-- The loop of `ASMbase::injectNodeVec` (ASMbase.C:1677-1679): nodes out of range are skipped. -/
def injectNodeLoop (nndof : Nat) : List Int → List α → List α → Option (List α)
  | [], _, g => some g
  | id :: rest, v, g =>
    if 0 < (nndof : Int) * id ∧ (nndof : Int) * id ≤ g.length then do
      let s ← slice0? v 0 nndof
      let g' ← copy0? g ((nndof : Int) * id - nndof) s
      injectNodeLoop nndof rest (v.drop nndof) g'
    else injectNodeLoop nndof rest (v.drop nndof) g

/-- `ASMbase::injectNodeVec` (ASMbase.C:1661-1686). -/
def injectNodeVec (mlgn : List Int) (lms : List Nat) (nf : Nat) (v g : List α) (nndof0 : Nat) : Option (Bool × List α) :=
  let nndof := if nndof0 = 0 then nf else nndof0
  let nNod := nonLMnodes mlgn lms
  if v.length ≠ nNod * nndof then some (false, g)
  else if mlgn.length < nNod then none
  else
    match injectNodeLoop nndof (mlgn.take nNod) v g with
    | some g' => some (true, g')
    | none => none

/-- `ASMbase::extractElmRes` (ASMbase.C:1490-1504): `elms` holds the external element number and the number of nodes
of each element; `first` is `internalFirst`. -/
def extractElmLoop (g : List α) (zero : α) (first : Nat) : List (Int × Nat) → Nat → List α → Option (List α)
  | [], _, v => some v
  | (mlge, nen) :: rest, jel, v =>
    if mlge > 0 ∧ nen > 1 then
      let idx : Int := if first ≠ 0 then (jel : Int) else mlge
      if idx ≤ g.length then do
        let x ← at1? g idx
        extractElmLoop g zero first rest (jel+1) (v ++ [x])
      else extractElmLoop g zero first rest (jel+1) (v ++ [zero])
    else extractElmLoop g zero first rest jel v

/-- `ASMbase::extractElmRes` (ASMbase.C:1490-1504). -/
def extractElmRes (elms : List (Int × Nat)) (g : List α) (zero : α) (first : Nat) : Option (List α) :=
  extractElmLoop g zero first elms first []

/-! ## Mixed bases -/

/-- `ASMmxBase::initMx` (ASMmxBase.C:29-35): `MADOF[i] = sysMadof[MLGN[i]-1]-1`. -/
def initMx (mlgn sysMadof : List Int) : Option (List Int) :=
  mlgn.mapM fun n => (at0? sysMadof (n-1)).map fun a => a - 1

/-- The range of bases `b0 .. b1-1` (ASMmxBase.C:41-56, 73-81). -/
def mxBases (nbas : Nat) (basis : Int) : List Nat :=
  if basis < 1 ∨ basis > nbas then List.range nbas else [(basis-1).toNat]

/-- The start value of `ofs` (ASMmxBase.C:42, 54-55, 74, 80-81). -/
def mxOffset (nb : List Nat) (nbas : Nat) (basis : Int) : Nat :=
  if basis < 1 ∨ basis > nbas then 0 else (nb.take (basis-1).toNat).sum

/-- The two inner loops of `extractNodeVecMx` (ASMmxBase.C:62-67), for the nodes `ofs .. ofs+n-1` with `nf` values each. -/
def extractMxNodes (g : List α) (madof : List Int) (ofs n nf : Nat) (v : List α) : Option (List α) :=
  (List.range n).foldlM (fun v i => do
    let idof ← at0? madof ((ofs + i : Nat) : Int)
    let s ← slice0? g idof (idof + nf)
    some (v ++ s)) v

/-- `ASMmxBase::extractNodeVecMx` (ASMmxBase.C:38-68): the offset is advanced by `nb[b]` after basis `b`. -/
def extractNodeVecMx (nfx nb : List Nat) (madof : List Int) (g : List α) (basis : Int) : Option (List α) :=
  ((mxBases nfx.length basis).foldlM (fun (s : Nat × List α) b => do
    let n ← nb[b]?
    let nf ← nfx[b]?
    let v ← extractMxNodes g madof s.1 n nf s.2
    some (s.1 + n, v)) (mxOffset nb nfx.length basis, [])).map Prod.snd

/-- The two inner loops of `injectNodeVecMx` (ASMmxBase.C:85-90). -/
def injectMxNodes (madof : List Int) (ofs n nf : Nat) (v : List α) (s : Nat × List α) : Option (Nat × List α) :=
  (List.range n).foldlM (fun (s : Nat × List α) i => do
    let idof ← at0? madof ((ofs + i : Nat) : Int)
    let b ← slice0? v s.1 (s.1 + nf : Nat)
    let g ← copy0? s.2 idof b
    some (s.1 + nf, g)) s

/-- `ASMmxBase::injectNodeVecMx` (ASMmxBase.C:70-91): here the offset is not advanced between the bases. -/
def injectNodeVecMx (nfx nb : List Nat) (madof : List Int) (v g : List α) (basis : Int) : Option (List α) :=
  ((mxBases nfx.length basis).foldlM (fun (s : Nat × List α) b => do
    let n ← nb[b]?
    let nf ← nfx[b]?
    injectMxNodes madof (mxOffset nb nfx.length basis) n nf v s) (0, g)).map Prod.snd

end IFEM
