import Verif.Model.AlgEq
/-!
# Queries, reaction forces and DOF couplings of the System Assembly Manager

Models further member functions of `SAM` (src/LinAlg/SAM.C).
`minex` (external node numbers) is null, as it is for `SAMpatch`.
-/
namespace IFEM.Sam
variable {R : Type}

/-! ## Lookup (SAM.C:101-117, 738-765) -/

/-- The loop `for (n = 1; n <= nnod; n++) if (madof[n] > idof) return {n, idof-madof[n-1]+1}` (SAM.C:111-115). -/
def findNode (madof : List Int) (idof : Int) : List Nat → Option (Int × Int)
  | [] => some (0, 0)
  | n :: ns => do
    let b ← at0? madof n
    if b > idof then do
      let a ← at0? madof ((n : Int) - 1)
      return ((n : Int), idof - a + 1)
    else findNode madof idof ns

/-- `SAM::getNodeAndLocalDof(idof,eqno)` (SAM.C:101-117). -/
def getNodeAndLocalDof (s : Sam R) (idof : Int) (eqno : Bool) : Option (Int × Int) :=
  if eqno then
    match s.meqn.findIdx? (· = idof) with
    | some k => findNode s.madof k (List.range' 1 s.nnod)   -- std::distance: a 0-based index
    | none => some (0, 0)
  else findNode s.madof idof (List.range' 1 s.nnod)

/-- `SAM::getNodeDOFs` (SAM.C:738-743). -/
def getNodeDOFs (s : Sam R) (inod : Int) : Option (Int × Int) :=
  if inod < 1 ∨ inod > s.nnod then some (0, 0) else do
    let a ← at0? s.madof (inod-1)
    let b ← at0? s.madof inod
    return (a, b-1)

/-- `SAM::getEquation(inod,ldof)` (SAM.C:746-755). -/
def getEquation (s : Sam R) (inod ldof : Int) : Option Int :=
  if inod < 1 ∨ inod > s.nnod ∨ ldof < 1 then some (-1) else do
    let a ← at0? s.madof (inod-1)
    let b ← at0? s.madof inod
    let idof := a + ldof - 1
    if idof ≥ b then return -2
    else
      let ieq ← at0? s.meqn (idof-1)
      return if ieq > 0 then ieq else 0

/-- `SAM::getDofVal(dofVec,inod,ldof)` (SAM.C:758-765). -/
def getDofVal [Zero R] (s : Sam R) (dofVec : List R) (inod ldof : Int) : Option R :=
  if inod < 1 ∨ inod > s.nnod ∨ ldof < 1 then some 0 else do
    let a ← at0? s.madof (inod-1)
    let b ← at0? s.madof inod
    let idof := a + ldof - 1
    if idof < b ∧ idof < dofVec.length then at0? dofVec (idof-1) else return 0

/-! ## Couplings (SAM.C:377-427) -/

/-- The insertions `dofc[row-1].insert(col)` made for one element (SAM.C:385-425), in order. -/
def elmCouplings (s : Sam R) (meen : List Int) : List (Option (Int × Int)) :=
  (List.finRange meen.length).flatMap fun (j : Fin meen.length) =>
    let jeq := meen[j]
    if jeq > 0 then
      some (jeq, jeq) ::
      ((List.finRange meen.length).filter (· < j)).flatMap fun (i : Fin meen.length) =>
        let ieq := meen[i]
        if ieq > 0 then [some (ieq, jeq), some (jeq, ieq)] else []
    else if jeq < 0 then
      (s.masterTerms (-jeq)).flatMap fun tj =>
        match tj with
        | none => [none]
        | some (jeq, _) =>
          (List.finRange meen.length).flatMap fun (i : Fin meen.length) =>
            let ieq := meen[i]
            if ieq > 0 then [some (ieq, jeq), some (jeq, ieq)]
            else if ieq < 0 then
              (s.masterTerms (-ieq)).map fun ti => ti.map fun t => (t.1, jeq)
            else []
    else []

/-- One insertion into the vector of sets `dofc` (a set is modelled by the list of its elements). -/
def insertCoupling (dofc : List (List Int)) (p : Option (Int × Int)) : Option (List (List Int)) := do
  let p ← p
  let row ← at1? dofc p.1
  set1? dofc p.1 (if p.2 ∈ row then row else p.2 :: row)

/-- `SAM::getDofCouplings(std::vector<IntSet>&)` (SAM.C:377-427); `getElmEqns(meen,iel)` is called with `nedof = 0`. -/
def getDofCouplings (s : Sam R) : Option (List (List Int)) :=
  (List.range' 1 s.nel).foldlM (fun dofc (iel : Nat) => do
    let meen ← s.getElmEqns iel 0
    (s.elmCouplings meen).foldlM insertCoupling dofc) (List.replicate s.neq [])

/-- `SAM::getUniqueEqns` (SAM.C:699-718): the set, as a list. -/
def getUniqueEqns (s : Sam R) (iel : Int) : Option (List Int) :=
  match s.getElmEqns iel 0 with
  | none => none
  | some meen => do
    let parts ← meen.mapM fun jeq =>
      if jeq < 0 then (s.masterTerms (-jeq)).mapM (fun t => t.map Prod.fst)
      else if jeq > 0 then some [jeq] else some []
    return parts.flatten.dedup

/-! ## Right-hand side from nodal and global data (SAM.C:546-602) -/

variable [CommRing R]

/-- `SAM::assembleSystem(sysRHS,nS,inod)` (SAM.C:546-554), without reactions. -/
def assembleNode (s : Sam R) (rhs nS : List R) (inod : Int) : Option (List R) := do
  let mnen ← s.getNodeEqns inod
  if nS.length < mnen.length then none else s.assembleVecLoop rhs nS mnen

/-- `SAM::assembleSystem(sysRHS,S,{node,ldof})` (SAM.C:568-590): a load at a single DOF; `none` also when the function
returns false. -/
def assembleDofLoad (s : Sam R) (rhs : List R) (S : R) (inod ldof : Int) : Option (List R) :=
  if inod < 1 ∨ inod > s.nnod then none else do
    let a ← at0? s.madof (inod-1)
    let b ← at0? s.madof inod
    let idof := a + ldof - 1
    if ldof < 1 ∨ idof ≥ b then none
    else
      let e ← at0? s.meqn (idof-1)
      s.assembleRHS rhs S e

/-- `SAM::addToRHS` (SAM.C:593-602): loop over `min(S.size(),ndof)` DOFs. -/
def addToRHS (s : Sam R) (rhs S : List R) : Option (List R) :=
  if s.ndof < 1 ∨ S = [] then some rhs else s.assembleVecLoop rhs S s.meqn

/-- `SAM::applyDirichlet` (SAM.C:825-839), over `meqn` and `dofVec` in parallel. -/
def applyDirichletLoop (s : Sam R) : List Int → List R → Option (List R)
  | e :: es, v :: vs => do
    let v' ← (if -e > 0 then s.offset? (-e) else if e = 0 then some 0 else some v)
    let vs' ← applyDirichletLoop s es vs
    return v' :: vs'
  | [], vs => some vs
  | _ :: _, [] => none

def applyDirichlet (s : Sam R) (dofVec : List R) : Option (List R) := s.applyDirichletLoop s.meqn dofVec

/-! ## Reaction forces (SAM.C:436-464, 620-632, 976-999) -/

/-- Inner loop of `assembleReactions` (SAM.C:629-631) over the DOFs `j` of a node. -/
def reacDof (s : Sam R) (eS : List R) (st : List R × Nat) (j : Int) : Option (List R × Nat) :=
  match eS[st.2]? with
  | none => some st                                   -- k < eS.size() is false
  | some v => do
    let m ← at1? s.msc j
    let rf ← if -m > 0 ∧ -m ≤ (st.1.length : Int) then add1? st.1 (-m) v else some st.1
    return (rf, st.2 + 1)

/-- Body of the loop over the element nodes (SAM.C:625-631). -/
def reacNode (s : Sam R) (eS : List R) (st : List R × Nat) (node : Int) : Option (List R × Nat) :=
  if node < 0 then do
    let b ← at0? s.madof (-node)
    let a ← at0? s.madof (-node-1)
    return (st.1, st.2 + (b-a).toNat)
  else if node > 0 then do
    let a ← at0? s.madof (node-1)
    let b ← at0? s.madof node
    (intRange a b).foldlM (s.reacDof eS) st
  else some st

/-- `SAM::assembleReactions` (SAM.C:620-632). -/
def assembleReactions (s : Sam R) (rf eS : List R) (iel : Int) : Option (List R) := do
  let nodes ← s.getElmNodes iel
  let st ← nodes.foldlM (s.reacNode eS) (rf, 0)
  return st.1

/-- The element vector of reaction contributions from prescribed DOFs (SAM.C:436-460, 490-508).
`eS.resize(n)` keeps the content when the size is unchanged, and `eS(i) = ...` **overwrites**. -/
def reacFromMat (s : Sam R) (eK : Mat R) (meen : List Int) : Option (List R) :=
  (List.finRange meen.length).foldlM (fun (eS : List R) (j : Fin meen.length) =>
    if -meen[j] < 1 then some eS else do
      let c0 ← s.offset? (-meen[j])
      (List.finRange meen.length).foldlM (fun (eS : List R) (i : Fin meen.length) =>
        if meen[i] < 1 then do
          let v ← eK.elm? i j
          set0? (if eS.length = eK.nrow then eS else List.replicate eK.nrow 0) i (-c0 * v)
        else some eS) eS) []

/-- The reaction part of `SAM::assembleSystem(sysK,sysRHS,eK,iel,reactionForces)` (SAM.C:437-464). -/
def assembleMatReactions (s : Sam R) (rf : List R) (eK : Mat R) (iel : Int) : Option (List R) :=
  if eK.isEmpty then some rf else do
    let meen ← s.getElmEqns iel eK.nrow
    let eS ← s.reacFromMat eK meen
    if eS = [] then return rf else s.assembleReactions rf eS iel

/-- `SAM::getNodalReactions` (SAM.C:976-999): the nodal values and whether there are any. -/
def getNodalReactions (s : Sam R) (inod : Int) (rf : List R) : Option (List R × Bool) :=
  if inod < 1 ∨ inod > s.nnod then none else do
    let a ← at0? s.madof (inod-1)
    let b ← at0? s.madof inod
    let ms ← slice0? s.msc (a-1) (b-1)
    let vals ← ms.mapM fun m =>
      if m < 0 ∧ -m ≤ (rf.length : Int) then at1? rf (-m) else some 0
    return (vals, ms.any fun m => m < 0 ∧ -m ≤ (rf.length : Int))

end IFEM.Sam
