import Mathlib.Algebra.Ring.Defs
import Verif.Model.Arrays
/-!
# The System Assembly Manager

Models `SAM` (src/LinAlg/SAM.h, src/LinAlg/SAM.C), the non-Fortran branches (`USE_F77SAM` undefined).
Error messages are not modelled.  `int` is unbounded.
-/
namespace IFEM

/-- Member data of `SAM` (src/LinAlg/SAM.h:326-353; constructor src/LinAlg/SAM.C:66-83).
`minex` (external node numbers), `nodeType` and `dof_type` are kept in `Model/SamQuery.lean`.
The array pointers are never null here; the null cases of SAM.C:230-231 are an empty list. -/
structure Sam (R : Type) where
  nnod   : Nat := 0
  nel    : Nat := 0
  ndof   : Nat := 0
  nspdof : Nat := 0
  nceq   : Nat := 0
  neq    : Nat := 0
  mpmnpc : List Int := []
  mmnpc  : List Int := []
  madof  : List Int := []
  msc    : List Int := []
  mpmceq : List Int := []
  mmceq  : List Int := []
  ttcc   : List R := []
  meqn   : List Int := []

namespace Sam
variable {R : Type}

/-! ## initSystemEquations (src/LinAlg/SAM.C:225-335) -/

/-- State of the first loop of `initSystemEquations` (SAM.C:242-254). -/
structure StatusPass where
  msc    : List Int      -- status codes rewritten so far
  nspdof : Nat
  ndof1  : Nat
  ndof2  : Nat
  nerr   : Nat           -- `-ierr`

/-- Body of the first loop (SAM.C:246-254): suppressed DOFs get a reaction-force index. -/
def statusStep (a : StatusPass) (c : Int) : StatusPass :=
  if c = 0 then { a with msc := a.msc ++ [-((a.nspdof : Int) + 1)], nspdof := a.nspdof + 1 }
  else if c = 1 then { a with msc := a.msc ++ [c], ndof1 := a.ndof1 + 1 }
  else if c = 2 then { a with msc := a.msc ++ [c], ndof2 := a.ndof2 + 1 }
  else { a with msc := a.msc ++ [c], nerr := a.nerr + 1 }

/-- The first loop (SAM.C:246-254).  `nspdof` starts from its previous value: it is a member
(`mpar[5]`) that is not reset here. -/
def statusPass (nspdof0 : Nat) (msc : List Int) : StatusPass :=
  msc.foldl statusStep ⟨[], nspdof0, 0, 0, 0⟩

/-- State of the constraint equation loop (SAM.C:260-307). -/
structure CeqPass where
  meqn  : List Int
  npdof : Nat
  nddof : Nat
  nerr  : Nat

/-- Number of errors found by the inner `while (ip++ < jp)` loop (SAM.C:283-298) over the
1-based positions `ips` of `mmceq`. -/
def masterErrs (ndof : Nat) (msc mmceq : List Int) : List Int → Option Nat
  | [] => some 0
  | ip :: ips => do
    let jdof ← at1? mmceq ip
    if jdof < 1 ∨ jdof > ndof then
      return (← masterErrs ndof msc mmceq ips) + 1
    else
      let m ← at1? msc jdof
      let n ← masterErrs ndof msc mmceq ips
      return if m < 1 then n + 1 else n

/-- The loop over the constraint equations (SAM.C:260-307); `i` runs over the given list (1..nceq). -/
def ceqLoop (ndof : Nat) (msc mpmceq mmceq : List Int) : List Nat → CeqPass → Option CeqPass
  | [], a => some a
  | i :: is, a => do
    let ip ← at1? mpmceq i
    let jp1 ← at1? mpmceq ((i : Int) + 1)
    let jp := jp1 - 1
    let idof ← at1? mmceq ip
    if idof < 1 ∨ idof > ndof then
      ceqLoop ndof msc mpmceq mmceq is { a with nerr := a.nerr + 1 }      -- continue
    else
      let m ← at1? msc idof
      let meqn' ← set1? a.meqn idof (-(i : Int))                           -- meqn[idof-1] = -i
      if m > 0 then
        ceqLoop ndof msc mpmceq mmceq is { a with nerr := a.nerr + 1, meqn := meqn' }
      else if jp = ip then
        ceqLoop ndof msc mpmceq mmceq is { a with npdof := a.npdof + 1, meqn := meqn' }
      else if jp > ip then
        let n ← masterErrs ndof msc mmceq (intRange (ip+1) (jp+1))
        ceqLoop ndof msc mpmceq mmceq is
          { a with nddof := a.nddof + 1, nerr := a.nerr + n, meqn := meqn' }
      else
        some { a with nerr := a.nerr + 1 }                                  -- break

/-- The equation numbering loop (SAM.C:316-322), over the (status code, meqn) pairs. -/
def numberLoop : List Int → List Int → Nat → Nat → List Int
  | c :: cs, e :: es, i, j =>
    if c = 1 then (i : Int) :: numberLoop cs es (i+1) j
    else if c = 2 then (j : Int) :: numberLoop cs es i (j+1)
    else e :: numberLoop cs es i j
  | _, es, _, _ => es

/-- `SAM::initSystemEquations` (SAM.C:225-335).  Returns the updated object and the status;
`none` if an array is accessed out of bounds.  `mpar[3],[4],[7],[8],[9]` are not stored. -/
def initSystemEquations (s : Sam R) : Option (Sam R × Bool) := do
  if s.msc.length ≠ s.ndof then none else
  let p := statusPass s.nspdof s.msc
  let q ← ceqLoop s.ndof p.msc s.mpmceq s.mmceq (List.range' 1 s.nceq)
            ⟨List.replicate s.ndof 0, 0, 0, p.nerr⟩
  let meqn := numberLoop p.msc q.meqn 1 (p.ndof1 + 1)
  return ({ s with msc := p.msc, nspdof := p.nspdof, neq := p.ndof1 + p.ndof2, meqn := meqn },
          q.nerr == 0)

/-! ## Element and nodal equation lookup -/

/-- `SAM::getElmNodes` (SAM.C:635-652); `none` = returns false or an array is left. -/
def getElmNodes (s : Sam R) (iel : Int) : Option (List Int) := do
  if iel < 1 ∨ iel > s.nel then none else
  let ip ← at0? s.mpmnpc (iel-1)
  let jp ← at0? s.mpmnpc iel
  if jp ≤ ip then some [] else slice0? s.mmnpc (ip-1) (jp-1)

/-- Equation numbers of one node of an element (SAM.C:683-687): the node's slice of `meqn`, zeros
for a negative node number ("hole"), nothing for node 0. -/
def nodeEqnsInElm (s : Sam R) (node : Int) : Option (List Int) :=
  if node > 0 then do
    let a ← at0? s.madof (node-1)
    let b ← at0? s.madof node
    slice0? s.meqn (a-1) (b-1)
  else if node < 0 then do
    let b ← at0? s.madof (-node)
    let a ← at0? s.madof (-node-1)
    return List.replicate (b-a).toNat 0
  else some []

/-- `SAM::getElmEqns` (SAM.C:655-696).  `none` = an array is left, or the function returns false
(element index out of range, or `nedof > 0` differs from the number of element DOFs). -/
def getElmEqns (s : Sam R) (iel : Int) (nedof : Nat) : Option (List Int) := do
  let nodes ← s.getElmNodes iel
  let parts ← nodes.mapM s.nodeEqnsInElm
  let meen := parts.flatten
  if nodes = [] then some []
  else if nedof = 0 ∨ meen.length = nedof then some meen else none

/-- `SAM::getNodeEqns` (SAM.C:721-735). -/
def getNodeEqns (s : Sam R) (inod : Int) : Option (List Int) := do
  if inod < 1 ∨ inod > s.nnod then none else
  let a ← at0? s.madof (inod-1)
  let b ← at0? s.madof inod
  slice0? s.meqn (a-1) (b-1)

/-! ## Constraint terms and right-hand-side assembly -/

/-- The (equation, coefficient) pairs visited by the loop
`for (ip = mpmceq[k-1]; ip < mpmceq[k]-1; ip++) if (mmceq[ip] > 0) { ieq = meqn[mmceq[ip]-1]; ... ttcc[ip] ...}`
that occurs in SAM.C:611-616 (`assembleRHS`), SAM.C:398-422 (`getDofCouplings`), SAM.C:708-714,
DenseMatrix.C:279-284, 288-307 and SparseMatrix.C:656-685 (`assemSparse`).
An out-of-bounds access gives a `none` in the list. -/
def masterTerms (s : Sam R) (k : Int) : List (Option (Int × R)) :=
  match at0? s.mpmceq (k-1), at0? s.mpmceq k with
  | some a, some b =>
    (intRange a (b-1)).flatMap fun ip =>
      match at0? s.mmceq ip with
      | none => [none]
      | some m =>
        if m > 0 then
          match at0? s.meqn (m-1), at0? s.ttcc ip with
          | some e, some c => [some (e, c)]
          | _, _ => [none]
        else []
  | _, _ => [none]

/-- The constant term `ttcc[mpmceq[k-1]-1]` of constraint `k` (e.g. DenseMatrix.C:267-268). -/
def offset? (s : Sam R) (k : Int) : Option R := do
  let jp ← at0? s.mpmceq (k-1)
  at0? s.ttcc (jp-1)

variable [CommRing R]

/-- `SAM::assembleRHS` (SAM.C:605-617). -/
def assembleRHS (s : Sam R) (rhs : List R) (value : R) (ieq : Int) : Option (List R) :=
  if ieq > 0 then add1? rhs ieq value
  else if -ieq > 0 then
    (s.masterTerms (-ieq)).foldlM (fun rhs t => do
      let t ← t
      add1? rhs t.1 (t.2 * value)) rhs
  else some rhs

/-- The loop of `SAM::assembleSystem(SystemVector&,const RealArray&,int,RealArray*)` (SAM.C:532-536)
over `meen` and `eS` in parallel. -/
def assembleVecLoop (s : Sam R) : List R → List R → List Int → Option (List R)
  | rhs, v :: vs, e :: es => do
    let rhs' ← s.assembleRHS rhs v e
    assembleVecLoop s rhs' vs es
  | rhs, _, _ => some rhs

/-- `SAM::assembleSystem(sysRHS,eS,iel)` (SAM.C:518-543) without reaction forces. -/
def assembleVec (s : Sam R) (rhs : List R) (eS : List R) (iel : Int) : Option (List R) :=
  if eS = [] then some rhs else do       -- silently ignore empty element vectors
    let meen ← s.getElmEqns iel eS.length
    s.assembleVecLoop rhs eS meen

/-- `SAM::expandVector(const Real*,Vector&,Real)` (SAM.C:785-809). One DOF with equation code `e`. -/
def expandDof (s : Sam R) (x : List R) (scaleSD : R) (e : Int) : Option R :=
  if e > 0 then at1? x e
  else if -e > 0 then do
    let c0 ← s.offset? (-e)
    (s.masterTerms (-e)).foldlM (fun acc t => do
      let t ← t
      if 0 < t.1 ∧ t.1 ≤ (s.neq : Int) then
        let v ← at1? x t.1
        return acc + t.2 * v
      else return acc) (scaleSD * c0)
  else some 0

/-- `SAM::expandSolution` / `expandVector` (SAM.C:768-809). -/
def expandVector (s : Sam R) (x : List R) (scaleSD : R) : Option (List R) :=
  if x.length < s.neq then none
  else s.meqn.mapM (s.expandDof x scaleSD)

/-- `SAM::getSolVec` (SAM.C:812-822): the loop over the DOFs, with `es = meqn` and `u = dofVec` in parallel. -/
def getSolVecLoop : List Int → List R → List R → Option (List R)
  | e :: es, v :: u, x =>
    if e > 0 then do
      let x' ← set1? x e v
      getSolVecLoop es u x'
    else getSolVecLoop es u x
  | [], _, x => some x
  | _ :: _, [], _ => none

/-- `SAM::getSolVec` (SAM.C:812-822). -/
def getSolVec (s : Sam R) (u : List R) : Option (List R) :=
  getSolVecLoop s.meqn u (List.replicate s.neq 0)

end Sam
end IFEM
