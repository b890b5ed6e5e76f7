import Verif.Model.Mpi

/-!
# Global equation numbers of a domain decomposition

Models `DomainDecomposition::calcGlobalEqNumbers` (`src/ASM/DomainDecomposition.C`) and what it calls (`setupEquationNumbers`, the two-argument `utl::renumber`), in a build
with MPI on more than one process and without matrix blocks (`blocks.size() == 1`).  Every process executes this code, and the processes exchange messages with the operations
in `Model/Mpi.lean`.

Simplifications: the patches enter through the nodes on the boundaries that are connected (`Part.nodes`, what `setupNodeNumbers` and `getBoundaryNodes` return), the number of
fields of each basis and the table of equation numbers of the assembly administrator of the process (`Proc.getEq`, `SAM::getEquation`).  The visiting order of the nodes
(`OrientIterator`) is a list.  A subscript out of range, and a `return false`, make the result of the process `none`.  Messages printed to the screen are left out.
-/
namespace IFEM.DomNum
open IFEM.Mpi

/-- What the numbering uses of one process: the number of equations (`SAM::getNoEquations`), the equation of component `c` of node `n` (`SAM::getEquation`, which is not
positive if this component is constrained), and the nodes that are global Lagrange multipliers (DomainDecomposition.C:727-731). -/
structure Proc where
  neq : Nat
  getEq : Nat → Nat → Int
  lms : List Nat

/-- The nodes of one basis on a connected boundary, and the number of components in each of them. -/
structure Part where
  nodes : List Nat
  ncmp : Nat

/-- A connection between patches of different processes (`ASM::Interface`, Interface.h:23-34).  `master` and `slave` are the owners of the two patches (`getPatchOwner`).  The
other members of `ASM::Interface` enter through the nodes on the two boundaries, with one member for each basis, the visiting orders of the slave nodes, and the thickness. -/
structure Conn where
  master : Nat
  slave : Nat
  slavePatch : Nat
  dim : Nat
  basis : Nat
  midx : Nat
  mParts : List Part
  sParts : List Part
  orders : List (List Nat)
  thick : Nat

/-- `SlaveOrder::operator()` (DomainDecomposition.h:73-98), the order of the set of connections. -/
def slaveOrder (a b : Conn) : Prop :=
  if a.master ≠ b.master then a.master < b.master
  else if a.slave ≠ b.slave then a.slave < b.slave
  else if a.slavePatch ≠ b.slavePatch then a.slavePatch < b.slavePatch
  else if a.dim ≠ b.dim then a.dim < b.dim
  else if a.basis ≠ b.basis then a.basis < b.basis
  else a.midx < b.midx

/-- Nodes and components in the order of the loops of `setupEquationNumbers` (DomainDecomposition.C:659-695): bases, nodes, components. -/
def bdryDofs (parts : List Part) : List (Nat × Nat) :=
  parts.flatMap fun b => b.nodes.flatMap fun n => (List.range b.ncmp).map fun c => (n, c+1)

/-- One entry in the result of `setupEquationNumbers` (DomainDecomposition.C:687-694). -/
def eqEntry (d : Proc) (mlgeq : List Int) (x : Nat × Nat) : Option Int :=
  if d.getEq x.1 x.2 > 0 then mlgeq[(d.getEq x.1 x.2 - 1).toNat]? else some 0

/-- `setupEquationNumbers` (DomainDecomposition.C:645-699). -/
def setupEqs (d : Proc) (mlgeq : List Int) (parts : List Part) : Option (List Int) := (bdryDofs parts).mapM (eqEntry d mlgeq)

/-- The map `old2new`, the latest assignment first, and the flags `o2nu` (DomainDecomposition.C:773-779). -/
abbrev Remap := List (Int × Int) × List Bool

/-- Entry of `locEqs` and entry of `glbEqs` that belong together, in the order of the loops (DomainDecomposition.C:809-852). -/
def pairIdx (thick : Nat) : Nat → List (List Nat × Nat) → List (Nat × Nat)
  | _, [] => []
  | ofs, (order, ndof) :: rest =>
    ((List.range order.length).flatMap fun i => (List.range thick).flatMap fun t => (List.range ndof).map fun c =>
      (ofs + (i*thick+t)*ndof + c, ofs + (order.getD i 0*thick+t)*ndof + c)) ++ pairIdx thick (ofs + order.length*ndof*thick) rest

/-- Assignment of a new number to an equation: `old2new[block][leq] = geq; o2nu[block][leq-nEqs[block]-1] = true` (DomainDecomposition.C:848-849, 786-787). -/
def assign (nEq : Int) (rm : Remap) (leq geq : Int) : Option Remap :=
  if 0 ≤ leq-nEq-1 ∧ (leq-nEq-1).toNat < rm.2.length then some ((leq, geq) :: rm.1, rm.2.set (leq-nEq-1).toNat true) else none

/-- The innermost loop body for the equations on a connection (DomainDecomposition.C:834-849). -/
def pairEq (nEq : Int) (loc glb : List Int) (rm : Remap) (x : Nat × Nat) : Option Remap := do
  let leq ← loc[x.1]?
  let geq ← glb[x.2]?
  if (leq < 1 ∧ geq > 0) ∨ (leq > 0 ∧ geq < 1) then none
  else if leq < 1 then some rm
  else assign nEq rm leq geq

/-- What a slave does with the numbers received from the master (DomainDecomposition.C:809-855). -/
def applyConn (nEq : Int) (c : Conn) (loc glb : List Int) (rm : Remap) : Option Remap :=
  (pairIdx c.thick 0 (c.orders.zip (c.sParts.map (·.ncmp)))).foldlM (pairEq nEq loc glb) rm

/-- The multipliers are given the numbers of the previous process (DomainDecomposition.C:782-788).  A multiplier that is constrained is a subscript out of range. -/
def applyLMs (d : Proc) (nEq : Int) (mlgeq glbLMs : List Int) (rm : Remap) : Option Remap :=
  (d.lms.zip glbLMs).foldlM (fun rm x =>
    if d.getEq x.1 1 > 0 then (mlgeq[(d.getEq x.1 1 - 1).toNat]?).bind fun leq => assign nEq rm leq x.2 else none) rm

/-- Two-argument `utl::renumber` (Utilities.C:376-389). -/
def renumber (m : List (Int × Int)) (num : Int) : Int := (m.lookup num).getD num

/-- The map `old2new2` of the equations without a new number, and the last number used (DomainDecomposition.C:866-870).  The state is the map and `maxEq`. -/
def fresh (nEq : Int) : List Bool → Nat → List (Int × Int) × Int → List (Int × Int) × Int
  | [], _, s => s
  | u :: us, i, s => fresh nEq us (i+1) (if u then s else ((i+nEq, s.2+1) :: s.1, s.2+1))

/-- The result of one process: `MLGEQ`, `minEq` and `maxEq`. -/
structure Res where
  mlgeq : List Int
  minEq : Int
  maxEq : Int
deriving DecidableEq, Repr

/-- The numbers before any remapping (DomainDecomposition.C:757-771). -/
def iota (neq : Nat) (nEq : Int) : List Int := (List.range neq).map fun i : Nat => nEq + 1 + (i : Int)

/-- The numbers after all remapping (DomainDecomposition.C:858-875); the first process keeps its numbers. -/
def finish (rank : Nat) (d : Proc) (nEq : Int) (rm : Remap) : Res :=
  if rank > 0 then
    let ml := (iota d.neq nEq).map (renumber rm.1)
    let f := fresh nEq rm.2 1 ([], nEq)
    ⟨ml.map (renumber f.1), nEq+1, f.2⟩
  else ⟨iota d.neq nEq, 1, d.neq⟩

/-- Numbers of the multipliers that are passed to the next process (DomainDecomposition.C:884-891). -/
def lmNumbers (d : Proc) (mlgeq : List Int) : Option (List Int) :=
  (d.lms.filter fun n => decide (d.getEq n 1 > 0)).mapM fun n => mlgeq[(d.getEq n 1 - 1).toNat]?

/-- The masters send their numbers (DomainDecomposition.C:904-917). -/
def sendGhosts (rank : Nat) (d : Proc) (res : Res) : List Conn → Prog (Option Res)
  | [] => .done (some res)
  | c :: cs =>
    if c.master ≠ rank then sendGhosts rank d res cs
    else match setupEqs d res.mlgeq c.mParts with
      | none => .done none
      | some glb => sendInt c.slave glb.length (sendVec c.slave glb (sendGhosts rank d res cs))

/-- All sends, first to the next process (DomainDecomposition.C:877-917). -/
def sendAll (nproc rank : Nat) (d : Proc) (conns : List Conn) (res : Res) : Prog (Option Res) :=
  if rank + 1 < nproc then
    match lmNumbers d res.mlgeq with
    | none => .done none
    | some lm => sendVec (rank+1) [res.maxEq] (sendInt (rank+1) lm.length (sendVec (rank+1) lm (sendGhosts rank d res conns)))
  else sendGhosts rank d res conns

/-- The slaves receive the numbers of the master (DomainDecomposition.C:790-856). -/
def recvGhosts (rank : Nat) (d : Proc) (nEq : Int) (k : Remap → Prog (Option Res)) : List Conn → Remap → Prog (Option Res)
  | [], rm => k rm
  | c :: cs, rm =>
    if c.slave ≠ rank then recvGhosts rank d nEq k cs rm
    else match setupEqs d (iota d.neq nEq) c.sParts with
      | none => .done none
      | some loc => recvInt none c.master fun n =>
          if n ≠ loc.length then .done none
          else recvVec none c.master loc.length fun glb =>
            match applyConn nEq c loc glb rm with
            | none => .done none
            | some rm' => recvGhosts rank d nEq k cs rm'

/-- The part of the function that follows the messages from the previous process (DomainDecomposition.C:757-920). -/
def body (nproc rank : Nat) (d : Proc) (conns : List Conn) (nEq : Int) (glbLMs : List Int) : Prog (Option Res) :=
  match applyLMs d nEq (iota d.neq nEq) glbLMs ([], List.replicate d.neq false) with
  | none => .done none
  | some rm => recvGhosts rank d nEq (fun rm => sendAll nproc rank d conns (finish rank d nEq rm)) conns rm

/-- `calcGlobalEqNumbers` on the process `rank` (DomainDecomposition.C:704-920). -/
def calcGlobalEqNumbers (nproc rank : Nat) (d : Proc) (conns : List Conn) : Prog (Option Res) :=
  if rank > 0 then
    recvVec none (rank-1) 1 fun nEqs => recvInt none (rank-1) fun nLMs =>
      if nLMs ≠ d.lms.length then .done none
      else recvVec none (rank-1) d.lms.length fun glbLMs => body nproc rank d conns (nEqs.headD 0) glbLMs
  else body nproc rank d conns 0 []

/-- All processes at the start. -/
def start (nproc : Nat) (procs : Nat → Proc) (conns : List Conn) : Nat → Prog (Option Res) :=
  fun r => if r < nproc then calcGlobalEqNumbers nproc r (procs r) conns else .done none

end IFEM.DomNum
