import Verif.Model.Mpi

/-!
# Global equation numbers for a partitioning of the elements

Models `DomainDecomposition::calcGlobalEqNumbersPart` (`src/ASM/DomainDecomposition.C`) without matrix blocks (`blocks.size() == 1`).  All processes have the whole model, and
each of them owns some of the elements.  The messages are those of `Model/Mpi.lean`.  A subscript out of range makes the result of the process `none`.
-/
namespace IFEM.DomPart
open IFEM.Mpi

/-- The result of one process: `MLGEQ`, `minEq`, `maxEq`, and the map `G2LEQ` (the latest assignment first). -/
structure Res where
  mlgeq : List Int
  minEq : Int
  maxEq : Int
  g2leq : List (Int × Int)
deriving DecidableEq, Repr

/-- The innermost loop body: an equation without a number gets the next one (DomainDecomposition.C:945-951).  The state is `MLGEQ` and `maxEq`. -/
def numberEq (s : List Int × Int) (eq : Int) : Option (List Int × Int) :=
  if eq > 0 then
    (s.1[(eq-1).toNat]?).bind fun v => if v = -1 then some (s.1.set (eq-1).toNat (s.2+1), s.2+1) else some s
  else some s

/-- The loop over the elements of the process (DomainDecomposition.C:941-953).  The elements are numbered from 0 in `myElms` and from 1 in `getElmEqns`. -/
def numberElms (getElmEqns : Nat → List Int) (myElms : List Nat) (s : List Int × Int) : Option (List Int × Int) :=
  myElms.foldlM (fun s iel => (getElmEqns (iel+1)).foldlM numberEq s) s

/-- The map from global to local numbers (DomainDecomposition.C:966-968). -/
def invert (mlgeq : List Int) : List (Int × Int) :=
  (List.range mlgeq.length).foldl (fun m i => if mlgeq.getD i 0 ≠ -1 then (mlgeq.getD i 0, (i : Int)+1) :: m else m) []

/-- The broadcast of the numbers of the last process to all (DomainDecomposition.C:962-968). -/
def share (nproc rank neq : Nat) (minEq maxEq : Int) (mlgeq : List Int) : Prog (Option Res) :=
  if rank + 1 = nproc then bcastSend mlgeq (.done (some ⟨mlgeq, minEq, maxEq, invert mlgeq⟩)) (List.range rank)
  else bcastRecv none (nproc-1) neq fun ml => .done (some ⟨ml, minEq, maxEq, invert ml⟩)

/-- What follows the messages from the previous process (DomainDecomposition.C:941-968).  The numbers and the last of them are sent to the next process. -/
def body (nproc rank neq : Nat) (getElmEqns : Nat → List Int) (myElms : List Nat) (minEq maxEq : Int) (mlgeq : List Int) : Prog (Option Res) :=
  match numberElms getElmEqns myElms (mlgeq, maxEq) with
  | none => .done none
  | some s =>
    if rank + 1 < nproc then sendVec (rank+1) s.1 (sendInt (rank+1) s.2 (share nproc rank neq minEq s.2 s.1))
    else share nproc rank neq minEq s.2 s.1

/-- `calcGlobalEqNumbersPart` on the process `rank` (DomainDecomposition.C:921-972). -/
def calcGlobalEqNumbersPart (nproc rank neq : Nat) (getElmEqns : Nat → List Int) (myElms : List Nat) : Prog (Option Res) :=
  if rank ≠ 0 then
    recvVec none (rank-1) neq fun ml => recvInt none (rank-1) fun m => body nproc rank neq getElmEqns myElms (m+1) m ml
  else body nproc rank neq getElmEqns myElms 1 0 (List.replicate neq (-1))

/-- All processes at the start. -/
def start (nproc neq : Nat) (getElmEqns : Nat → List Int) (elms : Nat → List Nat) : Nat → Prog (Option Res) :=
  fun r => if r < nproc then calcGlobalEqNumbersPart nproc r neq getElmEqns (elms r) else .done none

end IFEM.DomPart
