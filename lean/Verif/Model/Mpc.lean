import Mathlib.Algebra.Order.Field.Basic
/-!
# Multi-point constraint equations

Models `MPC` and `MPCLess` (src/Utility/MPC.h, src/Utility/MPC.C, src/Utility/MPCLess.h).
-/
namespace IFEM

/-- `MPC::DOF` (MPC.h:57-92) of a master.  `nextc` tells whether the pointer is set: it is only ever set to the constraint
with this DOF as slave (ASMbase.C:1170-1176). -/
structure MTerm (K : Type) where
  node  : Int
  dof   : Int
  coeff : K
  nextc : Bool := false
deriving DecidableEq

/-- `MPC` (MPC.h:52-195): slave node and DOF, constant term `slave.coeff`, and the masters.  `iceq` is modelled in `Model/SamPatch.lean`. -/
structure Mpc (K : Type) where
  node   : Int
  dof    : Int
  c0     : K
  master : List (MTerm K) := []
deriving DecidableEq

variable {K : Type}

/-- The DOF of a master term, as compared by `operator==` (MPC.h:81-84). -/
def MTerm.key (t : MTerm K) : Int × Int := (t.node, t.dof)

/-- The slave DOF. -/
def Mpc.key (m : Mpc K) : Int × Int := (m.node, m.dof)

section order
variable [LT K] [DecidableRel ((· < ·) : K → K → Prop)]

/-- `operator< (const MPC::DOF&, const MPC::DOF&)` (MPC.C:25-36); `slaveOnly` is `MPCLess::compareSlaveDofOnly`. -/
def dofLess (slaveOnly : Bool) (n1 d1 : Int) (c1 : K) (n2 d2 : Int) (c2 : K) : Bool :=
  if n1 < n2 then true
  else if n1 > n2 then false
  else if d1 < d2 then true
  else if d1 > d2 then false
  else if slaveOnly then false
  else decide (c1 < c2)

/-- The loop over the masters in `MPCLess::operator()` (MPC.C:49-56). -/
def mastersLess (slaveOnly : Bool) : List (MTerm K) → List (MTerm K) → Bool
  | [], [] => false
  | [], _ :: _ => true
  | _ :: _, [] => false
  | a :: as, b :: bs =>
    if dofLess slaveOnly a.node a.dof a.coeff b.node b.dof b.coeff then true
    else if dofLess slaveOnly b.node b.dof b.coeff a.node a.dof a.coeff then false
    else mastersLess slaveOnly as bs

/-- `MPCLess::operator()` (MPC.C:39-57); `none` is the null pointer. -/
def mpcLess (slaveOnly : Bool) : Option (Mpc K) → Option (Mpc K) → Bool
  | _, none => false
  | none, some _ => true
  | some l, some r =>
    if dofLess slaveOnly l.node l.dof l.c0 r.node r.dof r.c0 then true
    else if dofLess slaveOnly r.node r.dof r.c0 l.node l.dof l.c0 then false
    else if slaveOnly then false
    else mastersLess slaveOnly l.master r.master

/-- `std::set<MPC*,MPCLess>::insert`: the sorted sequence of elements; the flag tells whether the element was new. -/
def setInsert (slaveOnly : Bool) (m : Mpc K) : List (Mpc K) → Bool × List (Mpc K)
  | [] => (true, [m])
  | x :: xs =>
    if mpcLess slaveOnly (some m) (some x) then (true, m :: x :: xs)
    else if mpcLess slaveOnly (some x) (some m) then
      let r := setInsert slaveOnly m xs
      (r.1, x :: r.2)
    else (false, x :: xs)

/-- `std::set<MPC*,MPCLess>::find`: the element not ordered before or after the given one. -/
def setFind (slaveOnly : Bool) (m : Mpc K) (s : List (Mpc K)) : Option (Mpc K) :=
  s.find? fun x => !mpcLess slaveOnly (some m) (some x) && !mpcLess slaveOnly (some x) (some m)

end order

variable [Field K] [LinearOrder K]

/-- Adds the coefficient to the first master with the same DOF, if any (MPC.C:79-83). -/
def addTerm (t : MTerm K) : List (MTerm K) → List (MTerm K)
  | [] => [t]
  | x :: xs => if x.key = t.key then { x with coeff := x.coeff + t.coeff } :: xs else x :: addTerm t xs

/-- `MPC::addMaster` (MPC.C:75-84). -/
def Mpc.addMaster (tol : K) (m : Mpc K) (t : MTerm K) : Mpc K :=
  if -tol ≤ t.coeff ∧ t.coeff ≤ tol then m else { m with master := addTerm t m.master }

/-- The check for identical masters (MPC.C:94-98). -/
def identicMasters (tol : K) : List (MTerm K) → List (MTerm K) → Bool
  | [], [] => true
  | a :: as, b :: bs => decide (a.key = b.key) && decide (|a.coeff - b.coeff| < tol) && identicMasters tol as bs
  | _, _ => false

/-- `MPC::merge` (MPC.C:87-103). -/
def Mpc.merge (tol : K) (m other : Mpc K) : Bool × Mpc K :=
  if ¬ (m.key = other.key ∧ m.c0 = other.c0) then (false, m)
  else if identicMasters tol m.master other.master then (false, m)
  else (true, other.master.foldl (fun m t => m.addMaster tol t) m)

/-- `MPC::removeMaster` (MPC.h:127-131). -/
def Mpc.removeMaster (m : Mpc K) (pos : Nat) : Mpc K := { m with master := m.master.eraseIdx pos }

/-- `MPC::updateMaster(pos,c)` (MPC.h:113-117). -/
def Mpc.updateCoeff (m : Mpc K) (pos : Nat) (c : K) : Mpc K :=
  { m with master := m.master.modify pos fun t => { t with coeff := c } }

/-- `MPC::addOffset` (MPC.h:155). -/
def Mpc.addOffset (m : Mpc K) (c : K) : Mpc K := { m with c0 := m.c0 + c }

/-- `MPC::shiftNodes` (MPC.C:117-122). -/
def Mpc.shiftNodes (m : Mpc K) (n : Int) : Mpc K :=
  { m with node := m.node + n, master := m.master.map fun t => { t with node := t.node + n } }

/-! ## Resolving of chained constraints (ASMbase.C:1095-1215)

The set of all constraints is the list of the constraint objects (unique slaves); the objects are updated in place. -/

/-- `allMPCs.find` for the given slave DOF, in slave-only mode. -/
def findSlave (k : Int × Int) (H : List (Mpc K)) : Option (Mpc K) := H.find? fun m => decide (m.key = k)

/-- Updates the object with the slave DOF of `m`. -/
def storeMpc (m : Mpc K) (H : List (Mpc K)) : List (Mpc K) := H.map fun x => if x.key = m.key then m else x

/-- Replacing the chained master with index `i` and coefficient `coeff` of `m` by the terms of the constraint `c` (ASMbase.C:1131-1143). -/
def substMaster (tol : K) (m : Mpc K) (i : Nat) (coeff : K) (c : Mpc K) : Mpc K :=
  c.master.foldl (fun m t => m.addMaster tol ⟨t.node, t.dof, t.coeff * coeff, false⟩) ((m.removeMaster i).addOffset (coeff * c.c0))

/-- The loop over the masters (ASMbase.C:1117-1148) of the object with slave `k`, from index `i`, with at most `n` iterations; `rec` is the recursive call.
`none` if this is not enough, or an object does not exist. -/
def resolveLoop (tol : K) (rec : Int × Int → List (Mpc K) → Option (List (Mpc K))) : Nat → Int × Int → Nat → List (Mpc K) → Option (List (Mpc K))
  | 0, _, _, _ => none
  | n+1, k, i, H =>
    match findSlave k H with
    | none => none
    | some m =>
      match m.master[i]? with
      | none => some H
      | some t =>
        match findSlave t.key H with
        | none => resolveLoop tol rec n k (i+1) H
        | some _ =>
          match rec t.key H with
          | none => none
          | some H' =>
            match findSlave k H', findSlave t.key H' with
            | some m', some c =>
              match m'.master[i]? with
              | none => none
              | some t' => resolveLoop tol rec n k i (storeMpc (substMaster tol m' i t'.coeff c) H')
            | _, _ => none

/-- The lambda function `resolve` (ASMbase.C:1112-1154) on the object with slave `k`; `none` if the recursion is deeper than the last argument
(the code does not terminate on cyclic chains) or a loop takes more than `n` iterations. -/
def resolveMpc (tol : K) (n : Nat) : Nat → Int × Int → List (Mpc K) → Option (List (Mpc K))
  | 0 => fun _ _ => none
  | d+1 => fun k H => resolveLoop tol (resolveMpc tol n d) n k 0 H

/-- `ASMbase::resolveMPCchains` with `setPtrOnly` false (ASMbase.C:1199-1211): the loop over all constraints. -/
def resolveAll (tol : K) (n d : Nat) : List (Int × Int) → List (Mpc K) → Option (List (Mpc K))
  | [], H => some H
  | k :: ks, H =>
    match resolveMpc tol n d k H with
    | none => none
    | some H' => resolveAll tol n d ks H'

end IFEM
