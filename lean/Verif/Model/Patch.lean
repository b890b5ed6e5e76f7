import Verif.Model.Mpc
import Verif.Model.Utilities
/-!
# Boundary conditions and constraints of a patch

Models the boundary condition and constraint handling of `ASMbase` (src/ASM/ASMbase.h, src/ASM/ASMbase.C).
-/
namespace IFEM

/-! ## Boundary condition codes -/

/-- `ASMbase::BC` (ASMbase.h:75-92): code 0 is fixed, code 1 is free. -/
structure Bc where
  node : Int
  CX : Nat := 1
  CY : Nat := 1
  CZ : Nat := 1
  RX : Nat := 1
  RY : Nat := 1
  RZ : Nat := 1
deriving DecidableEq

/-- The updates in `BC::free` (ASMbase.C:934-941). -/
def Bc.free (b : Bc) (dof : Nat) : Bc :=
  match dof with
  | 1 => { b with CX := 1 }
  | 2 => { b with CY := 1 }
  | 3 => { b with CZ := 1 }
  | 4 => { b with RX := 1 }
  | 5 => { b with RY := 1 }
  | 6 => { b with RZ := 1 }
  | _ => b

/-- The updates in `BC::fix` (ASMbase.C:950-957). -/
def Bc.fix (b : Bc) (dof : Nat) : Bc :=
  match dof with
  | 1 => { b with CX := 0 }
  | 2 => { b with CY := 0 }
  | 3 => { b with CZ := 0 }
  | 4 => { b with RX := 0 }
  | 5 => { b with RY := 0 }
  | 6 => { b with RZ := 0 }
  | _ => b

/-- The sum of the codes, returned by `BC::free` (ASMbase.C:943). -/
def Bc.sum (b : Bc) : Nat := b.CX + b.CY + b.CZ + b.RX + b.RY + b.RZ

/-- The loop of `fixed::operator()` (ASMbase.C:499-508) for a BC object of the node: it returns at the first digit between 1 and 6. -/
def Bc.fixedLoop (b : Bc) (dof : Nat) : Bool :=
  if h : dof = 0 then false
  else match dof % 10 with
    | 1 => decide (b.CX = 0)
    | 2 => decide (b.CY = 0)
    | 3 => decide (b.CZ = 0)
    | 4 => decide (b.RX = 0)
    | 5 => decide (b.RY = 0)
    | 6 => decide (b.RZ = 0)
    | _ => Bc.fixedLoop b (dof / 10)
termination_by dof
decreasing_by exact Nat.div_lt_self (Nat.pos_of_ne_zero h) (by decide)

/-- `fixed::operator()` (ASMbase.C:496-510). -/
def fixedOp (node : Int) (dof : Nat) (b : Bc) : Bool := decide (b.node = node) && b.fixedLoop dof

/-- The loop of `ASMbase::isFixed` with `all` set (ASMbase.C:519-521), given whether `bit` is not at the end. -/
def isFixedLoop (nf : Nat) (bcs : List Bc) (node : Int) (d : Nat) (found : Bool) : Bool :=
  if h : d = 0 ∨ found = false then found
  else isFixedLoop nf bcs node (d / 10) (if d ≤ nf then bcs.any (fixedOp node (d % 10)) else found)
termination_by d
decreasing_by
  simp only [not_or] at h
  exact Nat.div_lt_self (Nat.pos_of_ne_zero h.1) (by decide)

/-- `ASMbase::isFixed` (ASMbase.C:514-524). -/
def isFixed (nf : Nat) (bcs : List Bc) (node : Int) (dof : Nat) (all : Bool) : Bool :=
  if dof < 10 ∨ all = false then bcs.any (fixedOp node dof)
  else isFixedLoop nf bcs node dof (!bcs.isEmpty)

/-- The digits as in the `std::set` returned by `utl::getDigits` (Utilities.C:479-487): increasing, each once. -/
def digitSet (num : Nat) : List Nat := (List.range 10).filter fun d => (getDigits num).contains d

/-- Applies `f` to the first entry for the node, after adding it if there is none (ASMbase.C:968-973). -/
def updateBc (bcs : List Bc) (node : Int) (f : Bc → Bc) : List Bc :=
  match bcs with
  | [] => [f { node := node }]
  | b :: bs => if b.node = node then f b :: bs else b :: updateBc bs node f

/-- `ASMbase::getNodeID` (ASMbase.C:277-280). -/
def nodeID (mlgn : List Int) (inod : Nat) : Int :=
  if inod < 1 then 0 else mlgn.getD (inod-1) 0

/-- `ASMbase::fix` (ASMbase.C:963-996): the updated codes and the invalid DOFs. -/
def fixNode (nf : Nat) (mlgn : List Int) (bcs : List Bc) (inod : Nat) (dirs : Nat) : List Bc × Nat :=
  let node := nodeID mlgn inod
  if node < 1 ∨ dirs < 1 then (bcs, dirs)
  else
    (updateBc bcs node fun b => (digitSet dirs).foldl (fun b d => if d ≤ nf then b.fix d else b) b,
     (digitSet dirs).foldl (fun inv d => if d ≤ nf then inv else 10*inv + d) 0)

/-! ## Constraints of a patch -/

/-- The parts of `ASMbase` used here: number of unknowns per node and of space dimensions, global node numbers, boundary condition codes, constraints (sorted by slave), and
codes of the inhomogeneous conditions, by slave DOF.  The constraints are compared by their slave only (SIMbase.C:79). -/
structure Patch (K : Type) where
  nf    : Nat
  nsd   : Nat := 3
  mlgn  : List Int := []
  bcode : List Bc := []
  mpcs  : List (Mpc K) := []
  dcode : List ((Int × Int) × Int) := []
deriving DecidableEq

variable {K : Type} [Field K] [LinearOrder K]

/-- Result of `addMPC`: the patch, the returned status, and whether the pointer is set afterwards; if so it points to the constraint in the set with this slave. -/
abbrev AddResult (K : Type) := Patch K × Bool × Bool

/-- Overriding the fixed status of a DOF (ASMbase.C:544-546): the first matching entry is freed, and removed if all is free. -/
def overrideBc (bcs : List Bc) (node : Int) (sdof : Nat) : List Bc :=
  match bcs with
  | [] => []
  | b :: bs => if fixedOp node sdof b then (if (b.free sdof).sum = 6 then bs else b.free sdof :: bs) else b :: overrideBc bs node sdof

/-- `ASMbase::addMPC` (ASMbase.C:527-579) for a non-null pointer; `none` where the code dereferences an erased iterator (ASMbase.C:567-568). -/
def addMPC (p : Patch K) (m : Mpc K) (code : Int) (overrideD : Bool) : Option (AddResult K) :=
  let isFix := p.bcode.any (fixedOp m.node m.dof.toNat)
  if isFix = true ∧ overrideD = false then some (p, true, false)
  else
    let p := if isFix then { p with bcode := overrideBc p.bcode m.node m.dof.toNat } else p
    let r := setInsert true m p.mpcs
    if r.1 then
      some ({ p with mpcs := r.2, dcode := if code > 0 then (m.key, code) :: p.dcode.filter (fun q => decide (q.1 ≠ m.key)) else p.dcode }, true, true)
    else match setFind true m p.mpcs with
      | some old => if overrideD = true ∧ old.master = [] then none else some (p, false, true)
      | none => none  -- not reachable

/-- `cons->addMaster(node,dof,c)` for the constraint in the set with the given slave. -/
def addMasterTo (tol : K) (p : Patch K) (k : Int × Int) (t : MTerm K) : Patch K :=
  { p with mpcs := p.mpcs.map fun m => if m.key = k then m.addMaster tol t else m }

/-- Adds the masters if the pointer is set. -/
def addMastersIf (tol : K) (ptr : Bool) (p : Patch K) (k : Int × Int) (ts : List (MTerm K)) : Patch K :=
  if ptr then ts.foldl (fun p t => addMasterTo tol p k t) p else p

/-- `ASMbase::add2PC` (ASMbase.C:582-597). -/
def add2PC (tol : K) (p : Patch K) (slave : Int) (dir : Nat) (master : Int) (code : Int) : Option (Patch K × Bool) :=
  if dir < 1 ∨ dir > p.nf then some (p, true)
  else if slave = master then some (p, true)
  else match addMPC p ⟨slave, dir, 0, []⟩ code false with
    | none => none
    | some (p', stat, ptr) => some (addMastersIf tol ptr p' (slave, dir) [⟨master, dir, 1, false⟩], stat)

/-- `ASMbase::add3PC` (ASMbase.C:600-620). -/
def add3PC (tol : K) (p : Patch K) (slave : Int) (dir : Nat) (master1 master2 : Int) (code : Int) : Option (Patch K × Bool) :=
  if master1 = master2 then add2PC tol p slave dir master1 code
  else if dir < 1 ∨ dir > p.nf then some (p, true)
  else match addMPC p ⟨slave, dir, 0, []⟩ code false with
    | none => none
    | some (p', stat, ptr) =>
      some (addMastersIf tol ptr p' (slave, dir)
        ((if master1 ≠ slave then [⟨master1, dir, 1, false⟩] else []) ++ (if master2 ≠ slave then [⟨master2, dir, 1, false⟩] else [])), stat)

/-- `ASMbase::addPeriodicity` (ASMbase.C:783-803). -/
def addPeriodicity (tol : K) (p : Patch K) (master slave : Nat) (dir : Nat) : Option (Patch K × Bool) :=
  let slaveNode := nodeID p.mlgn slave
  let masterNode := nodeID p.mlgn master
  if slaveNode < 1 ∨ masterNode < 1 then some (p, false)
  else match add2PC tol p masterNode dir slaveNode 0 with
    | none => none
    | some (p', true) => some (p', true)
    | some (p', false) => add2PC tol p' slaveNode dir masterNode 0

/-- The master terms of DOF `dof` of a rigid coupling (ASMbase.C:684-703). -/
def rigidTerms (gMaster : Int) (dX : K × K × K) (dof : Nat) : List (MTerm K) :=
  ⟨gMaster, dof, 1, false⟩ :: match dof with
    | 1 => [⟨gMaster, 5, dX.2.2, false⟩, ⟨gMaster, 6, -dX.2.1, false⟩]
    | 2 => [⟨gMaster, 4, -dX.2.2, false⟩, ⟨gMaster, 6, dX.1, false⟩]
    | 3 => [⟨gMaster, 4, dX.2.1, false⟩, ⟨gMaster, 5, -dX.1, false⟩]
    | _ => []

/-- Adds a constraint for the slave with the given masters, if it could be inserted (`this->addMPC(cons) && cons`). -/
def addCoupling (tol : K) (p : Patch K) (slave : Int) (dof : Nat) (ts : List (MTerm K)) : Option (Patch K) :=
  match addMPC p ⟨slave, dof, 0, []⟩ 0 false with
  | none => none
  | some (p', stat, ptr) => some (addMastersIf tol (stat && ptr) p' (slave, dof) ts)

/-- `ASMbase::addRigidMPC` (ASMbase.C:680-710): the loop over the DOFs. -/
def addRigidMPC (tol : K) (p : Patch K) (gSlave gMaster : Int) (dX : K × K × K) : Option (Patch K) :=
  (List.range' 1 p.nf).foldlM (fun p dof => addCoupling tol p gSlave dof (rigidTerms gMaster dX dof)) p

/-- `ASMbase::addRigidCouplings` (ASMbase.C:732-759) for one slave node with relative position `dX`. -/
def addRigidCoupling (tol : K) (p : Patch K) (gSlave gMaster : Int) (dX : K × K × K) : Option (Patch K) :=
  if p.nsd = 3 then addRigidMPC tol p gSlave gMaster dX
  else if p.nsd = 2 ∧ p.nf > 1 then
    match addCoupling tol p gSlave 1 [⟨gMaster, 1, 1, false⟩, ⟨gMaster, 3, -dX.2.1, false⟩] with
    | none => none
    | some p' => addCoupling tol p' gSlave 2 [⟨gMaster, 2, 1, false⟩, ⟨gMaster, 3, dX.1, false⟩]
  else some p

/-- The master terms in `ASMbase::addLocal2GlobalCpl` (ASMbase.C:633-643) for DOF `d`; fixed master DOFs are left out. -/
def localTerms (nsd : Nat) (bcs : List Bc) (master : Int) (T : Nat → Nat → K) (d : Nat) : List (MTerm K) :=
  if d > nsd then (if isFixed d bcs master d false then [] else [⟨master, d, 1, false⟩])
  else (List.range' 1 nsd).filterMap fun c => if isFixed d bcs master c false then none else some ⟨master, c, T d c, false⟩

/-- One iteration of `ASMbase::addLocal2GlobalCpl` (ASMbase.C:629-657): the patch and the code of the DOFs to fix.  Erasing the constraint looks it up by its slave. -/
def addLocalStep (tol : K) (slave master : Int) (T : Nat → Nat → K) (q : Patch K × Nat) (d : Nat) : Option (Patch K × Nat) :=
  match addMPC q.1 ⟨slave, d, 0, []⟩ 0 false with
  | none => none
  | some (p', stat, ptr) =>
    if stat && ptr then
      let c := (localTerms p'.nsd p'.bcode master T d).foldl (fun (m : Mpc K) t => m.addMaster tol t) ⟨slave, d, 0, []⟩
      if c.master = [] then some ({ p' with mpcs := p'.mpcs.filter fun m => decide (m.key ≠ (slave, (d : Int))) }, d + 10*q.2)
      else some (addMastersIf tol true p' (slave, d) (localTerms p'.nsd p'.bcode master T d), q.2)
    else some (p', q.2)

/-- `ASMbase::addLocal2GlobalCpl` (ASMbase.C:623-661). -/
def addLocal2GlobalCpl (tol : K) (p : Patch K) (iSlave : Nat) (master : Int) (T : Nat → Nat → K) : Option (Patch K) := do
  let s ← p.mlgn[iSlave]?
  let q ← (List.range' 1 p.nf).foldlM (addLocalStep tol s master T) (p, 0)
  if q.2 > 0 then return { q.1 with bcode := (fixNode q.1.nf q.1.mlgn q.1.bcode (iSlave+1) q.2).1 } else return q.1

/-- `MLGN[inod-1]`; `none` outside the array. -/
def nodeAt (mlgn : List Int) (inod : Nat) : Option Int := if inod < 1 then none else mlgn[inod-1]?

/-- `ASMbase::addNodalCouplings` (ASMbase.C:760-772); `none` also if a node index is outside the patch. -/
def addNodalCouplings (tol : K) (p : Patch K) (slave : Nat) (masters : List (Nat × K)) : Option (Patch K) := do
  let s ← nodeAt p.mlgn slave
  let ms ← masters.mapM fun q => (nodeAt p.mlgn q.1).map fun n => (n, q.2)
  (List.range' 1 p.nf).foldlM (fun p dof => addCoupling tol p s dof (ms.map fun q => ⟨q.1, dof, q.2, false⟩)) p

/-- `ASMbase::prescribe` (ASMbase.C:880-908), where `fixHom` is the static flag `fixHomogeneousDirichlet`: the patch and the ignored directions. -/
def prescribe (fixHom : Bool) (p : Patch K) (inod dirs : Nat) (code : Int) (overrideD : Bool) : Option (Patch K × Nat) :=
  if code = 0 ∧ fixHom = true then
    let r := fixNode p.nf p.mlgn p.bcode inod dirs
    some ({ p with bcode := r.1 }, r.2)
  else
    let node := nodeID p.mlgn inod
    if node < 1 ∨ dirs < 1 then some (p, dirs)
    else (digitSet dirs).foldlM (fun (q : Patch K × Nat) dof =>
      if dof ≤ p.nf then
        match addMPC q.1 ⟨node, dof, 1, []⟩ code overrideD with
        | none => none
        | some (p', stat, _) => some (p', if stat then q.2 else 10*q.2 + dof)
      else some (q.1, 10*q.2 + dof)) (p, 0)

end IFEM
