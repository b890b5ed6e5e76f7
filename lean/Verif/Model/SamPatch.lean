import Verif.Model.Patch
import Verif.Model.Sam
/-!
# Building the tables of the System Assembly Manager from the patches

Models `SAMpatch` (src/ASM/SAMpatch.C).  Node and DOF types are not modelled (see `Model/SamQuery.lean`).
-/
namespace IFEM

/-- What `SAMpatch` sees of a patch: for each node `j` the pair of `getNodeID(j)` and `getNodalDOFs(j)`, boundary codes, for each element `i` the pair of `getElmID(i)`
(`abs(MLGE[i-1])`, zero for inactive elements) and the local nodes `MNPC[i-1]`, and the constraints. -/
structure SPatch (K : Type) where
  nodes : List (Int × Nat) := []
  bcode : List Bc := []
  elems : List (Nat × List Int) := []
  mpcs  : List (Mpc K) := []

variable {K : Type}

/-! ## initNodeDofs (SAMpatch.C:83-158) -/

/-- The body of the loop over the nodes of the patches (SAMpatch.C:95-101): the number of DOFs of the nodes (`madof[1..nnod]`) and the number of conflicts. -/
def countStep (nnod : Nat) (a : List Nat × Nat) (q : Int × Nat) : List Nat × Nat :=
  if q.1 > 0 ∧ q.1 ≤ nnod then
    let i := q.1.toNat - 1
    if a.1.getD i 0 = 0 then (a.1.set i q.2, a.2)
    else if a.1.getD i 0 ≠ q.2 then (a.1, a.2 + 1)
    else a
  else a

/-- The accumulation (SAMpatch.C:124-126): `madof[0..nnod]`, given `madof[0]` and the number of DOFs of the nodes. -/
def accumulate : Int → List Nat → List Int
  | m, [] => [m]
  | m, c :: cs => m :: accumulate (m + c) cs

/-- `msc[idof1+c-2] *= code` if `nndof ≥ c` (SAMpatch.C:143-148). -/
def applyCode (idof1 nndof : Int) (msc : List Int) (c : Nat × Nat) : Option (List Int) :=
  if nndof > (c.1 : Int) - 1 then do
    let old ← at1? msc (idof1 + c.1 - 1)
    set1? msc (idof1 + c.1 - 1) (old * c.2)
  else some msc

/-- The loop body for a boundary code (SAMpatch.C:141-148); `none` if an array is left. -/
def applyBc (madof : List Int) (msc : List Int) (b : Bc) : Option (List Int) := do
  let idof1 ← at1? madof b.node
  let idof2 ← at1? madof (b.node + 1)
  [(1, b.CX), (2, b.CY), (3, b.CZ), (4, b.RX), (5, b.RY), (6, b.RZ)].foldlM (applyCode idof1 (idof2 - idof1)) msc

/-- `SAMpatch::initNodeDofs` (SAMpatch.C:83-158) for `nnod > 0`: `madof`, `msc`, and the status. -/
def initNodeDofs (nnod : Nat) (P : List (SPatch K)) : Option (List Int × List Int × Bool) := do
  let cnt := (P.flatMap fun p => p.nodes).foldl (countStep nnod) (List.replicate nnod 0, 0)
  let madof := accumulate 1 cnt.1
  let last ← at1? madof (nnod + 1)
  let msc ← (P.flatMap fun p => p.bcode).foldlM (applyBc madof) (List.replicate (last - 1).toNat 1)
  return (madof, msc, cnt.2 == 0)

/-! ## initElementConn (SAMpatch.C:161-256) -/

/-- The global node of a local node number of an element (SAMpatch.C:195-200). -/
def elmNode (nodes : List (Int × Nat)) (inod : Int) : Int :=
  if inod = -2147483648 then -nodeID (nodes.map fun q => q.1) 1
  else if inod < 0 then -nodeID (nodes.map fun q => q.1) (1 - inod).toNat
  else nodeID (nodes.map fun q => q.1) (1 + inod).toNat

/-- The active elements of all patches: number and global nodes (SAMpatch.C:190-201). -/
def activeElms (P : List (SPatch K)) : List (Nat × List Int) :=
  P.flatMap fun p => (p.elems.filter fun e => decide (e.1 > 0)).map fun e => (e.1, e.2.map (elmNode p.nodes))

/-- The pointer array of a list of blocks: `mpmnpc[0] = 1`, each entry is the previous one plus the size of the block (SAMpatch.C:188-200). -/
def blockPtr (blocks : List (List Int)) : List Int := accumulate 1 (blocks.map List.length)

/-- Number of elements not in increasing order (SAMpatch.C:202-204). -/
def outOfOrder : List Nat → Nat
  | a :: b :: l => (if b ≤ a then 1 else 0) + outOfOrder (b :: l)
  | _ => 0

/-- `std::map<int,Ipair>` as list sorted by key; `none` if the key is present already (SAMpatch.C:222-231). -/
def mapInsert (k : Nat) (v : Int × Nat) : List (Nat × Int × Nat) → Option (List (Nat × Int × Nat))
  | [] => some [(k, v)]
  | x :: xs => if k < x.1 then some ((k, v) :: x :: xs) else if k = x.1 then none else (mapInsert k v xs).map fun l => x :: l

/-- `memcpy` of `n` values from the 0-based position `i` (SAMpatch.C:246). -/
def copyInts (a : List Int) (i : Int) (n : Nat) : Option (List Int) :=
  if 0 ≤ i ∧ i.toNat + n ≤ a.length then some ((a.drop i.toNat).take n) else none

/-- The loop body of the reordering (SAMpatch.C:239-248): `new_mpmnpc[0..ip-1]` (so that its length is `ip`) and `new_mmnpc`. -/
def reorderStep (mmnpc : List Int) (a : List Int × List Int) (e : Nat × Int × Nat) : Option (List Int × List Int) := do
  let last := a.1.getLastD 0
  let blk ← copyInts mmnpc e.2.1 e.2.2
  return (a.1 ++ List.replicate (e.1 - a.1.length) last ++ [last + e.2.2], a.2 ++ blk)

/-- `SAMpatch::initElementConn` (SAMpatch.C:161-256) for `nel > 0`: `nel`, `mpmnpc`, `mmnpc`; the inner option is the status. -/
def initElementConn (P : List (SPatch K)) : Option (Option (Nat × List Int × List Int)) := do
  let elms := activeElms P
  let nel := elms.length
  let eMax := elms.foldl (fun m e => if e.1 > m then e.1 else m) 0
  let mpmnpc := blockPtr (elms.map fun e => e.2)
  let mmnpc := elms.flatMap fun e => e.2
  if outOfOrder (elms.map fun e => e.1) = 0 ∧ eMax = nel then return some (nel, mpmnpc, mmnpc)
  match (elms.zipIdx).foldlM (fun m e => mapInsert e.1.1 (mpmnpc.getD e.2 0 - 1, (mpmnpc.getD (e.2 + 1) 0 - mpmnpc.getD e.2 0).toNat) m) [] with
  | none => return none
  | some sorted =>
    let r ← sorted.foldlM (reorderStep mmnpc) ([1], [])
    return some (eMax, r.1, r.2)

/-! ## initConstraintEqs (SAMpatch.C:259-365) -/

/-- `madof[node-1] + dof - 1`. -/
def dofNo (madof : List Int) (k : Int × Int) : Option Int := (at1? madof k.1).map fun i => i + k.2 - 1

/-- State of the loop over the constraints: `mpmceq[0..ip-1]` (so that its length is `ip`), `mmceq`, `ttcc`, `msc`, and the constraint indices `iceq` set so far. -/
structure CeqState (K : Type) where
  mpmceq : List Int
  mmceq  : List Int
  ttcc   : List K
  msc    : List Int
  iceq   : List ((Int × Int) × Nat)

variable [Field K] [LinearOrder K]

/-- The lambda function `resolve` (SAMpatch.C:277-300): updates the constant term and the list of master DOFs with coefficients.  The target of a chain pointer is the constraint with this DOF
as slave.  `none` if the chain is longer than the first argument, or an array is left. -/
def resolveTerm (madof msc : List Int) (H : List (Mpc K)) : Nat → MTerm K → K → K × List (Int × K) → Option (K × List (Int × K))
  | 0, _, _, _ => none
  | f+1, t, scale, acc =>
    match dofNo madof t.key with
    | none => none
    | some idof =>
      if t.nextc then
        match findSlave t.key H with
        | none => none
        | some c => c.master.foldlM (fun acc t' => resolveTerm madof msc H f t' (scale * t.coeff) acc) (acc.1 + c.c0 * (scale * t.coeff), acc.2)
      else
        match at1? msc idof with
        | none => none
        | some s => if s > 0 then some (acc.1, acc.2 ++ [(idof, t.coeff * scale)]) else some acc

/-- The loop body of `initConstraintEqs` for one constraint (SAMpatch.C:306-352). -/
def ceqStep (madof : List Int) (H : List (Mpc K)) (f : Nat) (a : CeqState K) (m : Mpc K) : Option (CeqState K) :=
  match dofNo madof m.key with
  | none => none
  | some idof =>
    match at1? a.msc idof with
    | none => none
    | some c =>
      if c ≤ 0 then some a
      else
        match set1? a.msc idof (-(a.mpmceq.length : Int)) with
        | none => none
        | some msc =>
          match m.master.foldlM (fun acc t => resolveTerm madof msc H f t 1 acc) (m.c0, []) with
          | none => none
          | some r => some
            { mpmceq := a.mpmceq ++ [a.mpmceq.getLastD 0 + 1 + r.2.length],
              mmceq := a.mmceq ++ idof :: r.2.map (fun q => q.1),
              ttcc := a.ttcc ++ r.1 :: r.2.map (fun q => q.2),
              msc := msc, iceq := a.iceq ++ [(m.key, a.mpmceq.length - 1)] }

/-- `SAMpatch::initConstraintEqs` (SAMpatch.C:259-365); the negative values in `msc` are reset (SAMpatch.C:358-359). -/
def initConstraintEqs (madof msc : List Int) (f : Nat) (P : List (SPatch K)) : Option (CeqState K) := do
  let a ← (P.flatMap fun p => p.mpcs).foldlM (ceqStep madof (P.flatMap fun p => p.mpcs) f) ⟨[1], [], [], msc, []⟩
  return { a with msc := a.msc.map fun c => if c < 0 then 0 else c }

/-- `MPC::getNoMaster(true)` (MPC.C:61-71); `none` if the chains are longer than the first argument.  The unsigned arithmetic is modelled by integers
(a term `0 - 1` wraps around, and the sum wraps back). -/
def noMasters (H : List (Mpc K)) : Nat → Mpc K → Option Int
  | 0, _ => none
  | f+1, m => m.master.foldlM (fun n t =>
      if t.nextc then
        match findSlave t.key H with
        | none => none
        | some c => (noMasters H f c).map fun x => n + (x - 1)
      else some n) (m.master.length : Int)

/-- `SAMpatch::init` (SAMpatch.C:21-81) for a given number of nodes `nnod > 0` up to the equation numbering; the flag is the status. -/
def buildTables (nnod f : Nat) (P : List (SPatch K)) : Option (Sam K × Bool) := do
  let (madof, msc, ok) ← initNodeDofs nnod P
  if ok then
    match ← initElementConn P with
    | none => return ({}, false)
    | some (nel, mpmnpc, mmnpc) =>
      let c ← initConstraintEqs madof msc f P
      return ({ nnod := nnod, nel := nel, ndof := msc.length, nceq := c.mpmceq.length - 1, mpmnpc := mpmnpc, mmnpc := mmnpc, madof := madof, msc := c.msc,
                mpmceq := c.mpmceq, mmceq := c.mmceq, ttcc := c.ttcc }, true)
  else return ({}, false)

end IFEM
