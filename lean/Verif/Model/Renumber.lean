import Verif.Model.Patch
/-!
# Renumbering of the global nodes

Models `utl::renumber` (src/Utility/Utilities.C:363-389), the three `ASMbase::renumberNodes`, `shiftGlobalNodeNums`, `addNeighbor`,
`collapseNodes` and `mergeNodes` (src/ASM/ASMbase.C:1279-1476), `MPC::renumberNodes`, `shiftNodes` (src/Utility/MPC.C:106-123), and
`SIMbase::renumberNodes` (src/SIM/SIMbase.C:535-567).

`std::map<int,int>` is an association list, with ascending keys where the code iterates over it.  Patches that share the FE data of another patch
(`shareFE`) refer to the node table of that patch; they are not listed.
-/
namespace IFEM

/-- `old2new[k] = v` on a `std::map`. -/
def mapSet (k v : Int) : List (Int × Int) → List (Int × Int)
  | [] => [(k, v)]
  | (k', v') :: r => if k < k' then (k, v) :: (k', v') :: r else if k' < k then (k', v') :: mapSet k v r else (k, v) :: r

/-- The second `utl::renumber` (Utilities.C:376-389): the returned status and the new number. -/
def renumberOld (old2new : List (Int × Int)) (num : Int) : Bool × Int :=
  match old2new.lookup num with
  | some v => (true, v)
  | none => (false, num)

/-- The first loop of the static `ASMbase::renumberNodes` (ASMbase.C:1336-1339). -/
def collectNodes (mlgns : List (List Int)) (m : List (Int × Int)) : List (Int × Int) :=
  mlgns.foldl (fun m l => l.foldl (fun m n => mapSet n n m) m) m

/-- The second loop (ASMbase.C:1341-1347), with the counters `n` and `renum`. -/
def compressLoop : List (Int × Int) → Int → Nat → List (Int × Int) × Nat
  | [], _, renum => ([], renum)
  | (k, v) :: r, n, renum =>
    if v > n+1 then
      let t := compressLoop r (n+1) (renum+1)
      ((k, n+1) :: t.1, t.2)
    else
      let t := compressLoop r (n+1) renum
      ((k, v) :: t.1, t.2)

/-- The static `ASMbase::renumberNodes` (ASMbase.C:1334-1355): the node tables of the patches, the mapping, and the number of renumbered nodes. -/
def renumberModel (mlgns : List (List Int)) (old2new : List (Int × Int)) : List (List Int) × List (Int × Int) × Nat :=
  let c := compressLoop (collectNodes mlgns old2new) 0 0
  (if c.2 > 0 then mlgns.map fun l => l.map fun n => (renumberOld c.1 n).2 else mlgns, c.1, c.2)

/-- The loop in the second `ASMbase::renumberNodes` (ASMbase.C:1361-1364), counting changed numbers. -/
def renumberPatchLoop : List Int → Int → List (Int × Int) → Nat → List Int × Int × List (Int × Int) × Nat
  | [], nNod, m, renum => ([], nNod, m, renum)
  | n :: ns, nNod, m, renum =>
    let r := renumberNew n nNod m
    let t := renumberPatchLoop ns r.2.2.1 r.2.2.2 (if r.1 then renum+1 else renum)
    (r.2.1 :: t.1, t.2)

/-- The second `ASMbase::renumberNodes` (ASMbase.C:1358-1370). -/
def renumberPatch (mlgn : List Int) (nNod : Int) (m : List (Int × Int)) : List Int × Int × List (Int × Int) × Nat :=
  let r := renumberPatchLoop mlgn nNod m 0
  (r.1, if r.2.2.2 = 0 then r.1.foldl max r.2.1 else r.2.1, r.2.2.1, r.2.2.2)

/-- The loop over the patches in `SIMbase::renumberNodes` (SIMbase.C:544-545). -/
def renumberPatches : List (List Int) → Int → List (Int × Int) → Nat → List (List Int) × Int × List (Int × Int) × Nat
  | [], nNod, m, renum => ([], nNod, m, renum)
  | l :: ls, nNod, m, renum =>
    let r := renumberPatch l nNod m
    let t := renumberPatches ls r.2.1 r.2.2.1 (renum + r.2.2.2)
    (r.1 :: t.1, t.2)

/-- The inverse mapping `myLoc2Glb` (SIMbase.C:551-554). -/
def loc2glb (m : List (Int × Int)) (ngnod : Nat) : List Int :=
  m.foldl (fun (a : List Int) (p : Int × Int) => if p.2 > 0 ∧ p.2 ≤ (ngnod : Int) then a.set (p.2 - 1).toNat p.1 else a) (List.replicate ngnod 0)

/-- The nodes in `SIMbase::renumberNodes` (SIMbase.C:535-554): node tables, mapping, number of nodes and inverse mapping. -/
def renumberSIM (preserveNOrder : Bool) (mlgns : List (List Int)) : List (List Int) × List (Int × Int) × Nat × List Int :=
  if preserveNOrder then
    let r := renumberModel mlgns []
    (r.1, r.2.1, r.2.1.length, loc2glb r.2.1 r.2.1.length)
  else
    let r := renumberPatches mlgns 0 [] 0
    (r.1, r.2.2.1, r.2.1.toNat, loc2glb r.2.2.1 r.2.1.toNat)

/-! ## Boundary codes and constraints -/

variable {K : Type}

/-- `MPC::renumberNodes` (MPC.C:106-114): the constraint and the number of invalid nodes. -/
def renumberMpc (o2n : List (Int × Int)) (m : Mpc K) : Mpc K × Nat :=
  ({ m with node := (renumberOld o2n m.node).2, master := m.master.map fun t => { t with node := (renumberOld o2n t.node).2 } },
   (if (renumberOld o2n m.node).1 then 0 else 1) + (m.master.filter fun t => !(renumberOld o2n t.node).1).length)

/-- The loop over the boundary condition codes (ASMbase.C:1407-1417). -/
def renumberBcs (o2n : List (Int × Int)) (renumAll : Bool) : List Bc → List Bc × Nat
  | [] => ([], 0)
  | b :: bs =>
    let t := renumberBcs o2n renumAll bs
    let r := renumberOld o2n b.node
    if r.1 then ({ b with node := r.2 } :: t.1, t.2)
    else if renumAll then (t.1, t.2 + 1)
    else (b :: t.1, t.2 + 1)

/-- `ASMbase::renumberNodes(old2new,new2old,renumGN)` without the update of the connectivity (ASMbase.C:1387-1428).  The keys of the code map are
the constraint objects, so they change with them. -/
def renumberData (o2n : List (Int × Int)) (renumGN : Int) (p : Patch K) : Bool × Patch K :=
  let renumAll := decide (o2n.length > 1 ∧ renumGN < 2)
  let bad0 := if renumGN > 0 ∧ renumAll = true then (p.mlgn.filter fun n => !(renumberOld o2n n).1).length else 0
  let mlgn := if renumGN > 0 then p.mlgn.map fun n => (renumberOld o2n n).2 else p.mlgn
  let b := renumberBcs o2n renumAll p.bcode
  let bad := bad0 + b.2 + ((p.mpcs.map fun m => (renumberMpc o2n m).2).sum)
  (!(decide (bad > 0) && renumAll),
   { p with mlgn := mlgn, bcode := b.1, mpcs := p.mpcs.map fun m => (renumberMpc o2n m).1,
            dcode := p.dcode.map fun q => (((renumberOld o2n q.1.1).2, q.1.2), q.2) })

/-- `ASMbase::shiftGlobalNodeNums` (ASMbase.C:1466-1476). -/
def shiftNodes (s : Int) (p : Patch K) : Patch K :=
  { p with mlgn := p.mlgn.map (· + s), bcode := p.bcode.map fun b => { b with node := b.node + s },
           mpcs := p.mpcs.map fun m => m.shiftNodes s,
           dcode := p.dcode.map fun q => ((q.1.1 + s, q.1.2), q.2) }

/-! ## Element connectivity -/

/-- The check for a degenerated triangle (ASMbase.C:1447-1449) after `mnpc[k]` was set. -/
def triangleCollapsed (mnpc : List Nat) (k : Nat) : Bool :=
  decide (mnpc.length = 3) && ((mnpc[(k+1)%3]? == mnpc[k]?) || (mnpc[(k+2)%3]? == mnpc[k]?))

/-- The loop over the nodes of an element (ASMbase.C:1440-1460): connectivity and external element number. -/
def replaceNode (i j : Nat) (e : List Nat × Int) : List Nat × Int :=
  (List.range e.1.length).foldl (fun (e : List Nat × Int) k =>
    if e.1[k]? = some j then
      (e.1.set k i, if triangleCollapsed (e.1.set k i) k then 0 else e.2)
    else e) e

/-- The update of the connectivity (ASMbase.C:1430-1462).  The tagging of nodes for visualisation is not modelled. -/
def uniqueNodes (mlgn : List Int) (elms : List (List Nat × Int)) : List (List Nat × Int) :=
  (List.range mlgn.length).foldl (fun elms i =>
    ((List.range mlgn.length).filter fun j => decide (i < j)).foldl (fun elms j =>
      if mlgn[j]? = mlgn[i]? then elms.map (replaceNode i j) else elms) elms) elms

/-! ## Merging of nodes -/

/-- A model of patches with their neighbour lists. -/
structure PatchModel (K : Type) where
  patches : List (Patch K)
  neighbors : List (List Nat)

/-- `ASMbase::mergeNodes` (ASMbase.C:1312-1331) on patch `q`, node `inod`: status and model. -/
def mergeNodes (M : PatchModel K) (q inod : Nat) (globalNum : Int) : Bool × PatchModel K :=
  match M.patches[q]? with
  | none => (false, M)
  | some p =>
    if inod < 1 ∨ inod > p.mlgn.length then (false, M)
    else
      let oldNum := p.mlgn.getD (inod-1) 0
      if oldNum = globalNum then (false, M)
      else
        let ps := M.patches.set q { p with mlgn := p.mlgn.set (inod-1) globalNum }
        let ps := (M.neighbors.getD q []).foldl (fun ps r =>
          match ps[r]? with
          | some x => ps.set r (renumberData [(oldNum, globalNum)] 1 x).2
          | none => ps) ps
        match ps[q]? with
        | some x => ((renumberData [(oldNum, globalNum)] 0 x).1, { M with patches := ps.set q (renumberData [(oldNum, globalNum)] 0 x).2 })
        | none => (false, M)  -- not reachable

/-- `ASMbase::collapseNodes` (ASMbase.C:1289-1309). -/
def collapseNodes (M : PatchModel K) (q1 : Nat) (node1 : Int) (q2 : Nat) (node2 : Int) : Bool × PatchModel K :=
  match M.patches[q1]?, M.patches[q2]? with
  | some p1, some p2 =>
    if node1 < 1 ∨ node1 > p1.mlgn.length then (false, M)
    else if node2 < 1 ∨ node2 > p2.mlgn.length then (false, M)
    else
      let g1 := p1.mlgn.getD (node1-1).toNat 0
      let g2 := p2.mlgn.getD (node2-1).toNat 0
      if g1 > g2 then (true, (mergeNodes M q1 node1.toNat g2).2)
      else if g2 > g1 then (true, (mergeNodes M q2 node2.toNat g1).2)
      else (false, M)
  | _, _ => (false, M)

/-- `ASMbase::addNeighbor` (ASMbase.C:1279-1286). -/
def addNeighbor (M : PatchModel K) (q r : Nat) : PatchModel K :=
  if (M.neighbors.getD q []).contains r then M
  else
    let nb := M.neighbors.set q (M.neighbors.getD q [] ++ [r])
    { M with neighbors := nb.set r (nb.getD r [] ++ [q]) }

/-- Connecting patch `q` to its neighbour `r` at the listed pairs of nodes, as at the end of `connectPatch` (e.g. ASMs1D.C:440-490, ASMs2D.C:677-748). -/
def connect (M : PatchModel K) (q r : Nat) (nodes : List (Int × Int)) : PatchModel K :=
  addNeighbor (nodes.foldl (fun M n => (collapseNodes M r n.2 q n.1).2) M) q r

end IFEM
