import Verif.Model.ThreadGroups
/-!
# Model of the element colouring of unstructured patches

`src/ASM/ASMu2DLag.C` (`generateThreadGroupsMultiColored`) and `src/ASM/LR/ASMLRSpline.C` (`LR::generateThreadGroups`).

Simplifications: sets (`std::set<int>`) are lists without repetitions, their order does not matter here; print-out is left out.
-/
namespace IFEM.Threads

/-- `if (s < 0) s = 0` (ASMu2DLag.C:450-451, ASMLRSpline.C:153-155). -/
def resetTags (st : List Int) : List Int := st.map fun s => if s < 0 then 0 else s

/-- `if (status[j] == 0) status[j] = -1` (ASMu2DLag.C:464-465, ASMLRSpline.C:168-169, 172-173). -/
def markOne (st : List Int) (j : Nat) : Option (List Int) :=
  match st[j]? with
  | none => none
  | some s => some (if s = 0 then st.set j (-1) else st)

/-- One element in the colouring loop (ASMu2DLag.C:456-466, ASMLRSpline.C:160-175): `marks i` are the elements to be made unavailable by
element `i`, `c` is the colour. -/
def visit (marks : Nat → List Nat) (c : Int) (S : List Int × List Int) (i : Nat) : Option (List Int × List Int) :=
  match S.1[i]? with
  | none => none
  | some s => if s = 0 then ((marks i).foldlM markOne (S.1.set i c)).map fun st => (st, S.2 ++ [(i : Int)]) else some S

/-- One colour (ASMu2DLag.C:449-466, ASMLRSpline.C:152-177): new status and the elements of this colour. -/
def colourPass (nel : Nat) (marks : Nat → List Nat) (c : Int) (st : List Int) : Option (List Int × List Int) :=
  (List.range nel).foldlM (visit marks c) (resetTags st, [])

/-- `for (nColors = ...; fixedElements < nel; ++nColors)` (ASMu2DLag.C:447-467, ASMLRSpline.C:150-178), with at most `fuel` turns:
`nColors` and `fixed` are the loop variables; the result is `threadGroups[0]`. -/
def colourLoop (nel : Nat) (marks : Nat → List Nat) : Nat → Nat → List Int → Nat → List (List Int) → Option (List (List Int))
  | fuel, nColors, st, fixed, groups =>
    if nel ≤ fixed then some groups
    else match fuel with
      | 0 => none
      | fuel+1 =>
        match colourPass nel marks ((nColors : Int) + 1) st with
        | none => none
        | some (st', col) => colourLoop nel marks fuel (nColors+1) st' (fixed + col.length) (groups ++ [col])

/-! ### Locally refined splines -/

/-- The elements made unavailable by element `e` (ASMLRSpline.C:165-174): `support e` are the basis functions of `e`, `elms b` the elements in the support of function `b`,
`additionals` as in lines 107-143 (empty if there are no additional bases). -/
def lrMarks (support elms : List (List Nat)) (additionals : List (List Nat)) (e : Nat) : List Nat :=
  (support.getD e []).flatMap fun b => (elms.getD b []).flatMap fun j => j :: additionals.getD j []

/-- `LR::generateThreadGroups` with more than one thread and multi-threading not deactivated (ASMLRSpline.C:95-184).
Simplification: elements are visited in the order of their identities; `additionals` (found through geometric search) is an argument. -/
def lrColours (support elms additionals : List (List Nat)) : Option (List (List Int)) :=
  colourLoop support.length (lrMarks support elms additionals) support.length 0 (List.replicate support.length 0) 0 []

/-! ### Unstructured Lagrange patches -/

/-- `std::set::insert`. -/
def sInsert (s : List Nat) (x : Nat) : List Nat := if x ∈ s then s else s ++ [x]

/-- `std::set::insert(first,last)`. -/
def sUnion (s t : List Nat) : List Nat := t.foldl sInsert s

/-- `nodeConn[node].insert(x)`, where `node` is an index of the array. -/
def rowInsert (rows : List (List Nat)) (node x : Nat) : Option (List (List Nat)) :=
  match rows[node]? with
  | none => none
  | some r => some (rows.set node (sInsert r x))

/-- A multi-point constraint of the patch: global node numbers of the slave and of the masters (`MPC::getSlave().node`, `MPC::getMaster(i).node`). -/
structure NodeCpl where
  slave : Nat
  masters : List Nat

/-- One master (ASMu2DLag.C:401-406): `slave` is the 0-based patch index of the slave; the state is `slaveNodes` and `nodeNode`. -/
def cplMaster (MLGN : List Nat) (slave : Nat) (S : List Nat × List (List Nat)) (m : Nat) : Option (List Nat × List (List Nat)) :=
  match MLGN.idxOf? m with
  | none => some S
  | some im => (rowInsert S.2 im slave).map fun nn => (sInsert S.1 slave, nn)

/-- One constraint (ASMu2DLag.C:399-406). -/
def cplOne (MLGN : List Nat) (S : List Nat × List (List Nat)) (c : NodeCpl) : Option (List Nat × List (List Nat)) :=
  match MLGN.idxOf? c.slave with
  | none => some S
  | some is => c.masters.foldlM (cplMaster MLGN is) S

/-- The element pass (ASMu2DLag.C:408-422): the state is `status`, the elements of the separate colour, and `nodeConn`. -/
def elmPass (sep : Bool) (slaves : List Nat) (S : (List Int × List Int) × List (List Nat)) (im : Nat × List Nat) : Option ((List Int × List Int) × List (List Nat)) :=
  if sep = true ∧ im.2.length = 1 ∧ ¬ (∃ n ∈ im.2, n ∈ slaves) then some ((S.1.1.set im.1 1, S.1.2 ++ [(im.1 : Int)]), S.2)
  else (im.2.foldlM (fun rows n => rowInsert rows n im.1) S.2).map fun rows => (S.1, rows)

/-- One master of the second pass (ASMu2DLag.C:425-434). -/
def cplPass (nodeNode : List (List Nat)) (conn : List (List Nat)) (master : Nat) : List (List Nat) :=
  let slaves := nodeNode.getD master []
  if slaves = [] then conn
  else
    let common := slaves.foldl (fun s sl => sUnion s (conn.getD sl [])) (conn.getD master [])
    slaves.foldl (fun cn sl => cn.set sl common) (conn.set master (sUnion (conn.getD master []) common))

/-- The elements made unavailable by element `i` (ASMu2DLag.C:462-463). -/
def lagMarks (MNPC conn : List (List Nat)) (i : Nat) : List Nat := (MNPC.getD i []).flatMap fun n => conn.getD n []

/-- `ASMu2DLag::generateThreadGroupsMultiColored` (ASMu2DLag.C:383-471): `MLGN` are the global node numbers, `MNPC` the 0-based element nodes, `mpcs` the constraints of the patch;
the result is `threadGroups[0]`. -/
def lagColours (MLGN : List Nat) (MNPC : List (List Nat)) (mpcs : List NodeCpl) (sep : Bool) : Option (List (List Int)) :=
  match mpcs.foldlM (cplOne MLGN) ([], List.replicate MLGN.length []) with
  | none => none
  | some cp =>
    match ((List.range MNPC.length).zip MNPC).foldlM (elmPass sep cp.1) ((List.replicate MNPC.length 0, []), List.replicate MLGN.length []) with
    | none => none
    | some ep =>
      let conn := (List.range MLGN.length).foldl (cplPass cp.2) ep.2
      let fixed := ep.1.2.length
      colourLoop MNPC.length (lagMarks MNPC conn) MNPC.length (if fixed = 0 then 0 else 1) ep.1.1 fixed (if fixed = 0 then [] else [ep.1.2])

end IFEM.Threads
