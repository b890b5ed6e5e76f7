import Verif.Model.SamPatch

/-!
# Time-dependent prescribed values

Models `ASMbase::updateDirichlet` (src/ASM/ASMbase.C:1227-1276), `SAMpatch::updateConstraintEqs` (src/ASM/SAMpatch.C:363-422) and `SIMbase::updateDirichlet` (src/SIM/SIMbase.C:950-960).

Simplifications: the projection of boundary functions onto edges and faces (the overloads in ASMs2D, ASMs3D) is left out; an MPC object is identified by the patch and its slave DOF; the global-to-local map of
`ASMbase::updateDirichlet` is the null pointer, as in the call from `SIMbase`; debug output is left out.
-/
namespace IFEM.Dirichlet
variable {K : Type}

/-- A point: coordinates, time and node number.  `Vec4` -/
structure Pos (K : Type) where
  X : Fin 3 → K
  t : K
  node : Int

/-- A scalar function: `isZero`, value and time derivative.  `RealFunc` -/
structure SFun (K : Type) where
  zero : Bool
  val : Pos K → K
  der : Pos K → K

/-- A vector function: also the dimension; the components are numbered from 1.  `VecFunc` -/
structure VFun (K : Type) where
  zero : Bool
  dim : Nat
  val : Pos K → Int → K
  der : Pos K → Int → K

/-- A patch with the coordinates of its nodes (by local node number from 1), and the property codes of constraints with inhomogeneous values, by the slave DOF.  `dCode` -/
structure DPatch (K : Type) where
  base : SPatch K := {}
  coord : Nat → Fin 3 → K
  dCode : List ((Int × Int) × Int) := []

variable [Field K] [LinearOrder K]

/-- `MPC::setSlaveCoeff` of the constraint with the given slave DOF. -/
def setConst (k : Int × Int) (c : K) (ms : List (Mpc K)) : List (Mpc K) := ms.map fun m => if m.key = k then { m with c0 := c } else m

/-- `ASMbase::getNodeIndex`: the local number of a global node, 0 if there is none. -/
def nodeIndex (nodes : List (Int × Nat)) (n : Int) : Nat :=
  match nodes.findIdx? fun q => decide (q.1 = n) with
  | some i => i+1
  | none => 0

/-- The value of a code at a point for one component, `ASMbase.C:1246-1272`. -/
def codeValue (sf : Int → Option (SFun K)) (vf : Int → Option (VFun K)) (tangent : Bool) (code dof : Int) (X : Pos K) : Option K :=
  match sf code with
  | some g => some (if g.zero then 0 else if tangent then g.der X else g.val X)
  | none =>
    match vf code with
    | some g => some (if g.zero ∨ dof < 1 ∨ dof > min 3 (g.dim : Int) then 0 else if tangent then g.der X dof else g.val X dof)
    | none => none

/-- `ASMbase::updateDirichlet`, `ASMbase.C:1227-1276`: the loop over `dCode`. -/
def updatePatch (sf : Int → Option (SFun K)) (vf : Int → Option (VFun K)) (time : K) (tangent : Bool) (coord : Nat → Fin 3 → K) (nodes : List (Int × Nat)) :
    List ((Int × Int) × Int) → List (Mpc K) → List (Mpc K) × Bool
  | [], ms => (ms, true)
  | d :: ds, ms =>
    let inod := nodeIndex nodes d.1.1
    if inod < 1 then (ms, false)
    else
      match codeValue sf vf tangent d.2 d.1.2 { X := coord inod, t := time, node := d.1.1 } with
      | none => (ms, false)
      | some v => updatePatch sf vf time tangent coord nodes ds (setConst d.1 v ms)

/-- The loop over the patches, `SIMbase.C:953-956`. -/
def updatePatches (sf : Int → Option (SFun K)) (vf : Int → Option (VFun K)) (time : K) (tangent : Bool) : List (DPatch K) → List (DPatch K) × Bool
  | [] => ([], true)
  | p :: ps =>
    let r := updatePatch sf vf time tangent p.coord p.base.nodes p.dCode p.base.mpcs
    let p' := { p with base := { p.base with mpcs := r.1 } }
    if r.2 then
      let q := updatePatches sf vf time tangent ps
      (p' :: q.1, q.2)
    else (p' :: ps, false)

/-! ## Constraint tables -/

/-- The `iceq` of the constraints as set by `initConstraintEqs` (SAMpatch.C:311-323): `none` (-1) for the ignored ones. -/
def iceqs (madof : List Int) (H : List (Mpc K)) (f : Nat) : CeqState K → List (Mpc K) → Option (List (Option Nat))
  | _, [] => some []
  | a, m :: ms =>
    match ceqStep madof H f a m with
    | none => none
    | some b => (iceqs madof H f b ms).map fun l => (if b.mpmceq.length = a.mpmceq.length then none else some (a.mpmceq.length - 1)) :: l

/-- The indices of all constraints after `SAMpatch::init`. -/
def iceqsOf (nnod f : Nat) (P : List (SPatch K)) : Option (List (Option Nat)) :=
  match initNodeDofs nnod P with
  | none => none
  | some (madof, msc, _) => iceqs madof (P.flatMap fun p => p.mpcs) f ⟨[1], [], [], msc, []⟩ (P.flatMap fun p => p.mpcs)

/-- The lambda function `update`, `SAMpatch.C:368-382`: offset, `ipeq`, `ttcc`.  Note that `ipeq` is incremented as soon as the master is free. -/
def updateTerm (madof msc mmceq : List Int) (H : List (Mpc K)) : Nat → MTerm K → K → K × Int × List K → Option (K × Int × List K)
  | 0, _, _, _ => none
  | f+1, t, scale, a =>
    match dofNo madof t.key with
    | none => none
    | some idof =>
      match at1? msc idof with
      | none => none
      | some s =>
        let chain := fun (ip : Int) =>
          if t.nextc then
            match findSlave t.key H with
            | none => none
            | some c => c.master.foldlM (fun a t' => updateTerm madof msc mmceq H f t' (scale * t.coeff) a) (a.1 + c.c0 * (scale * t.coeff), ip, a.2.2)
          else some (a.1, ip, a.2.2)
        if s > 0 then
          match at0? mmceq (a.2.1 + 1) with
          | none => none
          | some d =>
            if d = idof then (set0? a.2.2 (a.2.1 + 1) (t.coeff * scale)).map fun tt => (a.1, a.2.1 + 1, tt)
            else chain (a.2.1 + 1)
        else chain a.2.1

/-- The constant term, `SAMpatch.C:408-413`. -/
def constTerm (c0 : K) (idof : Int) : Option (List K) → Option K
  | none => some 0
  | some prev =>
    if c0 = 0 then some 0
    else if idof ≤ prev.length then (at1? prev idof).map fun u => c0 - u
    else some c0

/-- The loop body for one constraint, `SAMpatch.C:388-419`: `ttcc` and the status. -/
def updateStep (s : Sam K) (H : List (Mpc K)) (f : Nat) (prev : Option (List K)) (ttcc : List K) (m : Mpc K) (iceq : Option Nat) : Option (List K × Bool) :=
  match iceq with
  | none => some (ttcc, true)
  | some i =>
    match dofNo s.madof m.key, at0? s.mpmceq i with
    | some idof, some ip1 =>
      match at1? s.msc idof, at0? s.mmceq (ip1 - 1) with
      | some c, some d =>
        if c > 0 ∨ d ≠ idof then some (ttcc, false)
        else
          match (if prev.isSome then m.master else []).foldlM (fun a t => updateTerm s.madof s.msc s.mmceq H f t 1 a) (m.c0, ip1 - 1, ttcc) with
          | none => none
          | some r =>
            match constTerm r.1 idof prev with
            | none => none
            | some v => (set0? r.2.2 (ip1 - 1) v).map fun tt => (tt, true)
      | _, _ => none
    | _, _ => none

/-- The loop over the constraints. -/
def updateLoop (s : Sam K) (H : List (Mpc K)) (f : Nat) (prev : Option (List K)) : List K → List (Mpc K) → List (Option Nat) → Option (List K × Bool)
  | ttcc, m :: ms, i :: is =>
    match updateStep s H f prev ttcc m i with
    | none => none
    | some (tt, false) => some (tt, false)
    | some (tt, true) => updateLoop s H f prev tt ms is
  | ttcc, _, _ => some (ttcc, true)

/-- `SAMpatch::updateConstraintEqs`, `SAMpatch.C:363-422`. -/
def updateConstraintEqs (s : Sam K) (f : Nat) (P : List (SPatch K)) (is : List (Option Nat)) (prev : Option (List K)) : Option (Sam K × Bool) :=
  if s.nceq < 1 then some (s, true)
  else (updateLoop s (P.flatMap fun p => p.mpcs) f prev s.ttcc (P.flatMap fun p => p.mpcs) is).map fun r => ({ s with ttcc := r.1 }, r.2)

/-- `SIMbase::updateDirichlet`, `SIMbase.C:950-960`; without a previous solution the functions are not evaluated. -/
def updateDirichlet (sf : Int → Option (SFun K)) (vf : Int → Option (VFun K)) (time : K) (tangent : Bool) (s : Sam K) (f : Nat) (P : List (DPatch K)) (is : List (Option Nat)) (prev : Option (List K)) :
    Option (List (DPatch K) × Sam K × Bool) :=
  let r := if prev.isSome then updatePatches sf vf time tangent P else (P, true)
  if r.2 then (updateConstraintEqs s f (r.1.map DPatch.base) is prev).map fun q => (r.1, q.1, q.2)
  else some (r.1, s, false)

end IFEM.Dirichlet
