import Mathlib.Algebra.Field.Basic
/-!
# Model of the nodal coordinates of Lagrange patches (src/ASM/ASMLagBase.[hC])

Coordinates are exact; a point (`Vec3`) is a function on the three directions.
-/
namespace IFEM.LagNodes

variable {K : Type} [Field K]

abbrev P3 (K : Type) := Fin 3 → K

/-- `ASMLagBase::nodalField` (ASMLagBase.C:23-37): the columns of the field, `none` for the division by zero. -/
def nodalField (coord : List (P3 K)) (sol : List K) (nno : Nat) : Option (List (List K) × Bool) :=
  if nno = 0 then none else
  let nPnts := coord.length
  let nComp := sol.length / nno
  if nno < nPnts ∨ nComp * nno ≠ sol.length then some ([], false) else
  some ((List.range nPnts).map fun i => (List.range nComp).map fun c => sol.getD (i * nComp + c) 0, true)

/-- The loop of `getGeometricCenter` (ASMLagBase.C:44-45), `none` for nodes that do not exist. -/
def sumNodes (coord : List (P3 K)) : List Nat → P3 K → Option (P3 K)
  | [], X => some X
  | n :: l, X =>
    match coord[n]? with
    | none => none
    | some c => sumNodes coord l fun i => X i + c i

/-- `ASMLagBase::getGeometricCenter` (ASMLagBase.C:40-49), `none` also for an element without nodes (zero times infinity). -/
def center (coord : List (P3 K)) (MNPC : List Nat) : Option (P3 K) :=
  if MNPC = [] then none else
  (sumNodes coord MNPC fun _ => 0).map fun X i => X i * (1 / (MNPC.length : K))

/-- The loop of `updateCoords` (ASMLagBase.C:62-67), with the pointer `dpt` as the rest of the vector; the conversion of an array to `Vec3` takes the first
three entries and zero for missing ones (Vec3.h:44-45). -/
def addDispl (nsd : Nat) : List (P3 K) → List K → List (P3 K)
  | [], _ => []
  | X :: l, d => (fun i => X i + (d.take nsd).getD i.val 0) :: addDispl nsd l (d.drop nsd)

/-- `ASMLagBase::updateCoords` (ASMLagBase.C:52-70). -/
def updateCoords (coord : List (P3 K)) (displ : List K) (nsd : Nat) : List (P3 K) × Bool :=
  if displ.length ≠ nsd * coord.length then (coord, false) else (addDispl nsd coord displ, true)

/-- `ASMLagBase::updateOrigin` (ASMLagBase.C:73-77). -/
def updateOrigin (coord : List (P3 K)) (o : P3 K) : List (P3 K) := coord.map fun X i => X i + o i

/-- The two kinds of updates. -/
inductive Upd (K : Type)
  | displ (d : List K) (nsd : Nat)
  | origin (o : P3 K)

/-- One update. -/
def step (coord : List (P3 K)) : Upd K → List (P3 K)
  | .displ d nsd => (updateCoords coord d nsd).1
  | .origin o => updateOrigin coord o

end IFEM.LagNodes
