import Mathlib.Algebra.Order.Field.Basic
import Mathlib.Algebra.Order.Group.Abs
/-!
# Model of nodal fields as functions (src/SIM/NodeVecFunc.[hC])

Coordinates are exact.  The model of the simulator is the list of its patches, a patch is the list of its nodes.
-/
namespace IFEM.NVFun

variable {K : Type} [Field K] [LinearOrder K]

/-- `Vec3` (src/Utility/Vec3.h). -/
structure Pt (K : Type) where
  x : K
  y : K
  z : K
deriving DecidableEq

/-- `Vec3::equal` (Vec3.h:133-141). -/
def equal (a b : Pt K) (tol : K) : Bool :=
  if |a.x - b.x| ≤ tol then if |a.y - b.y| ≤ tol then if |a.z - b.z| ≤ tol then true else false else false else false

/-- `Vec3::lessThan` (Vec3.h:158-167), from the last coordinate to the first one. -/
def lessThan (a b : Pt K) (tol : K) : Bool :=
  if a.z + tol < b.z then true else if a.z - tol > b.z then false else
  if a.y + tol < b.y then true else if a.y - tol > b.y then false else
  if a.x + tol < b.x then true else if a.x - tol > b.x then false else false

/-- The data used: tolerances of `Xp.equal` (Vec3.h:133) and of `operator<` (Vec3Oper.C:18, 134-137), the nodes (coordinates and global number) of the
patches, `idMap` (NodeVecFunc.h:62), number of fields, and `value` (NodeVecFunc.h:67). -/
structure Func (K : Type) where
  eps : K
  tau : K
  patches : List (List (Pt K × Int))
  idMap : Option (List (Int × Int))
  nf : Nat
  value : Option (List K)

/-- The map `ptMap` (NodeVecFunc.h:63). -/
abbrev Cache (K : Type) := List (Pt K × Int)

/-- `ptMap.find` (NodeVecFunc.C:65): as the comparison has a tolerance, the search in the tree may find any entry which is not less and not greater,
or none.  It is a parameter here, with this property. -/
def FindOk (tau : K) (find : Cache K → Pt K → Option Int) : Prop :=
  ∀ m X n, find m X = some n → ∃ p ∈ m, p.2 = n ∧ lessThan p.1 X tau = false ∧ lessThan X p.1 tau = false

/-- The search among all nodes (NodeVecFunc.C:69-73). -/
def search (s : Func K) (X : Pt K) : Option Int :=
  s.patches.findSome? fun pch => pch.findSome? fun nod => if equal X nod.1 s.eps then some nod.2 else none

/-- A point with the node index of `Vec4`, `none` for a `Vec3` object (Vec3.h:208-222). -/
abbrev Query (K : Type) := Pt K × Option Int

/-- The part after the index map: earlier nodes, then all nodes (NodeVecFunc.C:64-77). -/
def byCoord (find : Cache K → Pt K → Option Int) (s : Func K) (m : Cache K) (q : Query K) : Cache K × (Int × Int) :=
  match find m q.1 with
  | some n => (m, (q.2.getD 0, n))
  | none =>
    match search s q.1 with
    | some n => (m ++ [(q.1, n)], (q.2.getD 0, n))
    | none => (m, (0, 0))

/-- `NodeVecFunc::getPointIndex` (NodeVecFunc.C:46-78). -/
def getPointIndex (find : Cache K → Pt K → Option Int) (s : Func K) (m : Cache K) (q : Query K) : Cache K × (Int × Int) :=
  match q.2 with
  | some i =>
    if i > 0 then
      match s.idMap with
      | none => (m, (i, i))
      | some l =>
        if l = [] then (m, (i, i)) else
        match l.lookup i with
        | some v => (m, (i, v))
        | none => byCoord find s m q
    else byCoord find s m q
  | none => byCoord find s m q

/-- `NodeVecFunc::evaluate` (NodeVecFunc.C:28-43). -/
def evaluate (find : Cache K → Pt K → Option Int) (s : Func K) (m : Cache K) (q : Query K) : Cache K × Pt K :=
  let r := getPointIndex find s m q
  let idx := r.2.2 - 1
  match s.value with
  | none => (r.1, ⟨0, 0, 0⟩)
  | some v =>
    if idx < 0 then (r.1, ⟨0, 0, 0⟩) else
    let ofs := s.nf * idx.toNat
    if ofs + s.nf > v.length then (r.1, ⟨0, 0, 0⟩) else
    let c := fun i => if i < s.nf then v.getD (ofs + i) 0 else 0
    (r.1, ⟨c 0, c 1, c 2⟩)

/-- `NodeVecFunc::isZero` (NodeVecFunc.C:22-25). -/
def isZero (s : Func K) : Bool :=
  (match s.value with | some v => v.isEmpty | none => false) || (match s.idMap with | some l => l.isEmpty | none => false)

/-- The map after a sequence of evaluations. -/
def cacheAfter (find : Cache K → Pt K → Option Int) (s : Func K) : Cache K → List (Query K) → Cache K
  | m, [] => m
  | m, q :: l => cacheAfter find s (evaluate find s m q).1 l

end IFEM.NVFun
