import Mathlib.Algebra.Order.Field.Basic
import Mathlib.Algebra.Order.Group.Unbundled.Abs
import Verif.Model.Sam
/-!
# Norms, scalar products and equation sets by DOF type

Models `SAM::getNoNodes`, `dot`, `norm2`, `normL2`, `normInf`, `normReact`, `haveReaction` and `getEquations` (src/LinAlg/SAM.C:339-352, 842-950, 1002-1023;
src/LinAlg/SAM.h:256-257).  `sqrt` is a parameter.
-/
namespace IFEM

/-- The members `nodeType` and `dof_type` (src/LinAlg/SAM.h:352-353). -/
structure DofTypes where
  nodeType : List Char := []
  dofType  : List Char := []

/-- The generic `vector<T>::dot` (src/LinAlg/matrix.h:1559-1567) with offsets 0 and increments 1; the BLAS version is an external call. -/
def vecDot {R : Type} [Zero R] [Add R] [Mul R] (x y : List R) : R := (List.zipWith (fun a b => a * b) x y).foldl (fun s v => s + v) 0

namespace Sam
variable {R : Type}

/-- `SAM::getNoNodes` (SAM.C:339-352). -/
def getNoNodes (s : Sam R) (ty : DofTypes) (t : Char) : Option Nat :=
  if t = 'A' then some s.nnod
  else if ty.nodeType = [] then some (if t = 'D' then s.nnod else 0)
  else (List.range s.nnod).foldlM (fun n (i : Nat) => (at0? ty.nodeType i).map fun c => if c = t then n + 1 else n) 0

/-- `types.empty() || types[i] == t` (SAM.C:851, 853). -/
def typeIs (types : List Char) (i : Int) (t : Char) : Option Bool :=
  if types = [] then some true else (at0? types i).map fun c => decide (c = t)

/-- The indices of the inner loop (SAM.C:852-853, 872-873) for the 0-based node `i`: `n` is the length of the vector. -/
def typedNodeIdx (s : Sam R) (ty : DofTypes) (t : Char) (n : Int) (i : Nat) : Option (List Int) := do
  let sel ← typeIs ty.nodeType i t
  if sel then
    let a ← at0? s.madof i
    let b ← at0? s.madof (i + 1)
    (intRange (a - 1) (min (b - 1) n)).filterM fun j => typeIs ty.dofType j t
  else some []

/-- The sequence of indices visited by the loops of `dot` and `normL2` (SAM.C:850-853, 870-873). -/
def typedIdx (s : Sam R) (ty : DofTypes) (t : Char) (n : Int) : Option (List Int) :=
  ((List.range s.nnod).mapM fun i => s.typedNodeIdx ty t n i).map List.flatten

section
variable [Zero R] [Add R] [Mul R]

/-- `SAM::dot` (SAM.C:842-857). -/
def dot (s : Sam R) (ty : DofTypes) (x y : List R) (t : Char) : Option R :=
  if (ty.nodeType = [] ∧ ty.dofType = []) ∨ t = 'A' then some (vecDot x y)
  else do
    let n : Int := if x.length < y.length then x.length else y.length
    let js ← s.typedIdx ty t n
    js.foldlM (fun r j => do return r + (← at0? x j) * (← at0? y j)) 0

/-- `SAM::norm2` (SAM.h:256-257). -/
def norm2 (sqrt : R → R) (s : Sam R) (ty : DofTypes) (x : List R) (t : Char) : Option R := (s.dot ty x x t).map sqrt

end

/-- `SAM::normL2` (SAM.C:860-881).  `Vector::norm2` is the square root of the sum of squares (matrix.h:1570-1581). -/
def normL2 [Field R] (sqrt : R → R) (s : Sam R) (ty : DofTypes) (x : List R) (t : Char) : Option R :=
  if x = [] then some 0
  else if ty.nodeType = [] ∧ ty.dofType = [] then some (sqrt (vecDot x x) / sqrt (x.length : R))
  else do
    let js ← s.typedIdx ty t x.length
    let r ← js.foldlM (fun (r : R × Nat) j => do return (r.1 + (← at0? x j) * (← at0? x j), r.2 + 1)) (0, 0)
    return if r.2 > 0 then sqrt (r.1 / (r.2 : R)) else r.1

section
variable [AddCommGroup R] [LinearOrder R]

/-- Body of the loop in the generic `vector<T>::normInf` (matrix.h:1590-1601): `off` and `amax`. -/
def vecMaxStep (v : List R) (inc : Nat) (a : Nat × R) (i : Nat) : Option (Nat × R) :=
  (v[i]?).map fun c => if c > a.2 then (1 + i / inc, c) else if c < -a.2 then (1 + i / inc, -c) else a

/-- The generic `vector<T>::normInf(off,inc)` (matrix.h:1583-1604) with `sign = false`: the norm and the new value of `off`. -/
def vecNormInf (v : List R) (off inc : Nat) : Option (R × Nat) :=
  if inc < 1 ∨ v.length ≤ off then some (0, off)
  else ((List.range ((v.length - off + inc - 1) / inc)).foldlM (fun a k => vecMaxStep v inc a (off + k * inc)) (off, 0)).map fun a => (a.2, a.1)

/-- Comparison of element `k`, with value `c`, with the largest one so far. -/
def idamaxUpd (k : Nat) (c : R) : Option (Nat × R) → Nat × R
  | none => (k, |c|)
  | some (j, m) => if |c| > m then (k, |c|) else (j, m)

/-- `cblas_idamax(n,v,inc)`: the 0-based index of the first element of largest absolute value (reference semantics of BLAS); 0 if `n = 0`. -/
def idamax (v : List R) (inc n : Nat) : Option Nat :=
  ((List.range n).foldlM (fun (a : Option (Nat × R)) k => (v[k * inc]?).map fun c => some (idamaxUpd k c a)) none).map fun a => (a.map Prod.fst).getD 0

/-- The BLAS version of `vector<double>::normInf(off,inc)` (matrix.h:1140-1149) with `sign = false`. -/
def blasNormInf (v : List R) (off inc : Nat) : Option (R × Nat) :=
  if inc < 1 ∨ v = [] then some (0, off)
  else do
    let k ← idamax (v.drop off) inc (v.length / inc)
    let c ← (v.drop off)[k * inc]?
    return (|c|, 1 + k)

/-- `if (fabs(x[idof]) > retVal) { comp = i+1; retVal = fabs(x[idof]); }` (SAM.C:905-909, 913-917): state is `comp, retVal`. -/
def maxUpd (x : List R) (i : Nat) (idof : Int) (a : Nat × R) : Option (Nat × R) :=
  (at0? x idof).map fun c => if |c| > a.2 then (i + 1, |c|) else a

/-- The inner loop of `normInf` with DOF types (SAM.C:902-909): `k` is the number of DOFs of the type seen so far. -/
def normInfDofs (ty : DofTypes) (t : Char) (icmp : Nat) (x : List R) (i : Nat) : List Int → Nat → Nat × R → Option (Nat × R)
  | [], _, a => some a
  | idof :: ds, k, a =>
    match at0? ty.dofType idof with
    | none => none
    | some c =>
      if c = t then
        if k + 1 = icmp then
          match maxUpd x i idof a with
          | none => none
          | some a => normInfDofs ty t icmp x i ds (k + 1) a
        else normInfDofs ty t icmp x i ds (k + 1) a
      else normInfDofs ty t icmp x i ds k a

/-- Body of the node loop of `normInf` (SAM.C:900-917) for the 0-based node `i`. -/
def normInfNode (s : Sam R) (ty : DofTypes) (t : Char) (icmp : Nat) (x : List R) (a : Nat × R) (i : Nat) : Option (Nat × R) := do
  let m1 ← at0? s.madof i
  let m2 ← at0? s.madof (i + 1)
  if ty.dofType ≠ [] then normInfDofs ty t icmp x i (intRange (m1 - 1) (m2 - 1)) 0 a
  else
    let c ← at0? ty.nodeType i
    if c = t then
      let idof := m1 + icmp - 2
      if idof ≥ 0 ∧ idof < m2 - 1 then maxUpd x i idof a else some a
    else some a

/-- `SAM::normInf` (SAM.C:884-919): the norm, and the value of `comp` on exit.  `vnorm` is `Vector::normInf` (generic or BLAS version).  The reads of `madof` are made
for all nodes (they are within the array anyway). -/
def normInf (vnorm : List R → Nat → Nat → Option (R × Nat)) (s : Sam R) (ty : DofTypes) (x : List R) (comp : Nat) (t : Char) : Option (R × Nat) :=
  if x = [] ∨ comp < 1 then some (0, comp)
  else if ty.nodeType = [] ∧ ty.dofType = [] then do
    let m0 ← at0? s.madof 0
    let m1 ← at0? s.madof 1
    if (comp : Int) ≤ m1 - m0 then vnorm x (comp - 1) (m1 - m0).toNat else return (0, comp)
  else ((List.range s.nnod).foldlM (fun a i => s.normInfNode ty t comp x a i) (comp, 0)).map fun a => (a.2, a.1)

end

/-- `SAM::normReact` (SAM.C:922-940). -/
def normReact [Zero R] [Add R] [Mul R] (s : Sam R) (u rf : List R) : Option R :=
  (List.range s.ndof).foldlM (fun r (i : Nat) => do
    let e ← at0? s.meqn i
    let c ← at0? s.msc i
    if e < 0 ∧ c < 0 ∧ -c ≤ rf.length then
      let p1 ← at0? s.mpmceq (-e)
      let p0 ← at0? s.mpmceq (-e - 1)
      if p1 - p0 = 1 then
        let RF ← at0? rf (-c - 1)
        let v ← at0? u i
        return r + v * RF
      else return r
    else return r) 0

/-- `!nodes || std::find(nodes->begin(),nodes->end(),i+1) != nodes->end()` (SAM.C:947, 962). -/
def inNodes (nodes : Option (List Int)) (i : Nat) : Bool := nodes.all fun l => l.contains ((i : Int) + 1)

/-- The loop of `SAM::haveReaction` (SAM.C:946-950) over the 0-based nodes. -/
def haveReactionLoop (s : Sam R) (dir : Int) (nodes : Option (List Int)) : List Nat → Option Bool
  | [] => some false
  | i :: is =>
    if inNodes nodes i then do
      let a ← at0? s.madof i
      let b ← at0? s.madof (i + 1)
      if a + dir - 2 < b - 1 then
        let c ← at0? s.msc (a + dir - 2)
        if c < 0 ∧ -c ≤ s.nspdof then return true else haveReactionLoop s dir nodes is
      else haveReactionLoop s dir nodes is
    else haveReactionLoop s dir nodes is

/-- `SAM::haveReaction` (SAM.C:943-953). -/
def haveReaction (s : Sam R) (dir : Int) (nodes : Option (List Int)) : Option Bool :=
  if dir > 0 ∧ s.nspdof > 0 then s.haveReactionLoop dir nodes (List.range s.nnod) else some false

/-- The loop body of `SAM::getReaction` (SAM.C:961-970): the sum and the reaction force array. -/
def getReactionStep [Zero R] [Add R] (s : Sam R) (dir : Int) (nodes : Option (List Int)) (r : R × List R) (i : Nat) : Option (R × List R) :=
  if inNodes nodes i then do
    let a ← at0? s.madof i
    let b ← at0? s.madof (i + 1)
    if a + dir - 2 < b - 1 then
      let c ← at0? s.msc (a + dir - 2)
      if -c - 1 ≥ 0 ∧ -c - 1 < r.2.length then
        let f ← at0? r.2 (-c - 1)
        if nodes.isSome then do
          let rf ← set0? r.2 (-c - 1) 0
          return (r.1 + f, rf)
        else return (r.1 + f, r.2)
      else return r
    else return r
  else some r

/-- `SAM::getReaction` (SAM.C:956-973): the sum, and the reaction force array on exit (cast to non-const and changed when `nodes` is given). -/
def getReaction [Zero R] [Add R] (s : Sam R) (dir : Int) (rf : List R) (nodes : Option (List Int)) : Option (R × List R) :=
  if dir > 0 ∧ s.nspdof > 0 then (List.range s.nnod).foldlM (s.getReactionStep dir nodes) (0, rf) else some (0, rf)

/-- The lambda function of `getEquations` (SAM.C:1005-1010): the equations inserted for a DOF. -/
def typedEquation (s : Sam R) (ty : DofTypes) (t : Char) (idof : Int) : Option (List Int) := do
  let sel ← typeIs ty.dofType idof t
  if sel then
    let e ← at0? s.meqn idof
    return if e > 0 then [e] else []
  else return []

/-- `nodeType.empty() ? 'D' : nodeType[inod]` (SAM.C:1013). -/
def nodeTypeD (ty : DofTypes) (i : Int) : Option Char := if ty.nodeType = [] then some 'D' else at0? ty.nodeType i

/-- The body of the loop of `getEquations` (SAM.C:1013-1019) for the 0-based node `i`. -/
def nodeEquations (s : Sam R) (ty : DofTypes) (t : Char) (dof : Int) (i : Nat) : Option (List Int) := do
  let nt ← nodeTypeD ty i
  if nt = t ∨ ty.dofType ≠ [] then
    let a ← at0? s.madof i
    let b ← at0? s.madof (i + 1)
    if dof > 0 ∧ dof ≤ b - a then s.typedEquation ty t (a + dof - 2)
    else ((intRange a b).mapM fun idof => s.typedEquation ty t (idof - 1)).map List.flatten
  else return []

/-- `SAM::getEquations` (SAM.C:1002-1023): the set, as a list in order of insertion. -/
def getEquations (s : Sam R) (ty : DofTypes) (t : Char) (dof : Int) : Option (List Int) :=
  ((List.range s.nnod).mapM fun i => s.nodeEquations ty t dof i).map List.flatten

end Sam
end IFEM
