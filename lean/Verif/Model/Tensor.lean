import Verif.Model.Mapping
import Mathlib.Analysis.SpecialFunctions.Complex.Arg
import Mathlib.Analysis.SpecialFunctions.Trigonometric.Inverse

/-!
# Second-order tensors

Models `src/Utility/Tensor.C` and `Tensor.h` in exact real arithmetic: components are real numbers, and `sqrt`, `sin`, `cos`, `acos`, `atan2` are the mathematical functions.
Components outside of the array read as zero and are not written; this does not happen for tensors made by the constructors.
Error messages are left out.
-/
namespace IFEM.Tens
open IFEM.Mapping

/-- A `Tensor` or (`sym`) a `SymmTensor`: the number of space dimensions and the components (Tensor.h:32-33, 184). -/
structure Tensor where
  n : Nat
  sym : Bool
  v : List ℝ

/-- Component with the given zero-based position in the array. -/
def Tensor.at (T : Tensor) (i : Nat) : ℝ := T.v.getD i 0

/-- `Tensor::index` (Tensor.h:37) and `SymmTensor::index` (Tensor.h:198-207); indices from 1. -/
def Tensor.index (T : Tensor) (i j : Nat) : Nat :=
  if T.sym then
    if i = j then i-1
    else if T.n = 2 then T.v.length-1
    else if i = j+1 ∨ i+2 = j then j+2 else i+2
  else i-1 + T.n*(j-1)

/-- `operator()(i,j)` (Tensor.h:80). -/
def Tensor.get (T : Tensor) (i j : Nat) : ℝ := T.at (T.index i j)

/-- `THIS(i,j) = x`. -/
def Tensor.put (T : Tensor) (i j : Nat) (x : ℝ) : Tensor := { T with v := T.v.set (T.index i j) x }

/-! ### Constructors -/

/-- `Tensor(nsd,identity)` (Tensor.C:30-37). -/
def ofDim (n : Nat) (identity : Bool) : Tensor :=
  ⟨n, false, (List.range (n*n)).map fun i => if identity ∧ i % (n+1) = 0 then 1 else 0⟩

/-- `SymmTensor(nsd,with33)` with `redim` (Tensor.C:801-814): a zero tensor. -/
def symDim (n : Nat) (with33 : Bool) : Tensor := ⟨n, true, List.replicate (if n = 2 ∧ with33 then 4 else n*(n+1)/2) 0⟩

/-- `define3Dtransform` (Tensor.C:219-228). -/
def transform3 (v1 v2 v3 : V3) : Tensor := ⟨3, false, [v1.x, v1.y, v1.z, v2.x, v2.y, v2.z, v3.x, v3.y, v3.z]⟩

open Classical in
/-- `Tensor(vn,vnIsX)` (Tensor.C:50-107). -/
noncomputable def ofNormal (vn : V3) (vnIsX : Bool) : Tensor :=
  let v3 := vn.normalize.1
  if vnIsX then
    if |v3.y| < |v3.z| then
      let v2 : V3 := ⟨-v3.y*v3.x, v3.x*v3.x + v3.z*v3.z, -v3.y*v3.z⟩
      let v1 := V3.cross v3 v2
      transform3 v3 v2.normalize.1 v1.normalize.1
    else
      let v1 : V3 := ⟨-v3.z*v3.x, -v3.z*v3.y, v3.x*v3.x + v3.y*v3.y⟩
      let v2 := V3.cross v1 v3
      transform3 v3 v2.normalize.1 v1.normalize.1
  else
    if |v3.y| < |v3.x| then
      let v2 : V3 := ⟨-v3.y*v3.x, v3.x*v3.x + v3.z*v3.z, -v3.y*v3.z⟩
      let v1 := V3.cross v2 v3
      transform3 v1.normalize.1 v2.normalize.1 v3
    else
      let v1 : V3 := ⟨v3.y*v3.y + v3.z*v3.z, -v3.x*v3.y, -v3.x*v3.z⟩
      let v2 := V3.cross v3 v1
      transform3 v1.normalize.1 v2.normalize.1 v3

/-- `Tensor(t1,t2,t1isZ,t2isXZ)` (Tensor.C:117-138). -/
noncomputable def ofTangents (t1 t2 : V3) (t1isZ t2isXZ : Bool) : Tensor :=
  let v1 := t1.normalize.1
  let v23 : V3 × V3 :=
    if t2isXZ then
      let v2 := (V3.cross t2 t1).normalize.1
      (v2, V3.cross v1 v2)
    else
      let v3 := (V3.cross t1 t2).normalize.1
      (V3.cross v3 v1, v3)
  if t1isZ then transform3 v23.1 v23.2 v1 else transform3 v1 v23.1 v23.2

open Classical in
/-- `Tensor(a1,a2,a3)` (Tensor.C:157-188). -/
noncomputable def ofAngles (a : V3) : Tensor :=
  let theta := a.length
  let f := if theta < epsZ then (1/2 : ℝ) else Real.sin ((1/2)*theta)/theta
  let q : V3 := ⟨a.x*f, a.y*f, a.z*f⟩
  let q0 := Real.cos ((1/2)*theta)
  let ql := Real.sqrt (q0*q0 + q.x*q.x + q.y*q.y + q.z*q.z)
  let q0 := q0/ql
  let q : V3 := ⟨q.x/ql, q.y/ql, q.z/ql⟩
  ⟨3, false,
    [2*(q.x*q.x + q0*q0) - 1, 2*(q.y*q.x + q.z*q0), 2*(q.z*q.x - q.y*q0),
     2*(q.x*q.y - q.z*q0), 2*(q.y*q.y + q0*q0) - 1, 2*(q.z*q.y + q.x*q0),
     2*(q.x*q.z + q.y*q0), 2*(q.y*q.z - q.x*q0), 2*(q.z*q.z + q0*q0) - 1]⟩

/-! ### Assignment and sums -/

/-- Pairs `(i,j)` of the loops `for i = 1..m, for j = (tri ? i : 1)..m`. -/
def pairs (m : Nat) (tri : Bool) : List (Nat × Nat) :=
  (List.range m).flatMap fun i => (List.range m).filterMap fun j => if tri ∧ j < i then none else some (i+1, j+1)

/-- `operator=(const Tensor&)` (Tensor.C:246-272). -/
def Tensor.assign (S T : Tensor) : Tensor :=
  if S.v.length = T.v.length then { S with v := T.v }
  else
    let S0 : Tensor := if S.n > T.n then { S with v := List.replicate S.v.length 0 } else S
    let S1 := (pairs (if S.n > T.n then T.n else S.n) S.sym).foldl (fun (A : Tensor) (q : Nat × Nat) => A.put q.1 q.2 (T.get q.1 q.2)) S0
    if T.v.length ≥ 4 ∧ T.sym then
      if S1.v.length = 4 ∧ S1.sym then { S1 with v := S1.v.set 2 (T.get 3 3) }
      else if S1.v.length = 9 then { S1 with v := S1.v.set 8 (T.get 3 3) } else S1
    else S1

/-- `operator+=(const Tensor&)` (Tensor.C:304-315); tensors of different size are refused. -/
def Tensor.add (S T : Tensor) : Tensor :=
  if T.n > 0 ∧ S.v.length = T.v.length then { S with v := List.zipWith (· + ·) S.v T.v } else S

/-- `operator-=(const Tensor&)` (Tensor.C:331-342). -/
def Tensor.sub (S T : Tensor) : Tensor :=
  if T.n > 0 ∧ S.v.length = T.v.length then { S with v := List.zipWith (· - ·) S.v T.v } else S

/-- `operator*=(Real)` (Tensor.C:358-364). -/
def Tensor.scale (S : Tensor) (a : ℝ) : Tensor := { S with v := S.v.map (· * a) }

/-- `operator+=(Real)` (Tensor.C:318-328). -/
def Tensor.addDiag (S : Tensor) (a : ℝ) : Tensor :=
  let inc := if S.sym then 1 else S.n+1
  let S1 := (List.range S.n).foldl (fun (A : Tensor) (i : Nat) => { A with v := A.v.set (i*inc) (A.at (i*inc) + a) }) S
  if inc = 1 ∧ S.v.length = 4 then { S1 with v := S1.v.set 2 (S1.at 2 + a) } else S1

/-! ### Products -/

/-- The sums in the products (Tensor.C:370-390). -/
def prodEntry (m : Nat) (A B : Tensor) (i j : Nat) : ℝ :=
  match m with
  | 1 => A.get i 1*B.get 1 j
  | 2 => A.get i 1*B.get 1 j + A.get i 2*B.get 2 j
  | _ => A.get i 1*B.get 1 j + A.get i 2*B.get 2 j + A.get i 3*B.get 3 j

/-- The loops over the components of a product: `C(i,j) = ...` for tensors of dimension 1 to 3, nothing otherwise. -/
def prodInto (C A B : Tensor) : Tensor :=
  let m := min A.n B.n
  if 1 ≤ m ∧ m ≤ 3 then (pairs m false).foldl (fun (C : Tensor) (q : Nat × Nat) => C.put q.1 q.2 (prodEntry m A B q.1 q.2)) C else C

/-- `operator*(A,B)` (Tensor.C:762-787). -/
def mul (A B : Tensor) : Tensor := prodInto (ofDim (min A.n B.n) false) A B

/-- `postMult` (Tensor.C:367-394). -/
def Tensor.postMult (S B : Tensor) : Tensor := prodInto S S B

/-- `preMult` (Tensor.C:397-424). -/
def Tensor.preMult (S A : Tensor) : Tensor := prodInto S A S

/-- `operator*(T,v)` (Tensor.C:716-731). -/
def mulVec (T : Tensor) (u : V3) : V3 :=
  match T.n with
  | 1 => ⟨T.at 0*u.x, u.y, u.z⟩
  | 2 => ⟨T.get 1 1*u.x + T.get 1 2*u.y, T.get 2 1*u.x + T.get 2 2*u.y, u.z⟩
  | 3 => ⟨T.get 1 1*u.x + T.get 1 2*u.y + T.get 1 3*u.z, T.get 2 1*u.x + T.get 2 2*u.y + T.get 2 3*u.z, T.get 3 1*u.x + T.get 3 2*u.y + T.get 3 3*u.z⟩
  | _ => u

/-- `operator*(v,T)` (Tensor.C:738-753). -/
def vecMul (u : V3) (T : Tensor) : V3 :=
  match T.n with
  | 1 => ⟨T.at 0*u.x, u.y, u.z⟩
  | 2 => ⟨T.get 1 1*u.x + T.get 2 1*u.y, T.get 1 2*u.x + T.get 2 2*u.y, u.z⟩
  | 3 => ⟨T.get 1 1*u.x + T.get 2 1*u.y + T.get 3 1*u.z, T.get 1 2*u.x + T.get 2 2*u.y + T.get 3 2*u.z, T.get 1 3*u.x + T.get 2 3*u.y + T.get 3 3*u.z⟩
  | _ => u

/-- Component of a vector, from 0. -/
def comp (u : V3) (i : Nat) : ℝ := match i with | 0 => u.x | 1 => u.y | _ => u.z

/-- `outerProd(a,b)` (Tensor.C:469-476). -/
def Tensor.outerProd (S : Tensor) (a b : V3) : Tensor :=
  (pairs S.n false).foldl (fun (A : Tensor) (q : Nat × Nat) => A.put q.1 q.2 (comp a (q.1-1)*comp b (q.2-1))) S

/-- `innerProd` (Tensor.C:479-499). -/
def innerProd (S T : Tensor) : ℝ :=
  if S.v.length = T.v.length then (List.zipWith (· * ·) S.v T.v).foldl (· + ·) 0
  else if S.sym ∧ T.sym then (pairs (if S.n < T.n then S.n else T.n) true).foldl (fun (x : ℝ) (q : Nat × Nat) => x + S.get q.1 q.2*T.get q.1 q.2) 0
  else 0

/-- One pass of the loops in `rotate` with the columns `a` and `b` (Tensor.C:436-460). -/
noncomputable def rotRow (alpha : ℝ) (a b : Nat) (A : Tensor) (c : Nat) : Tensor :=
  let t := Real.cos alpha*A.get c a + Real.sin alpha*A.get c b
  let A := A.put c b (Real.cos alpha*A.get c b - Real.sin alpha*A.get c a)
  A.put c a t

/-- `rotate` (Tensor.C:427-466). -/
noncomputable def Tensor.rotate (S : Tensor) (alpha : ℝ) (axis : Nat) : Tensor :=
  if (S.n = 3 ∧ axis ≤ 3) ∨ (S.n = 2 ∧ axis = 3) then
    match axis with
    | 1 => (List.range S.n).foldl (fun (A : Tensor) (c : Nat) => rotRow alpha 2 3 A (c+1)) S
    | 2 => (List.range S.n).foldl (fun (A : Tensor) (c : Nat) => rotRow alpha 1 3 A (c+1)) S
    | 3 => (List.range S.n).foldl (fun (A : Tensor) (c : Nat) => rotRow alpha 1 2 A (c+1)) S
    | _ => S
  else S

/-! ### Transposition, trace, determinant, inverse -/

/-- `std::swap(v[i],v[j])`. -/
def Tensor.swap (S : Tensor) (i j : Nat) : Tensor := { S with v := (S.v.set i (S.at j)).set j (S.at i) }

/-- `transpose` (Tensor.C:527-544, Tensor.h:236). -/
def Tensor.transpose (S : Tensor) : Tensor :=
  if S.sym then S
  else match S.n with
    | 2 => S.swap 1 2
    | 3 => ((S.swap 1 3).swap 2 6).swap 5 7
    | _ => S

/-- `v[i] = v[j] = 0.5*(v[i]+v[j])`. -/
noncomputable def Tensor.avg (S : Tensor) (i j : Nat) : Tensor :=
  { S with v := (S.v.set j ((1/2)*(S.at i + S.at j))).set i ((1/2)*(S.at i + S.at j)) }

/-- `symmetrize` (Tensor.C:547-564, Tensor.h:238). -/
noncomputable def Tensor.symmetrize (S : Tensor) : Tensor :=
  if S.sym then S
  else match S.n with
    | 2 => S.avg 1 2
    | 3 => ((S.avg 1 3).avg 2 6).avg 5 7
    | _ => S

/-- `shift` (Tensor.C:567-589).  The remainder of the division in C++ has the sign of the dividend; `n+idx` is positive here. -/
def Tensor.shift (S : Tensor) (idx : Int) : Tensor :=
  if S.sym ∨ idx ≤ -(S.n : Int) ∨ ((S.n : Int) + idx) % (S.n : Int) = 0 then S
  else if S.n = 2 then (S.swap 0 2).swap 1 3
  else if S.n = 3 then
    let j := ((3 + idx) % 3).toNat
    (List.range 3).foldl (fun (A : Tensor) (r : Nat) => (A.swap r (r+3*j)).swap r (r+9-3*j)) S
  else S

/-- `Tensor::trace` (Tensor.C:592-602) and `SymmTensor::trace` (Tensor.C:915-927). -/
def Tensor.trace (S : Tensor) : ℝ :=
  if S.sym then
    if S.n = 3 ∨ S.v.length = 4 then S.at 0 + S.at 1 + S.at 2 else if S.n = 2 then S.at 0 + S.at 1 else if S.n = 1 then S.at 0 else 0
  else if S.n = 3 then S.at 0 + S.at 4 + S.at 8 else if S.n = 2 then S.at 0 + S.at 3 else if S.n = 1 then S.at 0 else 0

/-- `v.back()`. -/
def Tensor.back (S : Tensor) : ℝ := S.at (S.v.length-1)

/-- `Tensor::det` (Tensor.C:632-644) and `SymmTensor::det` (Tensor.C:930-948). -/
def Tensor.det (S : Tensor) : ℝ :=
  let v := S.at
  if S.sym then
    let d := if S.n = 3 then v 0*(v 1*v 2 - v 4*v 4) - v 3*(v 3*v 2 - v 5*v 4) + v 5*(v 3*v 4 - v 5*v 1)
      else if S.n = 2 then v 0*v 1 - S.back*S.back else if S.n = 1 then v 0 else 0
    if S.v.length = 4 then d*v 2 else d
  else if S.n = 3 then v 0*(v 4*v 8 - v 5*v 7) - v 3*(v 1*v 8 - v 2*v 7) + v 6*(v 1*v 5 - v 2*v 4)
  else if S.n = 2 then v 0*v 3 - v 1*v 2 else if S.n = 1 then v 0 else 0

open Classical in
/-- `Tensor::inverse` (Tensor.C:647-690): the tensor and the value returned. -/
noncomputable def inverseGen (S : Tensor) (tol : ℝ) : Tensor × ℝ :=
  let d := S.det
  let v := S.at
  if d ≤ tol ∧ d ≥ -tol then (S, 0)
  else if S.n = 3 then
    ({ S with v := [(v 4*v 8 - v 5*v 7)/d, -(v 1*v 8 - v 2*v 7)/d, (v 1*v 5 - v 2*v 4)/d,
      -(v 3*v 8 - v 5*v 6)/d, (v 0*v 8 - v 2*v 6)/d, -(v 0*v 5 - v 2*v 3)/d,
      (v 3*v 7 - v 4*v 6)/d, -(v 0*v 7 - v 1*v 6)/d, (v 0*v 4 - v 1*v 3)/d] }, d)
  else if S.n = 2 then ({ S with v := [v 3/d, -v 1/d, -v 2/d, v 0/d] }, d)
  else if S.n = 1 then ({ S with v := [1/d] }, d)
  else (S, d)

open Classical in
/-- `SymmTensor::inverse` (Tensor.C:951-993). -/
noncomputable def inverseSym (S : Tensor) (tol : ℝ) : Tensor × ℝ :=
  let d := S.det
  let v := S.at
  if d ≤ tol ∧ d ≥ -tol then (S, 0)
  else if S.n = 3 then
    ({ S with v := [(v 1*v 2 - v 4*v 4)/d, (v 0*v 2 - v 5*v 5)/d, (v 0*v 1 - v 3*v 3)/d,
      -(v 3*v 2 - v 5*v 4)/d, -(v 0*v 4 - v 5*v 3)/d, (v 3*v 4 - v 5*v 1)/d] }, d)
  else if S.n = 2 then
    if S.v.length = 4 then ({ S with v := [v 1/d*v 2, v 0/d*v 2, (v 0*v 1 - v 3*v 3)/d, -v 3/d*v 2] }, d)
    else ({ S with v := [v 1/d, v 0/d, -v 2/d] }, d)
  else if S.n = 1 then ({ S with v := [1/d] }, d)
  else (S, d)

open Classical in
/-- `rotVec` (Tensor.C:605-629).  `1.0 > 1.0-fabs(sinth)` is evaluated exactly, that is, as `sinth ≠ 0`. -/
noncomputable def Tensor.rotVec (S : Tensor) : V3 :=
  if S.n < 2 then ⟨0, 0, 0⟩
  else
    let R := (1/2)*S.trace - 1/2
    let theta := if R < 1 then Real.arccos R else 0
    let sinth := Real.sin theta
    let R := if (1 : ℝ) > 1 - |sinth| then (1/2)*theta/sinth else 1/2
    if S.n < 3 then ⟨0, 0, R*(S.get 2 1 - S.get 1 2)⟩
    else ⟨R*(S.get 3 2 - S.get 2 3), R*(S.get 1 3 - S.get 3 1), R*(S.get 2 1 - S.get 1 2)⟩

/-! ### Symmetric tensors -/

/-- `SymmTensor::transform` (Tensor.C:854-912). -/
def Tensor.transform (S T : Tensor) : Tensor :=
  let v := S.at
  let t := T.get
  if T.sym then S
  else match S.n with
  | 2 =>
    if T.n > 1 then
      let b := S.back
      let S11 := t 1 1*v 0 + t 1 2*b
      let S12 := t 1 1*b + t 1 2*v 1
      let S21 := t 2 1*v 0 + t 2 2*b
      let S22 := t 2 1*b + t 2 2*v 1
      { S with v := ((S.v.set 0 (S11*t 1 1 + S12*t 1 2)).set 1 (S21*t 2 1 + S22*t 2 2)).set (S.v.length-1) (S11*t 2 1 + S12*t 2 2) }
    else S
  | 3 =>
    if T.n > 2 then
      let S11 := t 1 1*v 0 + t 1 2*v 3 + t 1 3*v 5
      let S12 := t 1 1*v 3 + t 1 2*v 1 + t 1 3*v 4
      let S13 := t 1 1*v 5 + t 1 2*v 4 + t 1 3*v 2
      let S21 := t 2 1*v 0 + t 2 2*v 3 + t 2 3*v 5
      let S22 := t 2 1*v 3 + t 2 2*v 1 + t 2 3*v 4
      let S23 := t 2 1*v 5 + t 2 2*v 4 + t 2 3*v 2
      let S31 := t 3 1*v 0 + t 3 2*v 3 + t 3 3*v 5
      let S32 := t 3 1*v 3 + t 3 2*v 1 + t 3 3*v 4
      let S33 := t 3 1*v 5 + t 3 2*v 4 + t 3 3*v 2
      { S with v := [S11*t 1 1 + S12*t 1 2 + S13*t 1 3, S21*t 2 1 + S22*t 2 2 + S23*t 2 3, S31*t 3 1 + S32*t 3 2 + S33*t 3 3,
        S11*t 2 1 + S12*t 2 2 + S13*t 2 3, S21*t 3 1 + S22*t 3 2 + S23*t 3 3, S31*t 1 1 + S32*t 1 2 + S33*t 1 3] }
    else if T.n = 2 then
      let S11 := t 1 1*v 0 + t 1 2*v 3
      let S12 := t 1 1*v 3 + t 1 2*v 1
      let S13 := t 1 1*v 5 + t 1 2*v 4
      let S21 := t 2 1*v 0 + t 2 2*v 3
      let S22 := t 2 1*v 3 + t 2 2*v 1
      let S23 := t 2 1*v 5 + t 2 2*v 4
      { S with v := [S11*t 1 1 + S12*t 1 2, S21*t 2 1 + S22*t 2 2, v 2, S11*t 2 1 + S12*t 2 2, S23, S13] }
    else S
  | _ => S

/-- Overwrite the first components. -/
def Tensor.write (S : Tensor) (l : List ℝ) : Tensor := { S with v := (l.zipIdx.foldl (fun (w : List ℝ) (x : ℝ × Nat) => w.set x.2 x.1) S.v) }

/-- `redim` (Tensor.C:807-814) without the 33-component: the components are cut off or filled up with zeros, unless the dimension is the right one already. -/
def Tensor.redim (S : Tensor) (n : Nat) : Tensor :=
  if S.n = n then S else { S with n := n, v := (S.v ++ List.replicate (n*(n+1)/2) 0).take (n*(n+1)/2) }

/-- `rightCauchyGreen` (Tensor.C:996-1027). -/
def Tensor.rightCauchyGreen (S F : Tensor) : Tensor :=
  let S := S.redim F.n
  let f := F.get
  match S.n with
  | 1 => S.write [f 1 1*f 1 1]
  | 2 => S.write [f 1 1*f 1 1 + f 2 1*f 2 1, f 1 2*f 1 2 + f 2 2*f 2 2, f 1 1*f 1 2 + f 2 1*f 2 2]
  | 3 => S.write [f 1 1*f 1 1 + f 2 1*f 2 1 + f 3 1*f 3 1, f 1 2*f 1 2 + f 2 2*f 2 2 + f 3 2*f 3 2, f 1 3*f 1 3 + f 2 3*f 2 3 + f 3 3*f 3 3,
      f 1 1*f 1 2 + f 2 1*f 2 2 + f 3 1*f 3 2, f 1 2*f 1 3 + f 2 2*f 2 3 + f 3 2*f 3 3, f 1 1*f 1 3 + f 2 1*f 2 3 + f 3 1*f 3 3]
  | _ => S

/-- `leftCauchyGreen` (Tensor.C:1030-1060). -/
def Tensor.leftCauchyGreen (S F : Tensor) : Tensor :=
  let S := S.redim F.n
  let f := F.get
  match S.n with
  | 1 => S.write [f 1 1*f 1 1]
  | 2 => S.write [f 1 1*f 1 1 + f 1 2*f 1 2, f 2 1*f 2 1 + f 2 2*f 2 2, f 1 1*f 2 1 + f 1 2*f 2 2]
  | 3 => S.write [f 1 1*f 1 1 + f 1 2*f 1 2 + f 1 3*f 1 3, f 2 1*f 2 1 + f 2 2*f 2 2 + f 2 3*f 2 3, f 3 1*f 3 1 + f 3 2*f 3 2 + f 3 3*f 3 3,
      f 1 1*f 2 1 + f 1 2*f 2 2 + f 1 3*f 2 3, f 2 1*f 3 1 + f 2 2*f 3 2 + f 2 3*f 3 3, f 1 1*f 3 1 + f 1 2*f 3 2 + f 1 3*f 3 3]
  | _ => S

/-- `SymmTensor::outerProd(u)` (Tensor.C:1063-1090). -/
def Tensor.outerSym (S : Tensor) (u : V3) : Tensor :=
  match S.n with
  | 1 => S.write [u.x*u.x]
  | 2 => S.write [u.x*u.x, u.y*u.y, u.x*u.y]
  | 3 => S.write [u.x*u.x, u.y*u.y, u.z*u.z, u.x*u.y, u.y*u.z, u.x*u.z]
  | _ => S

/-- `L2norm(false)` (Tensor.C:1093-1100). -/
noncomputable def l2norm2 (S : Tensor) : ℝ :=
  (List.range S.v.length).foldl (fun (x : ℝ) (i : Nat) => x + (if i < S.n ∨ (i = 2 ∧ S.v.length = 4) then 1 else 2)*S.at i*S.at i) 0

/-- `vonMises(false)` (Tensor.C:1112-1140). -/
def vonMises2 (S : Tensor) : ℝ :=
  let v := S.at
  if S.n = 3 then v 0*(v 0 - v 1) + v 1*(v 1 - v 2) + v 2*(v 2 - v 0) + 3*(v 3*v 3 + v 4*v 4 + v 5*v 5)
  else if S.n = 2 then
    let s33 := if S.v.length = 4 then v 2 else 0
    let s12 := if S.v.length = 4 then v 3 else v 2
    v 0*(v 0 - v 1) + v 1*(v 1 - s33) + s33*(s33 - v 0) + 3*s12*s12
  else if S.n = 1 then v 0*v 0 else 0

/-- `vonMises()` (Tensor.C:1112-1140). -/
noncomputable def vonMises (S : Tensor) : ℝ := if S.n = 1 then S.at 0 else Real.sqrt (vonMises2 S)

/-- `operator*(SymmTensor,SymmTensor)` (Tensor.C:1498-1527). -/
def mulSym (A B : Tensor) : Tensor :=
  let a := A.at
  let b := B.at
  let C := symDim (min A.n B.n) false
  match C.n with
  | 1 => C.write [a 0*b 0]
  | 2 => C.write [a 0*b 0 + a 2*b 2, a 2*b 2 + a 1*b 1, a 0*b 2 + a 2*b 1]
  | 3 => C.write [a 0*b 0 + a 3*b 3 + a 5*b 5, a 3*b 3 + a 1*b 1 + a 4*b 4, a 5*b 5 + a 4*b 4 + a 2*b 2,
      a 0*b 3 + a 3*b 1 + a 5*b 4, a 3*b 5 + a 1*b 4 + a 4*b 2, a 0*b 5 + a 3*b 4 + a 5*b 2]
  | _ => C

open Classical in
/-- The three conditional exchanges (Tensor.C:1205-1211). -/
noncomputable def sort3 (p : V3) : V3 :=
  let p : V3 := if p.x < p.y then ⟨p.y, p.x, p.z⟩ else p
  let p : V3 := if p.y < p.z then ⟨p.x, p.z, p.y⟩ else p
  if p.x < p.y then ⟨p.y, p.x, p.z⟩ else p

/-- `atan2(y,x)`. -/
noncomputable def atan2 (y x : ℝ) : ℝ := Complex.arg ⟨x, y⟩

open Classical in
/-- `principal(p,sorted)` (Tensor.C:1143-1215); `none` if the value `false` is returned. -/
noncomputable def principal (S : Tensor) (sorted : Bool) : Option V3 :=
  let v := S.at
  if S.n < 2 then none
  else if S.v.length = 3 then
    let C := v 0 + v 1
    let D := v 0*v 1 - v 2*v 2
    let P := C*C - 4*D
    if P > 0 then some ⟨(C + Real.sqrt P)/2, (C - Real.sqrt P)/2, 0⟩
    else if P > -(1/10^16) then some ⟨C/2, C/2, 0⟩ else none
  else
    let b1 := S.trace/3
    let s1 := v 0 - b1
    let s2 := v 1 - b1
    let s3 := v 2 - b1
    let s4 := if S.n > 2 then v 3 else S.back
    let s5 := if S.n > 2 then v 4 else 0
    let s6 := if S.n > 2 then v 5 else 0
    let c1 := s4*s4
    let c2 := s5*s5
    let c3 := s6*s6
    let b2 := (s1*s1 + s2*s2 + s3*s3)/2 + c1 + c2 + c3
    if b2 ≤ 1/10^12*b1*b1 then some ⟨s1, s1, s1⟩
    else
      let b3 := s1*s2*s3 + (s4 + s4)*s5*s6 + s1*(c1 - c2) + s2*(c1 - c3)
      let c1 := 2*Real.sqrt (b2/3)
      let c2 := 4*b3
      let c3 := c1*c1*c1
      let al := atan2 (Real.sqrt |c3*c3 - c2*c2|) c2/3
      let pi23 := Real.pi*2/3
      let p : V3 := ⟨b1 + c1*Real.cos al, b1 + c1*Real.cos (al - pi23), b1 + c1*Real.cos (al + pi23)⟩
      some (if sorted then sort3 p else p)

/-- The variables of the Jacobi iterations: the diagonal, the off-diagonal terms 12, 23 and 13, the increments of the sweep, and the eigenvectors; component numbers from 0. -/
structure Jac where
  d : Fin 3 → ℝ
  a : Fin 3 → ℝ
  z : Fin 3 → ℝ
  q : Tensor

/-- `asum` (Vec3.h:105). -/
def asum (u : Fin 3 → ℝ) : ℝ := |u 0| + |u 1| + |u 2|

/-- The rotation of two columns of the eigenvectors (Tensor.C:1292-1299). -/
def jacCols (s tau : ℝ) (i j : Nat) (Q : Tensor) : Tensor :=
  (List.range 3).foldl (fun (Q : Tensor) (k : Nat) =>
    let g := Q.get (k+1) i
    let h := Q.get (k+1) j
    (Q.put (k+1) i (g - s*(h + g*tau))).put (k+1) j (h + s*(g - h*tau))) Q

open Classical in
/-- The tangent of the angle of rotation (Tensor.C:1262-1267); `copysign(2.0,t)` for a nonzero `t`, and 2 for a positive zero. -/
noncomputable def jacTan (h aij : ℝ) : ℝ :=
  let t := h/aij
  if |h| + 100*|aij| ≠ |h| then (if t < 0 then -2 else 2)/(|t| + Real.sqrt (4 + t*t)) else 1/t

open Classical in
/-- One rotation, eliminating `a(i)` (Tensor.C:1249-1301). -/
noncomputable def jacRot (thres : ℝ) (i j k : Fin 3) (s : Jac) : Jac :=
  let aij := s.a i
  let g := 100*|aij|
  if |s.d i| + g = |s.d i| ∧ |s.d j| + g = |s.d j| then { s with a := Function.update s.a i 0 }
  else if |aij| > thres then
    let t := jacTan (s.d j - s.d i) aij
    let c := 1/Real.sqrt (1 + t*t)
    let sn := t*c
    let tau := sn/(1 + c)
    let h := t*aij
    { d := Function.update (Function.update s.d i (s.d i - h)) j (s.d j + h)
      z := Function.update (Function.update s.z i (s.z i - h)) j (s.z j + h)
      a := Function.update (Function.update (Function.update s.a i 0) j (s.a j + sn*(s.a k - s.a j*tau))) k (s.a k - sn*(s.a j + s.a k*tau))
      q := jacCols sn tau (i.val+1) (j.val+1) s.q }
  else s

open Classical in
/-- The iterations (Tensor.C:1236-1307): the values, off-diagonal terms and eigenvectors at the end.  Only the first two off-diagonal terms are visited in a sweep. -/
noncomputable def jacLoop : (left iter : Nat) → (p a : Fin 3 → ℝ) → Tensor → (Fin 3 → ℝ) × (Fin 3 → ℝ) × Tensor
  | 0, _, p, a, Q => (p, a, Q)
  | left+1, iter, p, a, Q =>
    let sm := asum a
    if sm < epsZ then (p, a, Q)
    else
      let thres := if iter < 4 then (11/1000)*sm else 0
      let s := jacRot thres 1 2 0 (jacRot thres 0 1 2 ⟨p, a, fun _ => 0, Q⟩)
      jacLoop left (iter+1) (fun i => p i + s.z i) s.a s.q

open Classical in
/-- `principal(p,pdir)` (Tensor.C:1227-1310): `none` if the value `false` is returned.  The off-diagonal terms that remain are returned too.
`pdir` becomes the unit tensor first (`diag`, Tensor.C:209-214). -/
noncomputable def principalDir (S : Tensor) : Option ((Fin 3 → ℝ) × (Fin 3 → ℝ) × Tensor) :=
  if S.n ≠ 3 then none
  else
    let d : Fin 3 → ℝ := fun i => S.at i
    let a : Fin 3 → ℝ := fun i => S.at (3+i)
    some (jacLoop (if asum a < asum d*(1/10^13) then 0 else 50) 0 d a (ofDim 3 true))

end IFEM.Tens
