import Verif.Model.Matrix
import Mathlib.Analysis.Real.Sqrt
/-!
# Coordinate mapping

Models src/Utility/CoordinateMapping.C over the real numbers.  The arrays with three and four indices (src/LinAlg/matrixnd.h) are functions of their 1-based
indices together with their dimensions; their storage is not modelled.
-/
namespace IFEM.Mapping

open IFEM

/-- A `matrix3d` (src/LinAlg/matrixnd.h:29-218). -/
structure Arr3 where
  n1 : Nat
  n2 : Nat
  n3 : Nat
  get : Nat → Nat → Nat → ℝ

/-- A `matrix4d` (src/LinAlg/matrixnd.h:225-). -/
structure Arr4 where
  n1 : Nat
  n2 : Nat
  n3 : Nat
  n4 : Nat
  get : Nat → Nat → Nat → Nat → ℝ

/-- `Vec3` (src/Utility/Vec3.h:26-46). -/
structure V3 where
  x : ℝ
  y : ℝ
  z : ℝ

namespace V3

/-- `Vec3(const std::vector<Real>&)` (Vec3.h:44-46). -/
def ofList (l : List ℝ) : V3 := ⟨l.getD 0 0, l.getD 1 0, l.getD 2 0⟩

/-- `length2` and `length` (Vec3.h:108-112). -/
noncomputable def length (v : V3) : ℝ := Real.sqrt (v.x * v.x + v.y * v.y + v.z * v.z)

/-- `normalize` with its tolerance (Vec3.h:115-121): the vector and its length. -/
noncomputable def normalize (v : V3) : V3 × ℝ :=
  let len := v.length
  if len ≤ 1 / 10 ^ 16 then (v, len) else (⟨v.x / len, v.y / len, v.z / len⟩, len)

/-- `cross` (Vec3.h:124-130). -/
def cross (a b : V3) : V3 := ⟨a.y * b.z - a.z * b.y, a.z * b.x - a.x * b.z, a.x * b.y - a.y * b.x⟩

end V3

/-- `epsZ`: the build sets it to `1.0e-12` (CMakeLists.txt:536-539), the value in CoordinateMapping.C:18-21 and Tensor.C:21-24 is only used if it is not set. -/
noncomputable def epsZ : ℝ := 1 / 10 ^ 12

/-- The determinant, `J` and `dNdX` after the inverse Jacobian has been computed (CoordinateMapping.C:50-59, 78-86, 118-126). -/
noncomputable def gradients (J dNdX dNdu : Mat ℝ) (computeGradient : Bool) : Option (ℝ × Mat ℝ × Mat ℝ) :=
  let inv := J.inverse epsZ
  if computeGradient = false then some (inv.1, inv.2, dNdX)
  else if inv.1 = 0 then some (inv.1, inv.2, ⟨0, 0, []⟩)
  else (dNdX.multiply dNdu inv.2 false false false 1).map fun D => (inv.1, inv.2, D)

/-- `utl::Jacobian` (CoordinateMapping.C:24-63): determinant, `J` and `dNdX`. -/
noncomputable def jacobian (J0 dNdX X dNdu : Mat ℝ) (computeGradient : Bool) : Option (ℝ × Mat ℝ × Mat ℝ) := do
  let J ← J0.multiply X dNdu false false false 1
  if J.ncol = 1 ∧ J.nrow > 1 then (J.getColumn 1).map fun c => ((V3.ofList c).length, J, dNdu)
  else if J.ncol = 2 ∧ J.nrow > 2 then do
    let c1 ← J.getColumn 1
    let c2 ← J.getColumn 2
    return ((V3.cross (V3.ofList c1) (V3.ofList c2)).length, J, dNdu)
  else gradients J dNdX dNdu computeGradient

/-- `utl::Jacobian` along an edge (CoordinateMapping.C:66-87): the dilation, the unit tangent, `J` and `dNdX`. -/
noncomputable def jacobianEdge (J0 dNdX X dNdu : Mat ℝ) (tangent : Nat) : Option (ℝ × V3 × Mat ℝ × Mat ℝ) := do
  let J ← J0.multiply X dNdu false false false 1
  let c ← J.getColumn tangent
  let g ← gradients J dNdX dNdu true
  let t := (V3.ofList c).normalize
  return (t.2, t.1, g.2.1, g.2.2)

/-- The normal and the dilation (CoordinateMapping.C:98-116). -/
noncomputable def normal (c1 c2 : V3) (plane : Bool) : V3 × ℝ :=
  if plane then
    let v3 := V3.cross c1 c2
    let v2 := c2.normalize
    (V3.cross v2.1 v3.normalize.1, v2.2)
  else (V3.cross c1 c2).normalize

/-- `utl::Jacobian` on a boundary (CoordinateMapping.C:90-131): the dilation, the unit normal, `J` and `dNdX`. -/
noncomputable def jacobianFace (J0 dNdX X dNdu : Mat ℝ) (t1 t2 : Nat) : Option (ℝ × V3 × Mat ℝ × Mat ℝ) := do
  let J ← J0.multiply X dNdu false false false 1
  let c1 ← J.getColumn t1
  let c2 ← J.getColumn t2
  let n := normal (V3.ofList c1) (V3.ofList c2) (decide (J.ncol = 2))
  if J.ncol = 2 ∧ J.nrow > 2 then some (n.2, n.1, J, dNdu)
  else (gradients J dNdX dNdu true).map fun g => (if g.1 = 0 then 0 else n.2, n.1, g.2.1, g.2.2)

/-- `matrix3d::multiply(A,B)` (matrixnd.h, called in CoordinateMapping.C:142). -/
def mul3 (A : Mat ℝ) (B : Arr3) : Option Arr3 :=
  if A.ncol = B.n1 then
    some ⟨A.nrow, B.n2, B.n3, fun i j k => (List.range A.ncol).foldl (fun (s : ℝ) (a : Nat) => s + A.val i ((a : Int) + 1) * B.get (a + 1) j k) 0⟩
  else none

/-- The innermost statements of `utl::Hessian` (CoordinateMapping.C:176-184). -/
def hessEntry (H d2Ndu2 : Arr3) (Ji dNdX : Mat ℝ) (nsd n i1 i2 : Nat) : ℝ :=
  (Mat.pairs nsd nsd).foldl (fun v q =>
    (List.range nsd).foldl (fun (v : ℝ) (i6 : Nat) => v - dNdX.val n ((i6 : Int) + 1) * H.get (i6 + 1) (q.1 + 1) (q.2 + 1) * (Ji.val (q.1 + 1) i1 * Ji.val (q.2 + 1) i2))
      (v + d2Ndu2.get n (q.1 + 1) (q.2 + 1) * (Ji.val (q.1 + 1) i1 * Ji.val (q.2 + 1) i2))) 0

/-- `utl::Hessian` (CoordinateMapping.C:134-191): status, `H` and `d2NdX2`. -/
def hessian (H0 D0 : Arr3) (Ji X : Mat ℝ) (d2Ndu2 : Arr3) (dNdX : Mat ℝ) (geoMapping : Bool) : Bool × Arr3 × Arr3 :=
  match (if geoMapping then mul3 X d2Ndu2 else some H0) with
  | none => (false, H0, D0)
  | some H =>
    if dNdX.elem.isEmpty then (true, H, ⟨0, 0, 0, fun _ _ _ => 0⟩)
    else if Ji.ncol < X.nrow then (true, H, d2Ndu2)
    else if Ji.ncol ≠ X.nrow ∨ Ji.nrow ≠ X.nrow then (false, H, D0)
    else (true, H, ⟨dNdX.nrow, X.nrow, X.nrow, fun n i1 i2 =>
      if i2 ≤ i1 then hessEntry H d2Ndu2 Ji dNdX X.nrow n i1 i2 else hessEntry H d2Ndu2 Ji dNdX X.nrow n i2 i1⟩)

/-- `matrix3d::getColumn` (matrixnd.h:111-119). -/
def column3 (H : Arr3) (i2 i3 : Nat) : List ℝ := (List.range H.n1).map fun i => H.get (i + 1) i2 i3

/-- The column pairs stored by the compact form of a Hessian (CoordinateMapping.C:200-205): the column of the result and the two last indices. -/
def voigtCols (n : Nat) : List (Nat × Nat × Nat) :=
  ((List.range n).map fun i => (i + 1, i + 1, i + 1)) ++ ((List.range (n - 1)).map fun i => (n + i + 1, 1, i + 2)) ++ (if n > 2 then [(n + n, 2, 3)] else [])

/-- `utl::Hessian(Hess,H)` (CoordinateMapping.C:194-209). -/
def voigt (Hess : Arr3) (H : Mat ℝ) : Option (Mat ℝ) :=
  if Hess.n2 = Hess.n3 then
    (voigtCols Hess.n2).foldlM (fun (H : Mat ℝ) q => H.fillColumn q.1 (column3 Hess q.2.1 q.2.2)) (H.resize Hess.n1 (Hess.n2 * (Hess.n2 + 1) / 2) false)
  else some ⟨0, 0, []⟩

/-- `utl::getGmat` (CoordinateMapping.C:212-225). -/
noncomputable def getGmat (Ji : Mat ℝ) (du : List ℝ) (G : Mat ℝ) : Option (Mat ℝ) :=
  (Mat.triples Ji.ncol Ji.ncol Ji.ncol).foldlM (fun (G : Mat ℝ) q => do
    let a ← du[q.1]?
    let b ← du[q.2.1]?
    let x ← Ji.get? (q.2.2 + 1) (q.1 + 1)
    let y ← Ji.get? (q.2.2 + 1) (q.2.1 + 1)
    G.addAt? (q.1 + 1) (q.2.1 + 1) (x * y * (2 ^ Ji.ncol / (a * b)))) (G.resize Ji.ncol Ji.ncol true)

/-- The entries of `utl::Hessian2` in two dimensions (CoordinateMapping.C:266-301). -/
def hess2Entry (d : Arr4) (Ji : Mat ℝ) (i : Nat) : Nat → Nat → Nat → ℝ :=
  let J := fun a b : Nat => Ji.val a b
  let d111 := d.get i 1 1 1
  let d112 := d.get i 1 1 2
  let d122 := d.get i 1 2 2
  let d222 := d.get i 2 2 2
  let r112 := d111 * J 1 1 * J 1 1 * J 1 2 + d122 * J 2 1 * J 2 1 * J 1 2 + 2 * d112 * J 1 1 * J 1 2 * J 2 1 +
    d112 * J 1 1 * J 1 1 * J 2 2 + d222 * J 2 1 * J 2 1 * J 2 2 + 2 * d122 * J 1 1 * J 2 1 * J 2 2
  let r122 := d111 * J 1 1 * J 1 2 * J 1 2 + d122 * J 1 1 * J 2 2 * J 2 2 + 2 * d112 * J 1 1 * J 1 2 * J 2 2 +
    d112 * J 1 2 * J 1 2 * J 2 1 + d222 * J 2 1 * J 2 2 * J 2 2 + 2 * d122 * J 1 2 * J 2 1 * J 2 2
  fun a b c => match a, b, c with
    | 1, 1, 1 => d111 * J 1 1 * J 1 1 * J 1 1 + d122 * J 2 1 * J 2 1 * J 1 1 + 2 * d112 * J 1 1 * J 1 1 * J 2 1 +
        d222 * J 2 1 * J 2 1 * J 2 1 + d112 * J 1 1 * J 1 1 * J 2 1 + 2 * d122 * J 1 1 * J 2 1 * J 2 1
    | 2, 2, 2 => d111 * J 1 2 * J 1 2 * J 1 2 + d122 * J 2 2 * J 2 2 * J 1 2 + 2 * d112 * J 1 2 * J 1 2 * J 2 2 +
        d112 * J 1 2 * J 1 2 * J 2 2 + d222 * J 2 2 * J 2 2 * J 2 2 + 2 * d122 * J 1 2 * J 2 2 * J 2 2
    | 1, 1, 2 => r112
    | 2, 1, 1 => r112
    | 1, 2, 1 => r112
    | 1, 2, 2 => r122
    | 2, 2, 1 => r122
    | 2, 1, 2 => r122
    | _, _, _ => 0

/-- `utl::Hessian2` (CoordinateMapping.C:228-304): status and `d3NdX3`. -/
def hessian2 (D0 : Arr4) (Ji : Mat ℝ) (d : Arr4) : Bool × Arr4 :=
  if Ji.ncol < Ji.nrow then (true, d)
  else if Ji.ncol ≠ Ji.nrow then (false, D0)
  else if Ji.nrow = 1 then (true, ⟨d.n1, 1, 1, 1, fun i _ _ _ => d.get i 1 1 1 * Ji.val 1 1 * Ji.val 1 1 * Ji.val 1 1⟩)
  else if Ji.nrow ≠ 2 then (false, ⟨d.n1, Ji.nrow, Ji.nrow, Ji.nrow, fun _ _ _ _ => 0⟩)
  else (true, ⟨d.n1, 2, 2, 2, fun i a b c => hess2Entry d Ji i a b c⟩)

/-- One matrix of `utl::JacobianGradient` (CoordinateMapping.C:325-331): `dJ` on entry, with the dimensions set. -/
noncomputable def jacGradStep (dudX : Mat ℝ) (d2Xdu2 : Arr3) (j : Nat) (dJ : Mat ℝ) : Mat ℝ :=
  let dim := dudX.nrow
  (List.range dim).foldl (fun (dJ : Mat ℝ) k =>
    dJ.add ⟨dim, dim, (Mat.pairs dim dim).map fun q => d2Xdu2.get (q.2 + 1) (k + 1) (q.1 + 1)⟩ (dudX.val (k + 1) j)) (dJ.resize dim dim false)

/-- `utl::JacobianGradient` (CoordinateMapping.C:307-332). -/
noncomputable def jacobianGradient (dudX : Mat ℝ) (d2Xdu2 : Arr3) (dJdX : List (Mat ℝ)) : List (Mat ℝ) :=
  (List.range dudX.nrow).map fun j => jacGradStep dudX d2Xdu2 (j + 1) (dJdX.getD j ⟨0, 0, []⟩)

/-- The derivative of the determinant in parameter direction `d` (CoordinateMapping.C:342-368). -/
def detGradEntry (J : Mat ℝ) (H : Arr3) (d : Nat) : ℝ :=
  if J.nrow = 2 then
    H.get 1 1 d * J.val 2 2 + J.val 1 1 * H.get 2 2 d - H.get 1 2 d * J.val 2 1 - J.val 1 2 * H.get 2 1 d
  else if J.nrow = 3 then
    let i1 := fun i : Nat => if i = 1 then 2 else 1
    let i2 := fun i : Nat => if i = 3 then 2 else 3
    let det := fun i : Nat => J.val 2 (i1 i : Nat) * J.val 3 (i2 i : Nat) - J.val 2 (i2 i : Nat) * J.val 3 (i1 i : Nat)
    let detD := fun i : Nat => H.get 2 (i1 i) d * J.val 3 (i2 i : Nat) + J.val 2 (i1 i : Nat) * H.get 3 (i2 i) d -
      H.get 2 (i2 i) d * J.val 3 (i1 i : Nat) - J.val 2 (i2 i : Nat) * H.get 3 (i1 i) d
    H.get 1 1 d * det 1 + J.val 1 1 * detD 1 - (H.get 1 2 d * det 2 + J.val 1 2 * detD 2) + H.get 1 3 d * det 3 + J.val 1 3 * detD 3
  else 0

/-- `utl::detJacGradient` (CoordinateMapping.C:335-373). -/
noncomputable def detJacGradient (J Ji : Mat ℝ) (H : Arr3) (dDetdX : List ℝ) : Option (List ℝ) :=
  (Ji.mulVec ((List.range J.nrow).map fun d => detGradEntry J H (d + 1))
    (dDetdX.take J.nrow ++ List.replicate (J.nrow - dDetdX.length) 0) true 0).map fun r => r.2

end IFEM.Mapping
