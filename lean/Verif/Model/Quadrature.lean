import Mathlib.Data.Rat.Cast.Order
import Mathlib.Algebra.Order.Field.Basic
import Verif.Model.Topology

/-!
# Numerical integration over patches

Models `GaussQuadrature` and `TriangleQuadrature` (`src/Utility`), `SplineUtils::getGaussParameters`, `ASMbase::getNoGaussPt`, the parametric size of the elements, the
loops over elements and integration points of `ASMs1D::integrate`, `ASMs2D::integrate` and `ASMs3D::integrate` (interior contributions), and `BasisFunctionCache`
(`src/ASM`).

Simplifications: arithmetic is exact, but the literals in the tables are passed through a function `rd`, which the theorems allow to be any rounding with a relative error
of at most `2^-53`.  A table lookup outside of the table is `none`.  The integrand enters as one function `f` of the parameters of the integration point, which stands for
the quantity integrated times the Jacobian determinant of the geometry mapping: `evalInt` is given `detJxW`, the product of this determinant and the weight of the point.
Skipping the points where the determinant is zero is therefore not modelled (they contribute zero).  All elements are active.  The order in which the elements are
visited is a parameter (it is decided by the threading groups).
-/
namespace IFEM.Quad
open IFEM.Topo

/-! ### Tables -/

/-- Coordinates and weights of the 1-point rule (GaussQuadrature.C:19-25). -/
def G1 : List (List ℚ) := [[0.0],
  [2.0]]

/-- Coordinates and weights of the 2-point rule (GaussQuadrature.C:28-36). -/
def G2 : List (List ℚ) := [[-0.5773502691896257, 0.5773502691896257],
  [1.0, 1.0]]

/-- Coordinates and weights of the 3-point rule (GaussQuadrature.C:39-49). -/
def G3 : List (List ℚ) := [[-0.7745966692414834, 0.0, 0.7745966692414834],
  [0.5555555555555556, 0.8888888888888889, 0.5555555555555556]]

/-- Coordinates and weights of the 4-point rule (GaussQuadrature.C:52-64). -/
def G4 : List (List ℚ) := [[-0.86113631159405257524, -0.33998104358485626481, 0.33998104358485626481, 0.86113631159405257524],
  [0.34785484513745385736, 0.65214515486254614264, 0.65214515486254614264, 0.34785484513745385736]]

/-- Coordinates and weights of the 5-point rule (GaussQuadrature.C:67-81). -/
def G5 : List (List ℚ) := [[-0.90617984593866399282, -0.53846931010568309105, 0.0, 0.53846931010568309105, 0.90617984593866399282],
  [0.23692688505618908749, 0.47862867049936646808, 0.56888888888888888888, 0.47862867049936646808, 0.23692688505618908749]]

/-- Coordinates and weights of the 6-point rule (GaussQuadrature.C:84-100). -/
def G6 : List (List ℚ) := [[-0.9324695142031520, -0.6612093864662645, -0.2386191860831969, 0.2386191860831969, 0.6612093864662645, 0.9324695142031520],
  [0.1713244923791703, 0.3607615730481386, 0.4679139345726911, 0.4679139345726911, 0.3607615730481386, 0.1713244923791703]]

/-- Coordinates and weights of the 7-point rule (GaussQuadrature.C:103-121). -/
def G7 : List (List ℚ) := [[-0.9491079123427585, -0.7415311855993944, -0.4058451513773972, 0.0, 0.4058451513773972, 0.7415311855993944, 0.9491079123427585],
  [0.1294849661688697, 0.2797053914892767, 0.3818300505051189, 0.4179591836734694, 0.3818300505051189, 0.2797053914892767, 0.1294849661688697]]

/-- Coordinates and weights of the 8-point rule (GaussQuadrature.C:124-144). -/
def G8 : List (List ℚ) := [[-0.9602898564975362, -0.7966664774136267, -0.5255324099163290, -0.1834346424956498, 0.1834346424956498, 0.5255324099163290, 0.7966664774136267, 0.9602898564975362],
  [0.1012285362903763, 0.2223810344533745, 0.3137066458778873, 0.3626837833783620, 0.3626837833783620, 0.3137066458778873, 0.2223810344533745, 0.1012285362903763]]

/-- Coordinates and weights of the 9-point rule (GaussQuadrature.C:147-169). -/
def G9 : List (List ℚ) := [[-0.9681602395076261, -0.8360311073266358, -0.6133714327005904, -0.3242534234038089, 0.0, 0.3242534234038089, 0.6133714327005904, 0.8360311073266358, 0.9681602395076261],
  [0.0812743883615744, 0.1806481606948574, 0.2606106964029354, 0.3123470770400029, 0.3302393550012598, 0.3123470770400028, 0.2606106964029355, 0.1806481606948574, 0.0812743883615744]]

/-- Coordinates and weights of the 10-point rule (GaussQuadrature.C:172-196). -/
def G10 : List (List ℚ) := [[-0.97390653, -0.86506337, -0.67940957, -0.43339539, -0.14887434, 0.14887434, 0.43339539, 0.67940957, 0.86506337, 0.97390653],
  [0.06667134, 0.14945135, 0.21908636, 0.26926672, 0.29552422, 0.29552422, 0.26926672, 0.21908636, 0.14945135, 0.06667134]]

/-- `GaussQuadrature::getGauss` (GaussQuadrature.C:198-218): `i` is 0 for the coordinates and 1 for the weights; `none` is the null pointer. -/
def getGauss (n : Int) (i : Nat) : Option (List ℚ) :=
  match n with
  | 0 => G1[0]?
  | 1 => G1[i]?
  | 2 => G2[i]?
  | 3 => G3[i]?
  | 4 => G4[i]?
  | 5 => G5[i]?
  | 6 => G6[i]?
  | 7 => G7[i]?
  | 8 => G8[i]?
  | 9 => G9[i]?
  | 10 => G10[i]?
  | _ => none

/-- `GaussQuadrature::getCoord` (GaussQuadrature.h:27). -/
def getCoord (n : Int) : Option (List ℚ) := getGauss n 0

/-- `GaussQuadrature::getWeight` (GaussQuadrature.h:30). -/
def getWeight (n : Int) : Option (List ℚ) := getGauss n 1

/-- `ASMbase::getNoGaussPt` (ASMbase.C:1788-1798): `nGauss` is the value given in the input, `p` the order of the basis. -/
def getNoGaussPt (nGauss p : Int) (neumann : Bool) : Int :=
  if nGauss ≤ -p then 0 else if nGauss > 0 ∧ nGauss < 11 then nGauss else if neumann then p else p + nGauss.tmod 10

section
variable {K : Type} [Field K] [LinearOrder K]

/-! ### Integration points -/

/-- The innermost loop of `SplineUtils::getGaussParameters` (SplineUtils.C:216-217). -/
def spanPoints (nGP : Nat) (xi : List K) (uprev ucurr : K) (uGP : List K) : Option (List K) :=
  (List.range nGP).foldlM (fun (uGP : List K) (i : Nat) => do
    let x ← xi[i]?
    some (uGP ++ [1/2 * ((ucurr - uprev)*x + ucurr + uprev)])) uGP

/-- One pass of the loop over the knot spans; the state is the previous knot and the parameters found so far (SplineUtils.C:212-219). -/
def spanStep (nGP : Nat) (xi knots : List K) (p : Nat) (skipNullSpans : Bool) (st : K × List K) (j : Nat) : Option (K × List K) := do
  let ucurr ← knots[p-1+1+j]?
  if skipNullSpans = false ∨ ucurr > st.1 then do
    let uGP ← spanPoints nGP xi st.1 ucurr st.2
    some (ucurr, uGP)
  else some (ucurr, st.2)

/-- `SplineUtils::getGaussParameters` (SplineUtils.C:200-220): parameters of the integration points over all knot spans; `n` is the number of basis functions, `p` the order. -/
def getGaussParameters (nGP : Nat) (xi knots : List K) (n p : Nat) (skipNullSpans : Bool) : Option (List K) := do
  let first ← knots[p-1]?
  let st ← (List.range (n - (p-1))).foldlM (spanStep nGP xi knots p skipNullSpans) (first, [])
  some st.2

/-- `knotSpan` of GoTools and `ASMs1D::getKnotSpan` (ASMs1D.C:600-607). -/
def knotSpan (knots : List K) (i : Nat) : Option K := do
  let a ← knots[i]?
  let b ← knots[i+1]?
  some (b - a)

/-- The flags telling which knot intervals have positive length, as used by `createMNPC` (ASMs1D.C:1972, ASMs2D.C:3353, ASMs3D.C:3912). -/
def spansOf (knots : List K) : List Bool :=
  (List.range (knots.length - 1)).map fun i => decide (knots.getD i 0 < knots.getD (i+1) 0)

/-! ### Element loops -/

/-- One element of `ASMs1D::integrate`: skip the elements without nodes (`MLGE < 1`), scale the derivatives with half the knot span and sum over the integration points
(ASMs1D.C:1109-1117, 1181-1203). -/
def elmInt1 (f : K → K) (p ng : Nat) (t w gpar : List K) (mnpc : List (List Nat)) (s : K) (iel : Nat) : Option K := do
  let e ← mnpc[iel]?
  if e.isEmpty then some s else do
    let inod ← e[p-1]?
    let du ← knotSpan t inod
    let dL := 1/2 * du
    (List.range ng).foldlM (fun (s : K) (i : Nat) => do
      let u ← gpar[i + ng*iel]?
      let wi ← w[i]?
      some (s + f u * (dL * wi))) s

/-- `ASMs1D::integrate` (ASMs1D.C:1059-1258), interior integration with the rule `x`, `w` of `ng` points. -/
def integrate1 (f : K → K) (n p : Nat) (t : List K) (ng : Nat) (x w : List K) : Option K := do
  let gpar ← getGaussParameters ng x t n p false
  (List.range (n - p + 1)).foldlM (elmInt1 f p ng t w gpar (splineMNPC1 n p (spansOf t))) 0

/-- `BasisFunctionCache::getParam` (BasisFunctionCache.C:97-104). -/
def getParam (gpar : List K) (ng el gp : Nat) : Option K := gpar[gp + ng*el]?

/-- `ASMs2D::getParametricArea` (ASMs2D.C:1269-1296) for the element with (0-based) index `iel`; `nodeInd` is the grid position of a node (ASMs2D.C:557-561). -/
def parametricArea (mnpc : List (List Nat)) (n1 p1 p2 : Nat) (t1 t2 : List K) (iel : Nat) : Option K := do
  let e ← mnpc[iel]?
  if e.isEmpty then some 0 else do
    let inod ← e[p1*p2 - 1]?
    let du ← knotSpan t1 (inod % n1)
    let dv ← knotSpan t2 (inod / n1)
    some (du*dv)

/-- One element of `ASMs2D::integrate` (ASMs2D.C:1780-1800, 1906-1971): `none` also if the area is negative. -/
def elmInt2 (f : K → K → K) (n1 p1 p2 ng1 ng2 : Nat) (t1 t2 w1 w2 gpar1 gpar2 : List K) (mnpc : List (List Nat)) (s : K) (iel : Nat) : Option K := do
  let e ← mnpc[iel]?
  if e.isEmpty then some s else do
    let i1 := p1 + iel % (n1 - p1 + 1)
    let i2 := p2 + iel / (n1 - p1 + 1)
    let area ← parametricArea mnpc n1 p1 p2 t1 t2 iel
    let dA := 1/4 * area
    if dA < 0 then none else
      (List.range ng2).foldlM (fun (s : K) (j : Nat) => (List.range ng1).foldlM (fun (s : K) (i : Nat) => do
        let u ← getParam gpar1 ng1 (i1-p1) i
        let v ← getParam gpar2 ng2 (i2-p2) j
        let wi ← w1[i]?
        let wj ← w2[j]?
        some (s + f u v * (dA * wi * wj))) s) s

/-- `ASMs2D::integrate` (ASMs2D.C:1718-1991), interior integration, visiting the elements in the order `els`. -/
def integrate2 (f : K → K → K) (n1 n2 p1 p2 : Nat) (t1 t2 : List K) (ng1 ng2 : Nat) (x1 w1 x2 w2 : List K) (els : List Nat) : Option K := do
  let gpar1 ← getGaussParameters ng1 x1 t1 n1 p1 false
  let gpar2 ← getGaussParameters ng2 x2 t2 n2 p2 false
  els.foldlM (elmInt2 f n1 p1 p2 ng1 ng2 t1 t2 w1 w2 gpar1 gpar2 (splineMNPC2 n1 n2 p1 p2 (spansOf t1) (spansOf t2))) 0

/-- `ASMs3D::getParametricVolume` (ASMs3D.C:1531-1557) for the element with (0-based) index `iel`. -/
def parametricVolume (mnpc : List (List Nat)) (n1 n2 p1 p2 p3 : Nat) (t1 t2 t3 : List K) (iel : Nat) : Option K := do
  let e ← mnpc[iel]?
  if e.isEmpty then some 0 else do
    let inod ← e[p1*p2*p3 - 1]?
    let du ← knotSpan t1 (inod % n1)
    let dv ← knotSpan t2 ((inod / n1) % n2)
    let dw ← knotSpan t3 (inod / (n1*n2))
    some (du*dv*dw)

/-- The part of `ASMs3D::integrate` at one integration point (ASMs3D.C:2276-2278, 2306). -/
def pointInt3 (f : K → K → K → K) (ng1 ng2 ng3 e1 e2 e3 : Nat) (w1 w2 w3 gpar1 gpar2 gpar3 : List K) (dV : K) (k j : Nat) (s : K) (i : Nat) : Option K := do
  let u ← getParam gpar1 ng1 e1 i
  let v ← getParam gpar2 ng2 e2 j
  let w ← getParam gpar3 ng3 e3 k
  let wi ← w1[i]?
  let wj ← w2[j]?
  let wk ← w3[k]?
  some (s + f u v w * (dV * wi * wj * wk))

/-- One element of `ASMs3D::integrate` (ASMs3D.C:2135-2150, 2260-2318). -/
def elmInt3 (f : K → K → K → K) (n1 n2 p1 p2 p3 ng1 ng2 ng3 : Nat) (t1 t2 t3 w1 w2 w3 gpar1 gpar2 gpar3 : List K) (mnpc : List (List Nat)) (s : K) (iel : Nat) :
    Option K := do
  let e ← mnpc[iel]?
  if e.isEmpty then some s else do
    let nel1 := n1 - p1 + 1
    let nel2 := n2 - p2 + 1
    let i1 := p1 + iel % nel1
    let i2 := p2 + (iel / nel1) % nel2
    let i3 := p3 + iel / (nel1*nel2)
    let vol ← parametricVolume mnpc n1 n2 p1 p2 p3 t1 t2 t3 iel
    let dV := 1/8 * vol
    if dV < 0 then none else
      (List.range ng3).foldlM (fun (s : K) (k : Nat) => (List.range ng2).foldlM (fun (s : K) (j : Nat) =>
        (List.range ng1).foldlM (pointInt3 f ng1 ng2 ng3 (i1-p1) (i2-p2) (i3-p3) w1 w2 w3 gpar1 gpar2 gpar3 dV k j) s) s) s

/-- `ASMs3D::integrate` (ASMs3D.C:2065-2345), interior integration, visiting the elements in the order `els`. -/
def integrate3 (f : K → K → K → K) (n1 n2 n3 p1 p2 p3 : Nat) (t1 t2 t3 : List K) (ng1 ng2 ng3 : Nat) (x1 w1 x2 w2 x3 w3 : List K) (els : List Nat) : Option K := do
  let gpar1 ← getGaussParameters ng1 x1 t1 n1 p1 false
  let gpar2 ← getGaussParameters ng2 x2 t2 n2 p2 false
  let gpar3 ← getGaussParameters ng3 x3 t3 n3 p3 false
  els.foldlM (elmInt3 f n1 n2 p1 p2 p3 ng1 ng2 ng3 t1 t2 t3 w1 w2 w3 gpar1 gpar2 gpar3 (splineMNPC3 n1 n2 n3 p1 p2 p3 (spansOf t1) (spansOf t2) (spansOf t3))) 0

/-! ### Cache of basis function values -/

end

/-- `ASM::CachePolicy` (ASMenums.h:42-47): `PRE_CACHE` and `FULL_CACHE`, which differ only in when the cache is cleared, are one here. -/
inductive CachePolicy where
  | noCache
  | onTheFly
  | upFront
deriving DecidableEq

section
variable {K β : Type}

/-- The members of `ASMs2D::BasisFunctionCache` used for one of its two quadratures (BasisFunctionCache.h, ASMs2D.h): number of elements and of integration points in each
direction, parameters of the integration points, and the values computed so far.  An empty `N` is `none`. -/
structure Cache2 (K β : Type) where
  policy : CachePolicy
  nel1 : Nat
  ng1 : Nat
  ng2 : Nat
  gpar1 : List K
  gpar2 : List K
  values : List (Option β)

/-- `BasisFunctionCache::gpIndex` for two parameter directions (BasisFunctionCache.C:126-127). -/
def gpIndex2 (ng1 gp : Nat) : Nat × Nat := (gp % ng1, gp / ng1)

/-- `ASMs2D::BasisFunctionCache::elmIndex` (ASMs2D.C:3586-3589). -/
def elmIndex2 (nel1 el : Nat) : Nat × Nat := (el % nel1, el / nel1)

/-- `ASMs2D::BasisFunctionCache::index` (ASMs2D.C:3575-3583). -/
def Cache2.index (c : Cache2 K β) (el gp : Nat) : Nat :=
  ((elmIndex2 c.nel1 el).2*c.ng2*c.nel1 + (elmIndex2 c.nel1 el).1)*c.ng1 + (gpIndex2 c.ng1 gp).2*c.ng1*c.nel1 + (gpIndex2 c.ng1 gp).1

/-- `ASMs2D::BasisFunctionCache::calculatePt` (ASMs2D.C:3542-3572): `basis u v` is what `computeBasis` and `extractBasis` give. -/
def Cache2.calculatePt (basis : K → K → β) (c : Cache2 K β) (el gp : Nat) : Option β := do
  let u ← c.gpar1[(gpIndex2 c.ng1 gp).1 + c.ng1*(elmIndex2 c.nel1 el).1]?
  let v ← c.gpar2[(gpIndex2 c.ng1 gp).2 + c.ng2*(elmIndex2 c.nel1 el).2]?
  some (basis u v)

/-- `BasisFunctionCache::init` after `internalInit` (BasisFunctionCache.C:44-56) with `calculateAll` (ASMs2D.C:3592-3631): `computeBasisGrid` of GoTools evaluates the basis
in all pairs of parameters, those of the first direction running fastest. -/
def Cache2.init (basis : K → K → β) (policy : CachePolicy) (nel1 nel2 ng1 ng2 : Nat) (gpar1 gpar2 : List K) : Cache2 K β :=
  { policy := policy, nel1 := nel1, ng1 := ng1, ng2 := ng2, gpar1 := gpar1, gpar2 := gpar2,
    values := match policy with
      | .noCache => [none]
      | .onTheFly => List.replicate (nel1*nel2*(ng1*ng2)) none
      | .upFront => gpar2.flatMap fun v => gpar1.map fun u => some (basis u v) }

/-- `BasisFunctionCache::getVals` (BasisFunctionCache.C:73-94) for the thread with number 0. -/
def Cache2.getVals (basis : K → K → β) (c : Cache2 K β) (el gp : Nat) : Option (Cache2 K β × β) :=
  match c.policy with
  | .noCache => do
    let b ← c.calculatePt basis el gp
    if c.values.length = 0 then none else some ({ c with values := c.values.set 0 (some b) }, b)
  | .onTheFly => do
    let v ← c.values[c.index el gp]?
    match v with
    | some b => some (c, b)
    | none => do
      let b ← c.calculatePt basis el gp
      some ({ c with values := c.values.set (c.index el gp) (some b) }, b)
  | .upFront => do
    let v ← c.values[c.index el gp]?
    v.map fun b => (c, b)

/-- A sequence of requests for basis function values, as made by the element loops. -/
def Cache2.run (basis : K → K → β) (c : Cache2 K β) : List (Nat × Nat) → Option (Cache2 K β × List β)
  | [] => some (c, [])
  | r :: rs => do
    let (c, b) ← c.getVals basis r.1 r.2
    let (c, bs) ← Cache2.run basis c rs
    some (c, b :: bs)

/-- `gpIndex` for three parameter directions (BasisFunctionCache.C:128-129). -/
def gpIndex3 (ng1 ng2 gp : Nat) : Nat × Nat × Nat := (gp % ng1, (gp / ng1) % ng2, gp / (ng1*ng2))

/-- `ASMs3D::BasisFunctionCache::elmIndex` (ASMs3D.C:4108-4111). -/
def elmIndex3 (nel1 nel2 el : Nat) : Nat × Nat × Nat := (el % nel1, (el / nel1) % nel2, el / (nel1*nel2))

/-- `ASMs3D::BasisFunctionCache::index` (ASMs3D.C:4097-4105). -/
def cacheIndex3 (nel1 nel2 ng1 ng2 ng3 el gp : Nat) : Nat :=
  let e := elmIndex3 nel1 nel2 el
  let g := gpIndex3 ng1 ng2 gp
  ((e.2.2*ng3*nel2 + e.2.1)*ng2*nel1 + e.1)*ng1 + (g.2.2*ng2*nel2 + g.2.1)*ng1*nel1 + g.1

/-- `ASMs3D::BasisFunctionCache::calculateAll` (ASMs3D.C:4114-4165): the order of `computeBasisGrid`, first direction fastest. -/
def calculateAll3 (basis : K → K → K → β) (gpar1 gpar2 gpar3 : List K) : List β :=
  gpar3.flatMap fun w => gpar2.flatMap fun v => gpar1.map fun u => basis u v w

end

end IFEM.Quad
