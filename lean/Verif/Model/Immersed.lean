import Mathlib.Algebra.Order.Field.Basic
import Mathlib.Algebra.Module.Pi
import Mathlib.Data.Fin.VecNotation

/-!
# Immersed boundaries: adaptive integration of elements cut by holes

Models src/ASM/ImmersedBoundaries.C (2D), src/ASM/IBGeometries.C (`Alpha` of the geometries) and the set-up in src/ASM/ASMs2DIB.C (`addHole`, `setGeometry`, `generateFEMTopology`,
`isIntersected`, `Intersected::hasContribution`).

Simplifications: exact field arithmetic; the square root and `hypot` are functions that are given; the plotting of grid lines and all printing are left out; a point (`utl::Point`) is the
five numbers `x, y, z, u, v` (the third parameter and the time of `Vec4` are zero throughout); a Gauss rule is one list of (coordinate, weight) pairs.
-/
namespace IFEM.Immersed

/-! ## Geometries -/

/-- Holes.  IBGeometries.h `Hole2D`, `Oval2D` -/
inductive Hole (K : Type)
  | circle (R x y : K)
  | oval (R x0 y0 x1 y1 : K)

variable {K : Type} [Field K] [LinearOrder K]

/-- `Hole2D::Alpha`, `IBGeometries.C:28-42`. -/
def alphaCircle (R xc yc x y : K) : K :=
  let r2 := (x-xc)*(x-xc) + (y-yc)*(y-yc)
  if r2 > R*R then 1 else 0

/-- `Oval2D::Alpha` with the constructor, `IBGeometries.C:19-25, 45-61`. -/
def alphaOval (sqrt : K → K) (R xc yc x1 y1 x y : K) : K :=
  let L := sqrt ((x1-xc)*(x1-xc) + (y1-yc)*(y1-yc))
  let D2 := L*L + R*R
  let LR := L*R
  let r1 := (x-xc)*(x-xc) + (y-yc)*(y-yc)
  if r1 ≤ R*R then 0 else
  let r2 := (x-x1)*(x-x1) + (y-y1)*(y-y1)
  if r2 ≤ R*R then 0 else
  let d := (x1-xc)*(y1-y) - (x1-x)*(y1-yc)
  if d > LR ∨ d < -LR then 1 else
  if r1 ≤ D2 ∧ r2 ≤ D2 then 0 else 1

/-- The virtual `Alpha` of a hole. -/
def Hole.alpha (sqrt : K → K) : Hole K → K → K → K
  | .circle R xc yc, x, y => alphaCircle R xc yc x y
  | .oval R xc yc x1 y1, x, y => alphaOval sqrt R xc yc x1 y1 x y

/-- `PerforatedPlate2D::Alpha`, `IBGeometries.C:64-72`: the loop goes on as long as `alpha > 0`. -/
def alphaPlate (sqrt : K → K) (x y : K) : List (Hole K) → K → K
  | [], a => a
  | h :: hs, a => if a > 0 then alphaPlate sqrt x y hs (h.alpha sqrt x y) else a

/-- A point: `x, y, z, u, v`.  Point.h -/
abbrev Pt (K : Type) := Fin 5 → K

/-- The geometry of a patch, `myGeometry` in ASMs2DIB: none, one hole, several holes, or a function with exponent (applied already) and threshold. -/
inductive Geometry (K : Type)
  | none
  | hole (h : Hole K)
  | plate (hs : List (Hole K))
  | func (f : Pt K → K) (threshold : K)

/-- The virtual `Alpha(const Vec3&)`: `ImmersedBoundaries.C:46-49`, and `GeoFunc2D::Alpha`, `IBGeometries.C:172-176`. -/
def Geometry.alpha (sqrt : K → K) : Geometry K → Pt K → K
  | .none, _ => 0
  | .hole h, p => h.alpha sqrt (p 0) (p 1)
  | .plate hs, p => alphaPlate sqrt (p 0) (p 1) hs 1
  | .func f t, p => if f p < t then 0 else 1

/-- `ASMs2DIB::addHole`, both versions, `ASMs2DIB.C:47-90`. -/
def addHole (h : Hole K) : Geometry K → Geometry K
  | .none => .hole h
  | .hole g => .plate [g, h]
  | .plate hs => .plate (hs ++ [h])
  | .func f t => .func f t

/-- `ASMs2DIB::setGeometry`, `ASMs2DIB.C:93-100`. -/
def setGeometry (f : Pt K → K) (t : K) : Geometry K → Geometry K × Bool
  | .none => (.func f t, true)
  | g => (g, false)

/-! ## Integration points of one element -/

/-- `struct cell`, `ImmersedBoundaries.C:35-45`. -/
structure Cell (K : Type) where
  depth : Nat
  xi : K
  eta : K
  v0 : Pt K
  v1 : Pt K
  v2 : Pt K
  v3 : Pt K

/-- What is given: the inside-outside test, `hypot`, and the corner points of the element in cyclic order. -/
structure Elm (K : Type) where
  alpha : Pt K → K
  hypot : K → K → K
  X1 : Pt K
  X2 : Pt K
  X3 : Pt K
  X4 : Pt K

/-- `pow(2.0, double(d+1))` -/
def cellScale (K : Type) [Field K] (d : Nat) : K := 2^(d+1)

/-- The offsets `epsx, epsy, epsu, epsv` of level `i`, `ImmersedBoundaries.C:92-114`. -/
def offsets (E : Elm K) (i : Nat) : K × K × K × K :=
  let hx1 := E.hypot (E.X2 0 - E.X1 0) (E.X2 1 - E.X1 1)
  let hx2 := E.hypot (E.X3 0 - E.X4 0) (E.X3 1 - E.X4 1)
  let hy1 := E.hypot (E.X4 0 - E.X1 0) (E.X4 1 - E.X1 1)
  let hy2 := E.hypot (E.X3 0 - E.X2 0) (E.X3 1 - E.X2 1)
  let hu := E.X2 3 - E.X1 3
  let hv := E.X4 4 - E.X1 4
  (2/1000*(hx1+hx2)/cellScale K i, 2/1000*(hy1+hy2)/cellScale K i, 4/1000*hu/cellScale K i, 4/1000*hv/cellScale K i)

/-- An offset vector with signs, `ImmersedBoundaries.C:117-120`. -/
def offset (e : K × K × K × K) (sx sy : K) : Pt K := ![sx*e.1, sy*e.2.1, 0, sx*e.2.2.1, sy*e.2.2.2]

/-- The test of the four vertices at level `i`, `ImmersedBoundaries.C:131-138`: true if the cell is not refined. -/
def uniform (E : Elm K) (i : Nat) (c : Cell K) : Bool :=
  let e := offsets E i
  let a := E.alpha (c.v0 + offset e 1 1)
  let counter := (if a = E.alpha (c.v1 + offset e (-1) 1) then 1 else 0) + (if a = E.alpha (c.v2 + offset e (-1) (-1)) then 1 else 0) + (if a = E.alpha (c.v3 + offset e 1 (-1)) then 1 else 0)
  counter == 3

/-- The first three new cells, `ImmersedBoundaries.C:143-177`. -/
def cell1 (i : Nat) (c : Cell K) : Cell K :=
  { depth := i, v0 := c.v0, v1 := (1/2 : K) • (c.v0 + c.v1), v2 := (1/4 : K) • (c.v0 + c.v1 + c.v2 + c.v3), v3 := (1/2 : K) • (c.v0 + c.v3),
    xi := c.xi - 2/cellScale K i, eta := c.eta - 2/cellScale K i }
def cell2 (i : Nat) (c : Cell K) : Cell K :=
  { depth := i, v0 := (cell1 i c).v1, v1 := c.v1, v2 := (1/2 : K) • (c.v1 + c.v2), v3 := (cell1 i c).v2,
    xi := c.xi + 2/cellScale K i, eta := c.eta - 2/cellScale K i }
def cell3 (i : Nat) (c : Cell K) : Cell K :=
  { depth := i, v0 := (cell2 i c).v3, v1 := (cell2 i c).v2, v2 := c.v2, v3 := (1/2 : K) • (c.v2 + c.v3),
    xi := c.xi + 2/cellScale K i, eta := c.eta + 2/cellScale K i }

/-- The fourth cell, stored over the current one, `ImmersedBoundaries.C:179-187`. -/
def cell4 (i : Nat) (c : Cell K) : Cell K :=
  { depth := i, v0 := (cell1 i c).v3, v1 := (cell3 i c).v0, v2 := (cell3 i c).v3, v3 := c.v3,
    xi := c.xi - 2/cellScale K i, eta := c.eta + 2/cellScale K i }

/-- One turn of the loop over the cells, `ImmersedBoundaries.C:123-193`. -/
def visit (E : Elm K) (i : Nat) (cs : List (Cell K)) (j : Nat) : List (Cell K) :=
  match cs[j]? with
  | none => cs
  | some c =>
    if c.depth + 1 ≠ i then cs
    else if uniform E i c then cs
    else cs.set j (cell4 i c) ++ [cell1 i c, cell2 i c, cell3 i c]

/-- The loop over the cells of a level, from the last cell to the first, `ImmersedBoundaries.C:123-205`. -/
def level (E : Elm K) (cs : List (Cell K)) (i : Nat) : List (Cell K) := (List.range cs.length).reverse.foldl (visit E i) cs

/-- The first cell, `ImmersedBoundaries.C:79-84`. -/
def cell0 (E : Elm K) : Cell K := { depth := 0, xi := 0, eta := 0, v0 := E.X1, v1 := E.X2, v2 := E.X3, v3 := E.X4 }

/-- The loop over levels, `ImmersedBoundaries.C:101-207`. -/
def cells (E : Elm K) (maxDepth : Int) : List (Cell K) := (List.range' 1 maxDepth.toNat).foldl (level E) [cell0 E]

/-- A Gauss point `(ξ, η, weight)`. -/
abbrev Gp (K : Type) := K × K × K

/-- One Gauss point of a cell, `ImmersedBoundaries.C:214-234`: with the inside-outside test. -/
def cellPoint (E : Elm K) (c : Cell K) (gj gi : K × K) : List (Gp K) :=
  let xi := gi.1
  let eta := gj.1
  let N1 := 1/4*(1-xi)*(1-eta)
  let N2 := 1/4*(xi+1)*(1-eta)
  let N3 := 1/4*(xi+1)*(eta+1)
  let N4 := 1/4*(1-xi)*(eta+1)
  let Xg := N1 • c.v0 + N2 • c.v1 + N3 • c.v2 + N4 • c.v3
  if E.alpha Xg > 0 then
    [(c.xi + gi.1*2/cellScale K c.depth, c.eta + gj.1*2/cellScale K c.depth, gi.2*gj.2*4/(cellScale K c.depth*cellScale K c.depth))]
  else []

/-- The points of a cell, `ImmersedBoundaries.C:210-236`. -/
def cellPoints (E : Elm K) (rule : List (K × K)) (c : Cell K) : List (Gp K) := rule.flatMap fun gj => rule.flatMap fun gi => cellPoint E c gj gi

/-- `Immersed::getQuadraturePoints` in 2D, `ImmersedBoundaries.C:62-241`; `none` if there is no Gauss rule. -/
def quadrature (E : Elm K) (rule : Option (List (K × K))) (maxDepth : Int) : Option (List (Gp K)) :=
  rule.map fun r => (cells E maxDepth).flatMap (cellPoints E r)

/-! ## All elements of a patch -/

/-- One turn of the loop over the elements in the wrapper, `ImmersedBoundaries.C:277-307`: the points and the value of `ok`. -/
def element (alpha : Pt K → K) (hypot : K → K → K) (rule : Option (List (K × K))) (maxDepth : Int) (Xc : List (Pt K)) : List (Gp K) × Bool :=
  match Xc with
  | [a, b, c, d] =>
    match quadrature { alpha := alpha, hypot := hypot, X1 := a, X2 := b, X3 := d, X4 := c } rule maxDepth with
    | some l => (l, true)
    | none => ([], false)
  | _ => ([], false)

/-- The wrapper, `ImmersedBoundaries.C:268-310`: `ok` is assigned for each element. -/
def getQuadraturePoints (alpha : Pt K → K) (hypot : K → K → K) (rule : Option (List (K × K))) (maxDepth : Int) (elms : List (List (Pt K))) : List (List (Gp K)) × Bool :=
  elms.foldl (fun r Xc => (r.1 ++ [(element alpha hypot rule maxDepth Xc).1], (element alpha hypot rule maxDepth Xc).2)) ([], true)

/-- Mapping of a point to the parameters of its knot span, `ASMs2DIB.C:204-205`. -/
def toSpan (uprev ucurr vprev vcurr : K) (p : Gp K) : Gp K :=
  (1/2*((ucurr-uprev)*p.1 + ucurr+uprev), 1/2*((vcurr-vprev)*p.2.1 + vcurr+vprev), p.2.2)

/-- The mapping of all points, `ASMs2DIB.C:183-212`: `us` and `vs` are the knots from the first to the last element boundary; the elements run with `u` fastest. -/
def mapPoints (us vs : List K) (q : List (List (Gp K))) : List (List (Gp K)) :=
  q.zipIdx.map fun (l, e) =>
    let i := e % (us.length-1)
    let j := e / (us.length-1)
    l.map (toSpan (us.getD i 0) (us.getD (i+1) 0) (vs.getD j 0) (vs.getD (j+1) 0))

/-- The nodes of elements with points, `ASMs2DIB.C:215-221`; `mnpc` has zero-based node numbers. -/
def activeNodes (q : List (List (Gp K))) (mnpc : List (List Nat)) : List Nat :=
  q.zipIdx.flatMap fun (l, e) => if l.isEmpty then [] else (mnpc.getD e []).map (· + 1)

/-- The nodes that are fixed, `ASMs2DIB.C:224-227`. -/
def fixedNodes (q : List (List (Gp K))) (mnpc : List (List Nat)) (nnod : Nat) : List Nat :=
  (List.range' 1 nnod).filter fun n => ¬ n ∈ activeNodes q mnpc

/-- `ASMs2DIB::isIntersected`, `ASMs2DIB.C:141-152`. -/
def isIntersected (q : List (List (Gp K))) (nGauss : Nat) (iel : Int) (inDomainOnly : Bool) : Bool :=
  if iel < 0 ∨ iel.toNat ≥ q.length then false
  else if (q.getD iel.toNat []).isEmpty then false
  else if inDomainOnly then true
  else (q.getD iel.toNat []).length > nGauss*nGauss

/-- `Intersected::hasContribution`, `ASMs2DIB.C:238-269`, for the element at the (one-based) indices `I`, `J` of a patch with `n1`, `n2` basis functions of order `p1`, `p2`. -/
def hasContribution (q : List (List (Gp K))) (nGauss n1 n2 p1 p2 I J : Nat) (all alsoSW : Bool) : Nat :=
  let nx := n1-p1+1
  let iel := I-p1 + nx*(J-p2)
  if (q.getD iel []).isEmpty then 0
  else
    let jel := [if I > p1 then iel-1 else 0, if I < n1 then iel+1 else 0, if J > p2 then iel-nx else 0, if J < n2 then iel+nx else 0]
    let isCut := all || isIntersected q nGauss iel false
    ((List.range 4).map fun i => if (alsoSW || i % 2 == 1) && jel.getD i 0 != 0 && isIntersected q nGauss (jel.getD i 0) isCut then 2^i else 0).sum

end IFEM.Immersed
