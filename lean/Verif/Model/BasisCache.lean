import Mathlib.Algebra.Field.Defs
import Mathlib.Tactic.Common

/-!
# The basis function cache

Model of `BasisFunctionCache` (src/ASM/BasisFunctionCache.{h,C}) with the implementations of the structured
spline patches (ASMs2D.C:3467-3645, ASMs3D.C:3996-4135), of the structured Lagrange patches
(ASMs2DLag.C:1181-1285, ASMs3DLag.C:1529-1640) and of the mixed Lagrange patches (ASMs2DmxLag.C:623-675).

Simplifications: the evaluation of the basis functions (GoTools, `Lagrange::computeBasis`) is an unknown
function of the basis, the derivative order and the point; a matrix of values is one object, `none` when it is
empty.  An access outside an array, a division by zero and the use of a null pointer are `none`.  The values
are returned by value and not by reference.
-/

namespace IFEM.BCache

/-- `ASM::CachePolicy`.  ASMenums.h:41-47 -/
inductive Policy | noCache | preCache | onTheFly | fullCache
deriving DecidableEq

/-- `BasisFunctionVals`: the functions and their first, second and third derivatives.  BasisFunctionVals.h -/
structure Vals (V : Type) where
  N : Option V := none
  d1 : Option V := none
  d2 : Option V := none
  d3 : Option V := none
deriving DecidableEq

/-- `BasisFunctionCache::Quadrature` (the weights, set together with the coordinates, are left out).
BasisFunctionCache.h:97-111 -/
structure Quad (K : Type) where
  ng : List Nat
  xg : List (Option (List K))
  gpar : List (List K)
deriving DecidableEq

/-- `Quadrature::reset`, also the state of a new object.  BasisFunctionCache.h:104-110 -/
def Quad.reset (K : Type) (dim : Nat) : Quad K :=
  ⟨List.replicate dim 0, List.replicate dim none, List.replicate dim []⟩

/-- `xg[0]` is not null. -/
def Quad.isSet {K : Type} (q : Quad K) : Bool := (q.xg.getD 0 none).isSome

/-- Which class implements the virtual functions. -/
inductive Kind | spline | lag | lagMx
deriving DecidableEq

/-- What the cache reads from the patch: the class, the distinct-index knots bounding the knot spans (elements)
of each direction, the table of Gauss rules, and the evaluation of derivatives of the functions of a basis. -/
structure Patch (K V : Type) where
  kind : Kind
  knots : List (List K)
  rule : Nat → Option (List K)
  eval : Int → Nat → List K → V

/-- What the cache reads from the integrand: `getReducedIntegration` and the `NO_DERIVATIVES` flag. -/
structure Itg where
  red : Nat → Int
  noDer : Bool

/-- A cache object without the quadratures, which the caches of a patch share.  BasisFunctionCache.h:91, 134-145 -/
structure Cache (V : Type) where
  basis : Int
  values : List (Vals V) := []
  valuesRed : List (Vals V) := []
  nderiv : Nat := 0
  nTotal : Nat := 0
  nTotalRed : Nat := 0
  itg : Option Itg := none

/-- The caches of a patch with their common quadratures, the number of Gauss points the patch asks for in each
direction and the number of threads. -/
structure St (K V : Type) where
  main : Quad K
  red : Quad K
  caches : List (Cache V)
  ngs : List Nat
  threads : Nat

variable {K V : Type} [Field K]

/-- Number of elements in each direction.  ASMs2D.C:3472-3473, ASMs3D.C:4000, ASMs2DLag.C:1184-1185 -/
def Patch.nel (P : Patch K V) : List Nat := P.knots.map (fun k => k.length - 1)

/-- `SplineUtils::getGaussParameters`.  SplineUtils.C:200-220 -/
def gaussPar (xi : List K) : List K → List K
  | u :: v :: t => xi.map (fun x => (1 / 2) * ((v - u) * x + v + u)) ++ gaussPar xi (v :: t)
  | _ => []

/-- One turn of the loop over the directions in `setupQuadrature`.  ASMs2D.C:3507-3513 -/
def setDir (P : Patch K V) (ngs : List Nat) (q : Quad K) (d : Nat) : Quad K :=
  { q with ng := q.ng.set d (ngs.getD d 0), xg := q.xg.set d (P.rule (ngs.getD d 0)) }

/-- The loop over the directions in `setupQuadrature`.  ASMs2D.C:3507-3513, ASMs3D.C:4032-4038 -/
def setMain (P : Patch K V) (ngs : List Nat) : List Nat → Quad K → Quad K × Bool
  | [], q => (q, true)
  | d :: ds, q =>
    let q1 := setDir P ngs q d
    if (q1.xg.getD d none).isSome then setMain P ngs ds q1 else (q1, false)

/-- `nRed` before the test of its sign.  ASMs2D.C:3516 -/
def nRed (itg : Option Itg) (ng0 : Nat) : Int :=
  match itg with
  | none => 0
  | some i => i.red ng0

/-- The reduced quadrature in `setupQuadrature`.  ASMs2D.C:3516-3526, ASMs3D.C:4041-4051 -/
def setRed (P : Patch K V) (dim : Nat) (n : Int) (ng0 : Nat) (q : Quad K) : Quad K × Bool :=
  if n > 0 then
    let q1 := { q with xg := List.replicate dim (P.rule n.toNat) }
    if (P.rule n.toNat).isSome then ({ q1 with ng := List.replicate dim n.toNat }, true) else (q1, false)
  else if n < 0 then ({ q with ng := List.replicate dim ng0 }, true)
  else ({ q with ng := List.replicate dim 0 }, true)

/-- Parameters of one quadrature in `setupParameters`: those of the Gauss points for splines, those of the
element boundaries for Lagrange patches.  ASMs2D.C:3533-3541, ASMs2DLag.C:1212-1220 -/
def params (P : Patch K V) (q : Quad K) : List (List K) :=
  match P.kind with
  | .spline => List.zipWith (fun k x => gaussPar (x.getD []) k) P.knots q.xg
  | _ => P.knots

/-- `setupQuadrature` with `setupParameters`.  ASMs2D.C:3501-3541, ASMs3D.C:4026-4066 -/
def setup (P : Patch K V) (ngs : List Nat) (itg : Option Itg) (main red : Quad K) : Quad K × Quad K × Bool :=
  let dim := P.knots.length
  let m := setMain P ngs (List.range dim) main
  if m.2 then
    let r := setRed P dim (nRed itg (m.1.ng.getD 0 0)) (m.1.ng.getD 0 0) red
    if r.2 then
      ({ m.1 with gpar := params P m.1 }, if r.1.isSet then { r.1 with gpar := params P r.1 } else r.1, true)
    else (m.1, r.1, false)
  else (m.1, red, false)

/-- Number of points of a quadrature over the patch (splines) or over one element (Lagrange).
ASMs2D.C:3493-3495, ASMs3D.C:4018-4020, ASMs2DLag.C:1202-1204 -/
def total (P : Patch K V) (q : Quad K) : Nat :=
  match P.kind with
  | .spline => P.nel.prod * q.ng.prod
  | _ => q.ng.prod

/-- `internalInit`; the value of `setupQuadrature` is ignored.  ASMs2D.C:3488-3498 -/
def internalInit (P : Patch K V) (st : St K V) (c : Cache V) : St K V × Cache V :=
  let s := if st.main.isSet then (st.main, st.red, true) else setup P st.ngs c.itg st.main st.red
  ({ st with main := s.1, red := s.2.1 },
   { c with nTotal := total P s.1, nTotalRed := if s.2.1.isSet then total P s.2.1 else c.nTotalRed })

/-- `BasisFunctionCache::gpIndex`.  BasisFunctionCache.C:118-130 -/
def gpIndex (ng : List Nat) (gp : Nat) : Option (List Nat) :=
  match ng with
  | [a, _] => if a = 0 then none else some [gp % a, gp / a]
  | [a, b, _] => if a = 0 ∨ b = 0 then none else some [gp % a, (gp / a) % b, gp / (a * b)]
  | _ => none

/-- `elmIndex`.  ASMs2D.C:3593-3596, ASMs3D.C:4104-4107 -/
def elmIndex (nel : List Nat) (el : Nat) : Option (List Nat) :=
  match nel with
  | [a, _] => if a = 0 then none else some [el % a, el / a]
  | [a, b, _] => if a = 0 ∨ b = 0 then none else some [el % a, (el / a) % b, el / (a * b)]
  | _ => none

/-- The formulas of `index` of the spline caches.  ASMs2D.C:3588-3589, ASMs3D.C:4099-4100 -/
def gridIndex (nel ng e g : List Nat) : Option Nat :=
  match nel, ng, e, g with
  | [nel0, _], [ng0, ng1], [e0, e1], [g0, g1] =>
    some ((e1 * ng1 * nel0 + e0) * ng0 + g1 * ng0 * nel0 + g0)
  | [nel0, nel1, _], [ng0, ng1, ng2], [e0, e1, e2], [g0, g1, g2] =>
    some (((e2 * ng2 * nel1 + e1) * ng1 * nel0 + e0) * ng0 + (g2 * ng1 * nel1 + g1) * ng0 * nel0 + g0)
  | _, _, _, _ => none

/-- `index`.  ASMs2D.C:3581-3590, ASMs3D.C:4092-4101; ASMs2DLag.h:58, ASMs3DLag.h:58 -/
def index (P : Patch K V) (q : Quad K) (el gp : Nat) : Option Nat :=
  match P.kind with
  | .spline => (elmIndex P.nel el).bind (fun e => (gpIndex q.ng gp).bind (fun g => gridIndex P.nel q.ng e g))
  | _ => some gp

/-- `getParam` of the spline caches.  BasisFunctionCache.C:97-103 -/
def getParam (q : Quad K) (dir el gp : Nat) : Option K :=
  ((q.gpar[dir]?).bind fun g => (q.ng[dir]?).bind fun n => g[gp + n * el]?)

/-- `getParam` of the Lagrange caches.  ASMs2DLag.C:1223-1229 -/
def getParamLag (q : Quad K) (dir el gp : Nat) : Option K :=
  (q.gpar[dir]?).bind fun g => ((q.xg[dir]?).bind id).bind fun x =>
    (g[el]?).bind fun a => (g[el + 1]?).bind fun b => (x[gp]?).map fun x =>
      (1 / 2) * (a * (1 - x) + b * (1 + x))

/-- Values and derivatives up to order `k` at a point. -/
def valsOf (P : Patch K V) (b : Int) (k : Nat) (pt : List K) : Vals V :=
  { N := some (P.eval b 0 pt)
    d1 := if 1 ≤ k then some (P.eval b 1 pt) else none
    d2 := if 2 ≤ k then some (P.eval b 2 pt) else none
    d3 := if 3 ≤ k then some (P.eval b 3 pt) else none }

/-- The highest derivative `calculatePt` and `calculateAll` know: 3 on surfaces, 2 in volumes.
ASMs2D.C:3552-3575, ASMs3D.C:4077-4086 -/
def maxDer (P : Patch K V) : Nat := if P.knots.length = 2 then 3 else 2

/-- The integration point in parameter space.  ASMs2D.C:3554-3555 -/
def splinePt (P : Patch K V) (q : Quad K) (el gp : Nat) : Option (List K) :=
  (gpIndex q.ng gp).bind fun g => (elmIndex P.nel el).bind fun e =>
    (List.range P.knots.length).mapM (fun d => getParam q d (e.getD d 0) (g.getD d 0))

/-- The integration point in the reference element.  ASMs2DLag.C:1236-1248 -/
def lagPt (P : Patch K V) (q : Quad K) (gp : Nat) : Option (List K) :=
  (gpIndex q.ng gp).bind fun g =>
    (List.range P.knots.length).mapM (fun d => ((q.xg[d]?).bind id).bind fun x => x[g.getD d 0]?)

/-- Number of derivatives the Lagrange caches evaluate; `none` for a missing integrand.
ASMs2DLag.C:1244-1247, 1257; ASMs2DmxLag.C:652-654 -/
def lagDer (P : Patch K V) (itg : Option Itg) : Option Nat :=
  if P.kind = .lagMx then some 1 else itg.map (fun i => if i.noDer then 0 else 1)

/-- `calculatePt`.  ASMs2D.C:3544-3578, ASMs3D.C:4069-4089, ASMs2DLag.C:1232-1250, ASMs2DmxLag.C:643-658 -/
def calculatePt (P : Patch K V) (q : Quad K) (c : Cache V) (el gp : Nat) : Option (Vals V) :=
  match P.kind with
  | .spline =>
    if 1 ≤ c.nderiv ∧ c.nderiv ≤ maxDer P then
      (splinePt P q el gp).map (valsOf P c.basis c.nderiv)
    else some {}
  | _ => (lagDer P c.itg).bind fun k => (lagPt P q gp).map (valsOf P c.basis k)

/-- The points of a grid with the first direction running fastest: `computeBasisGrid` of GoTools, and the loops
of the Lagrange `calculateAll`.  ASMs2DLag.C:1263-1269 -/
def grid : List (List K) → List (List K)
  | [p, q] => q.flatMap fun v => p.map fun u => [u, v]
  | [p, q, r] => r.flatMap fun w => q.flatMap fun v => p.map fun u => [u, v, w]
  | _ => []

/-- Write a list of results in the first entries of the values, in order.  ASMs2D.C:3607-3611 -/
def fill (vals res : List (Vals V)) : Option (List (Vals V)) :=
  if res.length ≤ vals.length then some (res ++ vals.drop res.length) else none

/-- `hasReduced`.  BasisFunctionCache.h:83 -/
def hasReduced (q : Quad K) : Bool := !(q.gpar.getD 0 []).isEmpty

/-- `calculateAll`.  ASMs2D.C:3599-3645, ASMs3D.C:4110-4140, ASMs2DLag.C:1253-1285, ASMs2DmxLag.C:661-685 -/
def calculateAll (P : Patch K V) (main red : Quad K) (c : Cache V) : Option (Cache V) :=
  match P.kind with
  | .spline =>
    (if 1 ≤ c.nderiv ∧ c.nderiv ≤ maxDer P
     then fill c.values ((grid main.gpar).map (valsOf P c.basis c.nderiv)) else some c.values).bind fun v =>
    (if hasReduced red
     then fill c.valuesRed ((grid red.gpar).map (valsOf P c.basis 1)) else some c.valuesRed).bind fun r =>
    some { c with values := v, valuesRed := r }
  | _ =>
    (lagDer P c.itg).bind fun k =>
    (fill c.values ((grid (main.xg.map (·.getD []))).map (valsOf P c.basis k))).bind fun v =>
    (if red.isSet
     then fill c.valuesRed ((grid (red.xg.map (·.getD []))).map (valsOf P c.basis k)) else some c.valuesRed).bind
      fun r => some { c with values := v, valuesRed := r }

/-- `std::vector::resize`. -/
def resize (l : List (Vals V)) (n : Nat) : List (Vals V) := l.take n ++ List.replicate (n - l.length) ({} : Vals V)

/-- `clear` on one cache.  BasisFunctionCache.C:62-71 -/
def clearCache (P : Patch K V) (st : St K V) (c : Cache V) : St K V × Cache V :=
  (if c.basis = 1 then { st with main := Quad.reset K P.knots.length, red := Quad.reset K P.knots.length } else st,
   { c with values := [], valuesRed := [] })

/-- `resizeThreadBuffers` on one cache.  BasisFunctionCache.C:134-147 -/
def resizeBuffers (pol : Policy) (red : Quad K) (n : Nat) (c : Cache V) : Cache V :=
  if pol = .noCache then
    { c with values := resize c.values n, valuesRed := if hasReduced red then resize c.valuesRed n else c.valuesRed }
  else c

/-- `init` on one cache, from the point where the old contents are dropped.  BasisFunctionCache.C:39-58 -/
def rebuild (P : Patch K V) (pol : Policy) (st : St K V) (c : Cache V) (nd : Nat) : Option (St K V × Cache V) :=
  let a := clearCache P st { c with nderiv := nd }
  let b := internalInit P a.1 a.2
  if pol = .noCache then some (b.1, resizeBuffers pol b.1.red b.1.threads b.2)
  else
    let c1 := { b.2 with values := resize b.2.values b.2.nTotal,
                         valuesRed := if hasReduced b.1.red then resize b.2.valuesRed b.2.nTotalRed
                                      else b.2.valuesRed }
    if pol = .onTheFly then some (b.1, c1)
    else (calculateAll P b.1.main b.1.red c1).map (fun c2 => (b.1, c2))

/-- `init` on one cache.  BasisFunctionCache.C:34-59 -/
def initCache (P : Patch K V) (pol : Policy) (st : St K V) (c : Cache V) (nd : Nat) : Option (St K V × Cache V) :=
  if c.values ≠ [] ∧ nd ≤ c.nderiv then some (st, c) else rebuild P pol st c nd

/-- The values a cache holds for one of the quadratures. -/
def Cache.vals (c : Cache V) (reduced : Bool) : List (Vals V) := if reduced then c.valuesRed else c.values

/-- Replace the values a cache holds for one of the quadratures. -/
def Cache.setVals (c : Cache V) (reduced : Bool) (l : List (Vals V)) : Cache V :=
  if reduced then { c with valuesRed := l } else { c with values := l }

/-- `getVals` on one cache, by thread `t`.  BasisFunctionCache.C:74-94 -/
def getVals (P : Patch K V) (pol : Policy) (st : St K V) (c : Cache V) (t el gp : Nat) (reduced : Bool) :
    Option (Cache V × Vals V) :=
  let q := if reduced then st.red else st.main
  if pol = .noCache then
    if t < (c.vals reduced).length then
      (calculatePt P q c el gp).map (fun v => (c.setVals reduced ((c.vals reduced).set t v), v))
    else none
  else
    (index P q el gp).bind fun idx => ((c.vals reduced)[idx]?).bind fun v =>
      if pol = .onTheFly ∧ v.N.isNone then
        (calculatePt P q c el gp).map (fun v => (c.setVals reduced ((c.vals reduced).set idx v), v))
      else some (c, v)

/-- What can be asked of the caches of a patch. -/
inductive Op
  | setItg (b : Nat) (i : Itg)
  | init (b nd : Nat)
  | clear (b : Nat)
  | get (b t el gp : Nat) (reduced : Bool)
  | threads (n : Nat)
  | setGauss (ngs : List Nat)

/-- One operation on the caches; `none` in the second part when it returns no values.  `threads` is
`changeNumThreads` (ASMs2D.C:3152-3156), called when the number of threads has been changed; `setGauss` changes
what the patch answers to `getNoGaussPt`. -/
def step (P : Patch K V) (pol : Policy) (st : St K V) : Op → Option (St K V × Option (Vals V))
  | .setItg b i => (st.caches[b]?).map fun c =>
      ({ st with caches := st.caches.set b { c with itg := some i } }, none)
  | .init b nd => (st.caches[b]?).bind fun c => (initCache P pol st c nd).map fun r =>
      ({ r.1 with caches := r.1.caches.set b r.2 }, none)
  | .clear b => (st.caches[b]?).map fun c =>
      let r := clearCache P st c
      ({ r.1 with caches := r.1.caches.set b r.2 }, none)
  | .get b t el gp reduced => (st.caches[b]?).bind fun c => (getVals P pol st c t el gp reduced).map fun r =>
      ({ st with caches := st.caches.set b r.1 }, some r.2)
  | .threads n => some ({ st with threads := n, caches := st.caches.map (resizeBuffers pol st.red n) }, none)
  | .setGauss ngs => some ({ st with ngs := ngs }, none)

/-- A sequence of operations. -/
def run (P : Patch K V) (pol : Policy) : List Op → St K V → Option (St K V)
  | [], st => some st
  | o :: os, st => (step P pol st o).bind fun r => run P pol os r.1

/-- The caches of a patch when they have been made: the one of the first basis and copies of it for other
bases, sharing its quadratures, and have been given their first integrand (if any: ASMs3Dmx.C:502-504 gives
them none).  BasisFunctionCache.C:20-31, ASMs2Dmx.C:475-482 -/
def fresh (P : Patch K V) (bases : List Int) (itg : Option Itg) (ngs : List Nat) (threads : Nat) : St K V :=
  { main := Quad.reset K P.knots.length, red := Quad.reset K P.knots.length,
    caches := bases.map (fun b => { basis := b, itg := itg }), ngs := ngs, threads := threads }

end IFEM.BCache
