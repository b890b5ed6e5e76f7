import Verif.Model.PatchGen
import Mathlib.Algebra.Order.Field.Basic

/-!
# Specification: the geometry and the topology of a generated multi-patch model (C79)

A patch is given by its control points (2, 4 or 8, the first parameter fastest) of a linear tensor-product spline on `[0,1]^d`.  Sides, vertices and edges of a patch are numbered as in
the patch classes: side `1`: `u = 0`, `2`: `u = 1`, `3`: `v = 0`, `4`: `v = 1`, `5`: `w = 0`, `6`: `w = 1`; vertex `1 + a + 2b + 4c` at `u = a`, `v = b`, `w = c`.
-/
namespace IFEM.PatchGen.Spec
variable {K : Type} [Field K]

/-- Addition of points and multiplication by a number. -/
def add (p q : Pt K) : Pt K := (p.1+q.1, p.2.1+q.2.1, p.2.2+q.2.2)
def smul (c : K) (p : Pt K) : Pt K := (c*p.1, c*p.2.1, c*p.2.2)

/-- The point between `p` and `q`. -/
def lin (u : K) (p q : Pt K) : Pt K := add (smul (1-u) p) (smul u q)

/-- The point of the patch at the parameters `q = (u, v, w)`. -/
def onPatch : List (Pt K) → Pt K → Pt K
  | [a, b], q => lin q.1 a b
  | [a, b, c, d], q => lin q.2.1 (lin q.1 a b) (lin q.1 c d)
  | [a, b, c, d, e, f, g, h], q => lin q.2.2 (lin q.2.1 (lin q.1 a b) (lin q.1 c d)) (lin q.2.1 (lin q.1 e f) (lin q.1 g h))
  | _, _ => (0, 0, 0)

/-- The parameters of the point `(a, b)` on the side `s`. -/
def onSide (s : Nat) (a b : K) : Pt K :=
  match s with
  | 1 => (0, a, b)
  | 2 => (1, a, b)
  | 3 => (a, 0, b)
  | 4 => (a, 1, b)
  | 5 => (a, b, 0)
  | _ => (a, b, 1)

/-- The parameters of the vertex `v`. -/
def vertexAt (v : Nat) : Pt K := (((v-1) % 2 : Nat), ((v-1) / 2 % 2 : Nat), ((v-1) / 4 : Nat))

/-- Side `s` of patch `p` and side `t` of patch `q` are different sides and the same piece of the geometry, with equal parameters at equal points. -/
def Coincide (geo : List (List (Pt K))) (p s q t : Nat) : Prop :=
  (p, s) ≠ (q, t) ∧ 1 ≤ p ∧ 1 ≤ q ∧ ∃ P Q, geo[p-1]? = some P ∧ geo[q-1]? = some Q ∧ ∀ a b : K, onPatch P (onSide s a b) = onPatch Q (onSide t a b)

/-- Side `t` of patch `q` is side `s` of patch `p` moved by `h`. -/
def Moved (geo : List (List (Pt K))) (h : Pt K) (p s q t : Nat) : Prop :=
  1 ≤ p ∧ 1 ≤ q ∧ ∃ P Q, geo[p-1]? = some P ∧ geo[q-1]? = some Q ∧ ∀ a b : K, onPatch Q (onSide t a b) = add (onPatch P (onSide s a b)) h

/-- The extent of the domain in direction `d`, as a vector. -/
def extent (g : Gen K) (d : Nat) : Pt K :=
  match d with
  | 0 => (g.Lx*g.scale, 0, 0)
  | 1 => (0, g.Ly*g.scale, 0)
  | _ => (0, 0, g.Lz*g.scale)

/-- The number of patches in direction `d`. -/
def split (g : Gen K) (d : Nat) : Nat :=
  match d with
  | 0 => g.nx
  | 1 => g.ny
  | _ => g.nz

/-- The model is periodic in direction `d`. -/
def periodic (g : Gen K) (d : Nat) : Bool :=
  match d with
  | 0 => g.perX
  | 1 => g.perY
  | _ => g.perZ

/-- `x` is on the side `r` of the domain. -/
def OnDomainSide (g : Gen K) (r : Nat) (x : Pt K) : Prop :=
  match r with
  | 1 => x.1 = g.X0.1
  | 2 => x.1 = g.X0.1 + g.Lx*g.scale
  | 3 => x.2.1 = g.X0.2.1
  | 4 => x.2.1 = g.X0.2.1 + g.Ly*g.scale
  | 5 => x.2.2 = g.X0.2.2
  | _ => x.2.2 = g.X0.2.2 + g.Lz*g.scale

/-- All connections of a model in `dim` dimensions: every pair of coinciding sides is joined once, the upper side in its direction (number 2, 4 or 6) as the master; in a periodic direction
with more than one patch, a lower side on the domain boundary is joined with the side that is moved by the extent of the domain. -/
def Connection (g : Gen K) (dim : Nat) (geo : List (List (Pt K))) (c : Iface) : Prop :=
  c.orient = 0 ∧ c.basis = 0 ∧ c.dim = dim-1 ∧ c.thick = 1 ∧ 1 ≤ c.midx ∧ c.midx ≤ 2*dim ∧ 1 ≤ c.sidx ∧ c.sidx ≤ 2*dim ∧
  ((c.midx % 2 = 0 ∧ Coincide geo c.master c.midx c.slave c.sidx) ∨
   (∃ d < dim, periodic g d = true ∧ 1 < split g d ∧ c.midx = 2*d+1 ∧ c.sidx = 2*d+2 ∧ Moved geo (extent g d) c.master c.midx c.slave c.sidx))

/-- The patches whose own opposite sides are joined: all patches, in every periodic direction with a single patch. -/
def Closed (g : Gen K) (dim : Nat) (geo : List (List (Pt K))) (p d : Nat) : Prop :=
  1 ≤ d ∧ d ≤ dim ∧ periodic g (d-1) = true ∧ split g (d-1) = 1 ∧ 1 ≤ p ∧ p ≤ geo.length

end IFEM.PatchGen.Spec

namespace IFEM.PatchGen.Spec
variable {K : Type} [Field K]

/-- The simulator has read the generated geometry: it knows the number of patches, and two of its patches can be joined without a check of the coordinates, and also with a check if
the two sides coincide. -/
def Ready (s : Sim) (geo : List (List (Pt K))) : Prop :=
  s.fem = true ∧ s.nGl = geo.length ∧ ∀ c chk, (chk = true → Coincide geo c.master c.midx c.slave c.sidx) → s.joins c chk = true

/-- The parameters are in the unit cube. -/
def InCube [LinearOrder K] (q : Pt K) : Prop := 0 ≤ q.1 ∧ q.1 ≤ 1 ∧ 0 ≤ q.2.1 ∧ q.2.1 ≤ 1 ∧ 0 ≤ q.2.2 ∧ q.2.2 ≤ 1

/-- The parameters are inside the unit cube. -/
def InsideCube [LinearOrder K] (q : Pt K) : Prop := 0 < q.1 ∧ q.1 < 1 ∧ 0 < q.2.1 ∧ q.2.1 < 1 ∧ 0 < q.2.2 ∧ q.2.2 < 1

end IFEM.PatchGen.Spec

namespace IFEM.PatchGen.Spec
variable {K : Type} [Field K] [LinearOrder K]

/-- `x` is in the box of a model in `dim` dimensions, which has its lower corner at `X0`; the coordinates that the model does not have are zero. -/
def InBox (g : Gen K) (dim : Nat) (x : Pt K) : Prop :=
  (g.X0.1 ≤ x.1 ∧ x.1 ≤ g.X0.1 + g.Lx*g.scale) ∧
  (if 2 ≤ dim then g.X0.2.1 ≤ x.2.1 ∧ x.2.1 ≤ g.X0.2.1 + g.Ly*g.scale else x.2.1 = 0) ∧
  (if 3 ≤ dim then g.X0.2.2 ≤ x.2.2 ∧ x.2.2 ≤ g.X0.2.2 + g.Lz*g.scale else x.2.2 = 0)

/-- The patches fill the box without overlap: every point of a patch is in the box, every point of the box is on a patch, and no point is inside two patches. -/
def Fills (g : Gen K) (dim : Nat) (geo : List (List (Pt K))) : Prop :=
  (∀ P ∈ geo, ∀ q, InCube q → InBox g dim (onPatch P q)) ∧
  (∀ x, InBox g dim x → ∃ P ∈ geo, ∃ q, InCube q ∧ onPatch P q = x) ∧
  (∀ (p p' : Nat) (P P' : List (Pt K)) (q q' : Pt K), geo[p]? = some P → geo[p']? = some P' → InsideCube q → InsideCube q' → onPatch P q = onPatch P' q' → p = p')

end IFEM.PatchGen.Spec

namespace IFEM.PatchGen.Spec
variable {K : Type} [Field K]

/-- The patch with the global number `p` is number `q` on the process. -/
def Here (s : Sim) (p q : Nat) : Prop := 1 ≤ q ∧ localIndex s p = q

/-- The corner `v` of the domain, in `dim` dimensions. -/
def domainCorner (g : Gen K) (dim v : Nat) : Pt K :=
  (g.X0.1 + ((v-1) % 2 : Nat)*(g.Lx*g.scale),
   if 2 ≤ dim then g.X0.2.1 + ((v-1) / 2 % 2 : Nat)*(g.Ly*g.scale) else 0,
   if 3 ≤ dim then g.X0.2.2 + ((v-1) / 4 : Nat)*(g.Lz*g.scale) else 0)

/-- The items of the set of the domain side `r`: the sides `r` of the patches whose side `r` is on the side `r` of the domain. -/
def SideSet (g : Gen K) (s : Sim) (dim : Nat) (geo : List (List (Pt K))) (r : Nat) (t : Item) : Prop :=
  1 ≤ r ∧ r ≤ 2*dim ∧ t.item = r ∧ t.idim = dim-1 ∧
  ∃ p P, 1 ≤ p ∧ geo[p-1]? = some P ∧ Here s p t.patch ∧ ∀ a b : K, OnDomainSide g r (onPatch P (onSide r a b))

/-- The items of the set of the whole boundary: the sides of patches that coincide with no other side. -/
def BoundarySet (s : Sim) (dim : Nat) (geo : List (List (Pt K))) (t : Item) : Prop :=
  1 ≤ t.item ∧ t.item ≤ 2*dim ∧ t.idim = dim-1 ∧
  ∃ p, 1 ≤ p ∧ p ≤ geo.length ∧ Here s p t.patch ∧ ¬ ∃ q u, 1 ≤ u ∧ u ≤ 2*dim ∧ Coincide geo p t.item q u

/-- The items of the set of the domain corner `v`. -/
def VertexSet (g : Gen K) (s : Sim) (dim : Nat) (geo : List (List (Pt K))) (v : Nat) (t : Item) : Prop :=
  1 ≤ v ∧ v ≤ 2^dim ∧ t.item = v ∧ t.idim = 0 ∧
  ∃ p P, 1 ≤ p ∧ geo[p-1]? = some P ∧ Here s p t.patch ∧ onPatch P (vertexAt v) = domainCorner g dim v

/-- The items of the set of the inner patches: the whole patches without a side on the boundary. -/
def InnerSet (s : Sim) (dim : Nat) (geo : List (List (Pt K))) (t : Item) : Prop :=
  t.item = 0 ∧ t.idim = dim ∧
  ∃ p, 1 ≤ p ∧ p ≤ geo.length ∧ Here s p t.patch ∧ ∀ r, 1 ≤ r → r ≤ 2*dim → ∃ q u, 1 ≤ u ∧ u ≤ 2*dim ∧ Coincide geo p r q u

/-- The edges of a volume as the generator numbers them: the parameters of the point `a` of edge `r`; `1`–`4` run along `v`, `5`–`8` along `w` and `9`–`12` along `u`. -/
def genEdge (r : Nat) (a : K) : Pt K :=
  if r ≤ 4 then (((r-1) % 2 : Nat), a, ((r-1) / 2 : Nat)) else if r ≤ 8 then (((r-5) % 2 : Nat), ((r-5) / 2 : Nat), a) else (a, ((r-9) % 2 : Nat), ((r-9) / 2 : Nat))

/-- The edges of a volume as the patches number them (`ASMs3D::getBoundary1Nodes`, `ASMs3D.C:1830-1885`): `1`–`4` run along `u`, `5`–`8` along `v` and `9`–`12` along `w`. -/
def patchEdge (r : Nat) (a : K) : Pt K :=
  if r ≤ 4 then (a, ((r-1) % 2 : Nat), ((r-1) / 2 : Nat)) else if r ≤ 8 then (((r-5) % 2 : Nat), a, ((r-5) / 2 : Nat)) else (((r-9) % 2 : Nat), ((r-9) / 2 : Nat), a)

/-- The point of the box of the domain at the relative coordinates `q`. -/
def boxPoint (g : Gen K) (q : Pt K) : Pt K := (g.X0.1 + q.1*(g.Lx*g.scale), g.X0.2.1 + q.2.1*(g.Ly*g.scale), g.X0.2.2 + q.2.2*(g.Lz*g.scale))

/-- The items of the set of the domain edge `r`, if edges are numbered by `num`: the edges `r` of the patches whose edge `r` is on the edge `r` of the domain. -/
def EdgeSet (g : Gen K) (s : Sim) (num : Nat → K → Pt K) (geo : List (List (Pt K))) (r : Nat) (t : Item) : Prop :=
  1 ≤ r ∧ r ≤ 12 ∧ t.item = r ∧ t.idim = 1 ∧
  ∃ p P, 1 ≤ p ∧ geo[p-1]? = some P ∧ Here s p t.patch ∧ ∀ a : K, ∃ b : K, onPatch P (num r a) = boxPoint g (num r b)

/-- `x` is on an edge of the domain: on two sides of different directions. -/
def OnFrame (g : Gen K) (x : Pt K) : Prop :=
  ∃ r r', 1 ≤ r ∧ r ≤ 6 ∧ 1 ≤ r' ∧ r' ≤ 6 ∧ (r+1)/2 ≠ (r'+1)/2 ∧ OnDomainSide g r x ∧ OnDomainSide g r' x

end IFEM.PatchGen.Spec
