import Mathlib.Algebra.Field.Defs

/-!
# The generator of multi-patch models

Models `Apps/Utils/MultiPatchModelGenerator.C`, with the parts of `SIMbase` and `SIM1D/2D/3D` that it calls.

Simplifications.  The text of the G2 file is replaced by the list of the control points of the patches: the file is a list of patches with linear bases, all with the knots `0 0 1 1`, and
the control points in the order `u` fastest; the printing of a number (`std::stringstream <<`, six digits) is the parameter `prt`.  A point always has three coordinates; those the file
does not have are zero.  The XML attributes are the fields of `Gen`; `nx`, `ny` and `nz` are positive.  A named topology set is the list of the items inserted in it (`std::set`: only
membership matters).
-/
namespace IFEM.PatchGen

/-- The attributes of the `<geometry>` tag (`MultiPatchModelGenerator.C:92-101, 151-161, 364-376` and the readings in `createG2`). -/
structure Gen (K : Type) where
  nx : Nat := 1
  ny : Nat := 1
  nz : Nat := 1
  perX : Bool := false
  perY : Bool := false
  perZ : Bool := false
  scale : K
  Lx : K
  Ly : K
  Lz : K
  X0 : K × K × K
  sets : Bool := true

abbrev Pt (K : Type) := K × K × K

section geometry
variable {K : Type} [Field K]

/-- `MultiPatchModelGenerator1D::createG2`, `MultiPatchModelGenerator.C:27-80`. -/
def g2_1D (prt : K → K) (g : Gen K) : List (List (Pt K)) :=
  let Lx := g.Lx * g.scale
  let Lx := if g.nx > 1 then Lx / g.nx else Lx
  let n := if g.nx > 1 then g.nx else 1
  (List.range n).map fun (x : Nat) => [(prt (g.X0.1 + x*Lx), 0, 0), (prt (g.X0.1 + (x+1)*Lx), 0, 0)]

/-- The control points of the patch `(x, y)` (`MultiPatchModelGenerator.C:207-229`). -/
def patch2 (prt : K → K) (X0 : Pt K) (Lx Ly : K) (x y : Nat) : List (Pt K) :=
  [(prt (X0.1 + x*Lx), prt (X0.2.1 + y*Ly), 0), (prt (X0.1 + (x+1)*Lx), prt (X0.2.1 + y*Ly), 0),
   (prt (X0.1 + x*Lx), prt (X0.2.1 + (y+1)*Ly), 0), (prt (X0.1 + (x+1)*Lx), prt (X0.2.1 + (y+1)*Ly), 0)]

/-- `MultiPatchModelGenerator2D::createG2`, `MultiPatchModelGenerator.C:164-234`. -/
def g2_2D (prt : K → K) (g : Gen K) : List (List (Pt K)) :=
  let many := g.nx*g.ny > 1
  let Lx := if many then g.Lx * g.scale / g.nx else g.Lx * g.scale
  let Ly := if many then g.Ly * g.scale / g.ny else g.Ly * g.scale
  let nx := if many then g.nx else 1
  let ny := if many then g.ny else 1
  (List.range ny).flatMap fun y => (List.range nx).map fun x => patch2 prt g.X0 Lx Ly x y

/-- The table of corners (`MultiPatchModelGenerator.C:423-431`). -/
def corners : List (Nat × Nat × Nat) := [(0,0,0), (1,0,0), (0,1,0), (1,1,0), (0,0,1), (1,0,1), (0,1,1), (1,1,1)]

/-- The control points of the patch `(x, y, z)` (`MultiPatchModelGenerator.C:443-452`). -/
def patch3 (prt : K → K) (X0 : Pt K) (Lx Ly Lz : K) (x y z : Nat) : List (Pt K) :=
  corners.map fun c =>
    (prt (X0.1 + x*Lx + c.1*Lx), prt (X0.2.1 + y*Ly + c.2.1*Ly), prt (X0.2.2 + z*Lz + c.2.2*Lz))

/-- `MultiPatchModelGenerator3D::createG2`, `MultiPatchModelGenerator.C:379-458`. -/
def g2_3D (prt : K → K) (g : Gen K) : List (List (Pt K)) :=
  let many := g.nx*g.ny*g.nz > 1
  let Lx := if many then g.Lx * g.scale / g.nx else g.Lx * g.scale
  let Ly := if many then g.Ly * g.scale / g.ny else g.Ly * g.scale
  let Lz := if many then g.Lz * g.scale / g.nz else g.Lz * g.scale
  let nx := if many then g.nx else 1
  let ny := if many then g.ny else 1
  let nz := if many then g.nz else 1
  (List.range nz).flatMap fun z => (List.range ny).flatMap fun y => (List.range nx).map fun x => patch3 prt g.X0 Lx Ly Lz x y z

end geometry

/-! ## Connections -/

/-- `ASM::Interface`, `src/ASM/Interface.h:23-33`. -/
structure Iface where
  master : Nat
  slave : Nat
  midx : Nat
  sidx : Nat
  orient : Nat := 0
  dim : Nat
  basis : Nat := 0
  thick : Nat := 1
deriving DecidableEq, Repr

/-- The simulator as the generator sees it. `joins c chk` is the answer of `connectPatch` on the two local patches, with the check of the coordinates if `chk`; `fem` that of
`createFEMmodel`. -/
structure Sim where
  nGl : Nat
  myPatches : List Nat
  nProc : Nat
  fem : Bool
  joins : Iface → Bool → Bool

/-- `SIMbase::getLocalPatchIndex`, `SIMbase.C:157-173`. -/
def localIndex (s : Sim) (p : Nat) : Int :=
  if p < 1 ∨ (p > s.nGl ∧ s.nGl > 0) then -1
  else if s.myPatches = [] ∨ s.nProc = 1 then p
  else match s.myPatches.findIdx? (· == p) with
    | some i => 1 + i
    | none => 0

/-- A signed number stored in a `size_t`. -/
def asSize (x : Int) : Nat := if x < 0 then 2^64 - x.natAbs else x.toNat

/-- How the setup of the topology ends when it does not succeed: it returns `false`, or it uses a null pointer. -/
inductive Err | refused | nullPatch
deriving DecidableEq, Repr

/-- What the setup of the topology leaves: `myInterfaces`, `ghostConnections`, and the calls of `closeBoundaries` (global patch number and direction). -/
structure St where
  interfaces : List Iface := []
  ghosts : List Iface := []
  closed : List (Nat × Nat) := []
deriving DecidableEq, Repr

/-- `SIM1D/2D/3D::connectPatches` (`par` is the dimension), `SIM1D.C:47-79`, `SIM2D.C:66-110`, `SIM3D.C:44-99`. -/
def connectPatches (par : Nat) (s : Sim) (chk : Bool) (c : Iface) (st : St) : Except Err St :=
  if c.master = c.slave ∨ c.master < 1 ∨ c.master > s.nGl ∨ c.slave < 1 ∨ c.slave > s.nGl then .error .refused
  else if par = 3 ∧ c.orient > 7 then .error .refused
  else if localIndex s c.master > 0 ∧ localIndex s c.slave > 0 then
    if c.dim + 1 < par then .ok st
    else if s.joins c chk then .ok { st with interfaces := st.interfaces ++ [c] } else .error .refused
  else .ok { st with ghosts := st.ghosts ++ [c] }

/-- `sim.getPatch(p,true)->closeBoundaries(dir)`, `SIMbase.C:176-180`. -/
def closePatch (s : Sim) (p dir : Nat) (st : St) : Except Err St :=
  if localIndex s p > 0 then .ok { st with closed := st.closed ++ [(p, dir)] } else .error .nullPatch

/-- One step of the setup: a connection (with or without the check of the coordinates), or the closing of a patch. -/
inductive Act
  | join (chk : Bool) (c : Iface)
  | close (p dir : Nat)
deriving DecidableEq, Repr

/-- One call of the setup. -/
def act (par : Nat) (s : Sim) (st : St) : Act → Except Err St
  | .join chk c => connectPatches par s chk c st
  | .close p dir => closePatch s p dir st

/-- The calls in order; the first one that fails ends the setup. -/
def runActs (par : Nat) (s : Sim) (l : List Act) : Except Err St :=
  if s.fem then l.foldlM (act par s) {} else .error .refused

/-- `IJK`, `MultiPatchModelGenerator.C:475` (and `IJ`, `:251`, for `k = 0`). -/
def ijk (nx ny i j k : Nat) : Nat := 1 + (k*ny + j)*nx + i

/-- The calls of `MultiPatchModelGenerator1D::createTopology`, `MultiPatchModelGenerator.C:104-124`. -/
def acts1D {K : Type} (g : Gen K) : List Act :=
  ((List.range (g.nx-1)).map fun i => .join true { master := i+1, slave := i+2, midx := 2, sidx := 1, dim := 0, thick := 1 }) ++
  (if g.perX then
    if g.nx ≤ 1 then [.close 1 1] else [.join false { master := 1, slave := g.nx, midx := 1, sidx := 2, dim := 0, thick := 1 }]
  else [])

/-- The calls of `MultiPatchModelGenerator2D::createTopology`, `MultiPatchModelGenerator.C:246-284`. -/
def acts2D {K : Type} (g : Gen K) : List Act :=
  let ij := fun i j => ijk g.nx g.ny i j 0
  ((List.range g.ny).flatMap fun j => (List.range (g.nx-1)).map fun i =>
    .join true { master := ij i j, slave := ij (i+1) j, midx := 2, sidx := 1, dim := 1, thick := 1 }) ++
  ((List.range (g.ny-1)).flatMap fun j => (List.range g.nx).map fun i =>
    .join true { master := ij i j, slave := ij i (j+1), midx := 4, sidx := 3, dim := 1, thick := 1 }) ++
  (if g.perX then (List.range g.ny).map fun j =>
    if g.nx ≤ 1 then .close (ij 0 j) 1
    else .join false { master := ij 0 j, slave := ij (g.nx-1) j, midx := 1, sidx := 2, dim := 1 }
  else []) ++
  (if g.perY then (List.range g.nx).map fun i =>
    if g.ny ≤ 1 then .close (ij i 0) 2
    else .join false { master := ij i 0, slave := ij i (g.ny-1), midx := 3, sidx := 4, dim := 1 }
  else [])

/-- The calls of `MultiPatchModelGenerator3D::createTopology`, `MultiPatchModelGenerator.C:470-528`. -/
def acts3D {K : Type} (g : Gen K) : List Act :=
  let n := ijk g.nx g.ny
  ((List.range g.nz).flatMap fun k => (List.range g.ny).flatMap fun j => (List.range (g.nx-1)).map fun i =>
    .join true { master := n i j k, slave := n (i+1) j k, midx := 2, sidx := 1, dim := 2, thick := 1 }) ++
  ((List.range g.nz).flatMap fun k => (List.range (g.ny-1)).flatMap fun j => (List.range g.nx).map fun i =>
    .join true { master := n i j k, slave := n i (j+1) k, midx := 4, sidx := 3, dim := 2, thick := 1 }) ++
  ((List.range (g.nz-1)).flatMap fun k => (List.range g.ny).flatMap fun j => (List.range g.nx).map fun i =>
    .join true { master := n i j k, slave := n i j (k+1), midx := 6, sidx := 5, dim := 2, thick := 1 }) ++
  (if g.perX then (List.range g.nz).flatMap fun k => (List.range g.ny).map fun j =>
    if g.nx ≤ 1 then .close (n 0 j k) 1
    else .join false { master := n 0 j k, slave := n (g.nx-1) j k, midx := 1, sidx := 2, dim := 2 }
  else []) ++
  (if g.perY then (List.range g.nz).flatMap fun k => (List.range g.nx).map fun i =>
    if g.ny ≤ 1 then .close (n i 0 k) 2
    else .join false { master := n i 0 k, slave := n i (g.ny-1) k, midx := 3, sidx := 4, dim := 2 }
  else []) ++
  (if g.perZ then (List.range g.ny).flatMap fun j => (List.range g.nx).map fun i =>
    if g.nz ≤ 1 then .close (n i j 0) 3
    else .join false { master := n i j 0, slave := n i j (g.nz-1), midx := 5, sidx := 6, dim := 2 }
  else [])

/-- `MultiPatchModelGenerator1D::createTopology`. -/
def createTopology1D {K : Type} (g : Gen K) (s : Sim) : Except Err St := runActs 1 s (acts1D g)
/-- `MultiPatchModelGenerator2D::createTopology`. -/
def createTopology2D {K : Type} (g : Gen K) (s : Sim) : Except Err St := runActs 2 s (acts2D g)
/-- `MultiPatchModelGenerator3D::createTopology`. -/
def createTopology3D {K : Type} (g : Gen K) (s : Sim) : Except Err St := runActs 3 s (acts3D g)

/-! ## Topology sets -/

/-- The names of the topology sets: `Vertex1`, `Edge3`, `Face6`, `Edge2Patches`, `Face4Patches`, `Boundary`, `BoundaryX` (direction 0), `Corners`, `Frame`, `InnerPatches`. -/
inductive Name
  | vertex (n : Nat)
  | edge (n : Nat)
  | face (n : Nat)
  | edgePatches (n : Nat)
  | facePatches (n : Nat)
  | boundary
  | boundaryDir (d : Nat)
  | corners
  | frame
  | inner
deriving DecidableEq, Repr

/-- `TopItem`, `src/SIM/TopologySet.h:28-40`. -/
structure Item where
  patch : Nat
  item : Nat
  idim : Nat
deriving DecidableEq, Repr

/-- All the named sets: the items with the name of the set they were inserted in. -/
abbrev Sets := List (Name × Item)

/-- `sim.topology(name)`. -/
def setOf (l : Sets) (n : Name) : List Item := (l.filter (·.1 = n)).map (·.2)

/-- The lambdas `insertion` and `insertionv` (`MultiPatchModelGenerator.C:136-142, 304-311, 333-339, 558-576`): the item goes, with its local patch number, in the sets `names`; the patch
as a whole, an item of dimension `pd`, in the set `whole` if there is one. -/
def insertion (s : Sim) (names : List Name) (whole : Option Name) (pd : Nat) (t : Item) : Sets :=
  let p := asSize (localIndex s t.patch)
  if p > 0 then
    names.map (fun n => (n, { t with patch := p })) ++ (match whole with | some w => [(w, { patch := p, item := 0, idim := pd })] | none => [])
  else []

/-- The loop over all patches that fills `InnerPatches` (`MultiPatchModelGenerator.C:345-358, 629-643`): `used` are the local patches in the sets of the sides. -/
def innerPatches (s : Sim) (n pd : Nat) (used : List Nat) : Sets :=
  (List.range' 1 n).flatMap fun i =>
    let j := asSize (localIndex s i)
    if j > 0 ∧ j ∉ used then [(.inner, { patch := j, item := 0, idim := pd })] else []

/-- `MultiPatchModelGenerator1D::createTopologySets`, `MultiPatchModelGenerator.C:127-148`; `none` if no sets are asked for. -/
def createTopologySets1D {K : Type} (g : Gen K) (s : Sim) : Option Sets :=
  if g.sets then
    some (insertion s [.vertex 1, .boundary] none 0 ⟨1, 1, 0⟩ ++ insertion s [.vertex 2, .boundary] none 0 ⟨g.nx, 2, 0⟩)
  else none

/-- The sides of a 2D model (`MultiPatchModelGenerator.C:313-330`). -/
def sides2D {K : Type} (g : Gen K) (s : Sim) : Sets :=
  let a := (List.range g.ny).flatMap fun i =>
    insertion s [.edge 1, .boundary] (some (.edgePatches 1)) 2 ⟨i*g.nx+1, 1, 1⟩ ++
    insertion s [.edge 2, .boundary] (some (.edgePatches 2)) 2 ⟨(i+1)*g.nx, 2, 1⟩
  let xb := (setOf a (.edge 1) ++ setOf a (.edge 2)).map fun e => (Name.boundaryDir 0, e)
  let b := (List.range g.nx).flatMap fun i =>
    insertion s [.edge 3, .boundary] (some (.edgePatches 3)) 2 ⟨i+1, 3, 1⟩ ++
    insertion s [.edge 4, .boundary] (some (.edgePatches 4)) 2 ⟨g.nx*(g.ny-1)+1+i, 4, 1⟩
  let yb := (setOf b (.edge 3) ++ setOf b (.edge 4)).map fun e => (Name.boundaryDir 1, e)
  a ++ xb ++ b ++ yb

/-- The vertices of a 2D model (`MultiPatchModelGenerator.C:332-344`). -/
def vertices2D {K : Type} (g : Gen K) (s : Sim) : Sets :=
  insertion s [.vertex 1, .corners] none 0 ⟨1, 1, 0⟩ ++ insertion s [.vertex 2, .corners] none 0 ⟨g.nx, 2, 0⟩ ++
  insertion s [.vertex 3, .corners] none 0 ⟨g.nx*(g.ny-1)+1, 3, 0⟩ ++ insertion s [.vertex 4, .corners] none 0 ⟨g.nx*g.ny, 4, 0⟩

/-- `MultiPatchModelGenerator2D::createTopologySets`, `MultiPatchModelGenerator.C:287-361`. -/
def createTopologySets2D {K : Type} (g : Gen K) (s : Sim) : Option Sets :=
  if g.sets then
    let l := sides2D g s ++ vertices2D g s
    let used := (List.range' 1 4).flatMap fun i => (setOf l (.edgePatches i)).map (·.patch)
    some (l ++ innerPatches s (g.nx*g.ny) 2 used)
  else none

/-- The faces of a 3D model (`MultiPatchModelGenerator.C:578-593`). -/
def faces3D {K : Type} (g : Gen K) (s : Sim) : Sets :=
  let n := ijk g.nx g.ny
  ((List.range 2).flatMap fun i => (List.range g.nz).flatMap fun k => (List.range g.ny).flatMap fun j =>
    insertion s [.face (1+i), .boundary] (some (.facePatches (1+i))) 3 ⟨n (i*(g.nx-1)) j k, 1+i, 2⟩) ++
  ((List.range 2).flatMap fun j => (List.range g.nz).flatMap fun k => (List.range g.nx).flatMap fun i =>
    insertion s [.face (3+j), .boundary] (some (.facePatches (3+j))) 3 ⟨n i (j*(g.ny-1)) k, 3+j, 2⟩) ++
  ((List.range 2).flatMap fun k => (List.range g.ny).flatMap fun j => (List.range g.nx).flatMap fun i =>
    insertion s [.face (5+k), .boundary] (some (.facePatches (5+k))) 3 ⟨n i j (k*(g.nz-1)), 5+k, 2⟩)

/-- The sets `BoundaryX`, `BoundaryY` and `BoundaryZ` of a 3D model (`MultiPatchModelGenerator.C:595-609`). -/
def boundary3D (l : Sets) : Sets :=
  (List.range 3).flatMap fun d => (List.range' (2*d+1) 2).flatMap fun i => (setOf l (.face i)).map fun e => (Name.boundaryDir d, e)

/-- The vertices of a 3D model (`MultiPatchModelGenerator.C:611-615`). -/
def vertices3D {K : Type} (g : Gen K) (s : Sim) : Sets :=
  (List.range 2).flatMap fun k => (List.range 2).flatMap fun j => (List.range 2).flatMap fun i =>
    insertion s [.vertex (1+i+2*j+4*k), .corners] none 0 ⟨ijk g.nx g.ny (i*(g.nx-1)) (j*(g.ny-1)) (k*(g.nz-1)), 1+i+2*j+4*k, 0⟩

/-- The edges of a 3D model (`MultiPatchModelGenerator.C:617-632`). -/
def edges3D {K : Type} (g : Gen K) (s : Sim) : Sets :=
  let n := ijk g.nx g.ny
  ((List.range 2).flatMap fun k => (List.range 2).flatMap fun i => (List.range g.ny).flatMap fun j =>
    insertion s [.edge (1+i+2*k), .frame] none 0 ⟨n (i*(g.nx-1)) j (k*(g.nz-1)), 1+i+2*k, 1⟩) ++
  ((List.range 2).flatMap fun j => (List.range 2).flatMap fun i => (List.range g.nz).flatMap fun k =>
    insertion s [.edge (5+i+2*j), .frame] none 0 ⟨n (i*(g.nx-1)) (j*(g.ny-1)) k, 5+i+2*j, 1⟩) ++
  ((List.range 2).flatMap fun k => (List.range 2).flatMap fun j => (List.range g.nx).flatMap fun i =>
    insertion s [.edge (9+j+2*k), .frame] none 0 ⟨n i (j*(g.ny-1)) (k*(g.nz-1)), 9+j+2*k, 1⟩)

/-- `MultiPatchModelGenerator3D::createTopologySets`, `MultiPatchModelGenerator.C:531-646`. -/
def createTopologySets3D {K : Type} (g : Gen K) (s : Sim) : Option Sets :=
  if g.sets then
    let f := faces3D g s
    let l := f ++ boundary3D f ++ vertices3D g s ++ edges3D g s
    let used := (List.range' 1 6).flatMap fun i => (setOf l (.facePatches i)).map (·.patch)
    some (l ++ innerPatches s (g.nx*g.ny*g.nz) 3 used)
  else none

end IFEM.PatchGen
