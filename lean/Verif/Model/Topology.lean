/-!
# Element connectivity and boundary nodes of structured patches

Models `createMNPC` of `ASMs1DLag`, `ASMs2DLag`, `ASMs3DLag`, `ASMs1D`, `ASMs2D`, `ASMs3D`, the triangles of `ASMs2DTri`, and the boundary node and element queries
of `ASMs2D`, `ASMs3D` and their Lagrange versions (`src/ASM`).

Simplifications: `int` is unbounded and non-negative (`Nat`); a knot vector enters through the flags telling which of its spans are longer than zero.
-/
namespace IFEM.Topo

/-! ### Lagrange elements -/

/-- `for (int a = 1; a < p1; a++) result[iel][a] = result[iel][a-1] + 1` and the first node (ASMs1DLag.C:591-596). -/
def lagElm1 (p1 iel : Nat) : List Nat :=
  (List.range' 1 (p1-1)).foldl (fun r a => r.set a (r.getD (a-1) 0 + 1)) ((List.replicate p1 0).set 0 ((p1-1)*iel))

/-- `ASMs1DLag::createMNPC` (ASMs1DLag.C:586-599). -/
def lagMNPC1 (nel p1 : Nat) : List (List Nat) := (List.range nel).map fun iel => lagElm1 p1 iel

/-- Row `b` of an element (ASMs2DLag.C:987-992). -/
def lagRow2 (nx p1 corner : Nat) (r : List Nat) (b : Nat) : List Nat :=
  (List.range' 1 (p1-1)).foldl (fun r a => r.set (b*p1+a) (r.getD (b*p1) 0 + a)) (r.set (b*p1) (corner + b*nx))

/-- One element (ASMs2DLag.C:981-992). -/
def lagElm2 (nx p1 p2 i j : Nat) : List Nat :=
  (List.range p2).foldl (lagRow2 nx p1 ((p2-1)*nx*j + (p1-1)*i)) (List.replicate (p1*p2) 0)

/-- `ASMs2DLag::createMNPC` (ASMs2DLag.C:970-994). -/
def lagMNPC2 (nx ny p1 p2 : Nat) : List (List Nat) :=
  (List.range ((ny-1)/(p2-1))).flatMap fun j => (List.range ((nx-1)/(p1-1))).map fun i => lagElm2 nx p1 p2 i j

/-- The innermost loop (ASMs3DLag.C:1299-1303). -/
def lagCol3 (facenod cornod : Nat) (r : List Nat) (a : Nat) : List Nat :=
  let r := r.set (facenod+a) (r.getD facenod 0 + a)
  r.set (cornod+a) (r.getD cornod 0 + a)

/-- The loop over `b` (ASMs3DLag.C:1295-1304). -/
def lagRow3 (nx p1 cornod : Nat) (r : List Nat) (b : Nat) : List Nat :=
  (List.range' 1 (p1-1)).foldl (lagCol3 (cornod + b*p1) cornod) (r.set (cornod + b*p1) (r.getD cornod 0 + b*nx))

/-- The loop over `c` (ASMs3DLag.C:1291-1305). -/
def lagLayer3 (nx ny p1 p2 corner : Nat) (r : List Nat) (c : Nat) : List Nat :=
  (List.range' 1 (p2-1)).foldl (lagRow3 nx p1 (p1*p2*c)) (r.set (p1*p2*c) (corner + c*nx*ny))

/-- One element (ASMs3DLag.C:1287-1305). -/
def lagElm3 (nx ny p1 p2 p3 i j k : Nat) : List Nat :=
  (List.range p3).foldl (lagLayer3 nx ny p1 p2 ((p3-1)*(nx*ny)*k + (p2-1)*nx*j + (p1-1)*i)) (List.replicate (p1*p2*p3) 0)

/-- `ASMs3DLag::createMNPC` (ASMs3DLag.C:1269-1307). -/
def lagMNPC3 (nx ny nz p1 p2 p3 : Nat) : List (List Nat) :=
  (List.range ((nz-1)/(p3-1))).flatMap fun k => (List.range ((ny-1)/(p2-1))).flatMap fun j => (List.range ((nx-1)/(p1-1))).map fun i => lagElm3 nx ny p1 p2 p3 i j k

/-! ### Triangles -/

/-- Two triangles of a quadrilateral (ASMs2DTri.C:61-68). -/
def splitQuad (q : List Nat) : List (List Nat) := [[q.getD 0 0, q.getD 1 0, q.getD 3 0], [q.getD 3 0, q.getD 2 0, q.getD 0 0]]

/-- `myMNPC[iel][2] = myMNPC[iel+1][1]; myMNPC[iel+1][2] = myMNPC[iel][1]` (ASMs2DTri.C:77-78). -/
def flipDiag (m : List (List Nat)) (iel : Nat) : List (List Nat) :=
  let m := m.set iel ((m.getD iel []).set 2 ((m.getD (iel+1) []).getD 1 0))
  m.set (iel+1) ((m.getD (iel+1) []).set 2 ((m.getD iel []).getD 1 0))

/-- The loops over the quadrilaterals (ASMs2DTri.C:73-79); the state is `myMNPC` and `iel`. -/
def unionJack (nx ny : Nat) (m : List (List Nat)) : List (List Nat) :=
  ((List.range (ny-1)).foldl (fun S j => (List.range (nx-1)).foldl
    (fun (S : List (List Nat) × Nat) i => (if i % 2 + j % 2 = 1 then flipDiag S.1 S.2 else S.1, S.2 + 2)) S) (m, 0)).1

/-- `ASMs2DTri::generateFEMTopology` (ASMs2DTri.C:30-83), the connectivity; linear elements only (other orders are refused). -/
def triMNPC (nx ny : Nat) : List (List Nat) :=
  let m := (lagMNPC2 nx ny 2 2).flatMap splitQuad
  if nx % 2 = 1 ∧ ny % 2 = 1 then unionJack nx ny m else m

/-! ### Splines -/

/-- `*(crv->basis().begin()+i1) > *(crv->basis().begin()+i1-1)`, `srf->knotSpan(0,i1-1) > 0.0`: `span` lists for each knot interval whether its length is positive. -/
def isSpan (span : List Bool) (i : Nat) : Bool := span.getD i false

/-- `ASMs1D::createMNPC` (ASMs1D.C:1963-1979): `span.getD (i1-1)` tells whether knot `i1` is greater than knot `i1-1` (counted from zero). -/
def splineMNPC1 (n1 p1 : Nat) (span : List Bool) : List (List Nat) :=
  (List.range' p1 (n1+1-p1)).map fun i1 =>
    if isSpan span (i1-1) then (List.range p1).reverse.map fun j1 => i1-1 - j1 else []

/-- `ASMs2D::createMNPC` (ASMs2D.C:3342-3361). -/
def splineMNPC2 (n1 n2 p1 p2 : Nat) (span1 span2 : List Bool) : List (List Nat) :=
  (List.range' p2 (n2+1-p2)).flatMap fun i2 => (List.range' p1 (n1+1-p1)).map fun i1 =>
    if isSpan span1 (i1-1) && isSpan span2 (i2-1) then
      (List.range p2).reverse.flatMap fun j2 => (List.range p1).reverse.map fun j1 => (i2-1)*n1 + i1-1 - n1*j2 - j1
    else []

/-- `ASMs3D::createMNPC` (ASMs3D.C:3899-3925). -/
def splineMNPC3 (n1 n2 n3 p1 p2 p3 : Nat) (span1 span2 span3 : List Bool) : List (List Nat) :=
  (List.range' p3 (n3+1-p3)).flatMap fun i3 => (List.range' p2 (n2+1-p2)).flatMap fun i2 => (List.range' p1 (n1+1-p1)).map fun i1 =>
    if isSpan span1 (i1-1) && isSpan span2 (i2-1) && isSpan span3 (i3-1) then
      (List.range p3).reverse.flatMap fun j3 => (List.range p2).reverse.flatMap fun j2 => (List.range p1).reverse.map fun j1 =>
        ((i3-1)*n2 + (i2-1))*n1 + i1-1 - n1*n2*j3 - n1*j2 - j1
    else []

/-! ### Boundary nodes

The functions return the (1-based) node indices; for `local = false` the code replaces each by `getNodeID`.  `node0` is the start node of the basis. -/

/-- Loop state: the nodes collected so far and the running node number. -/
abbrev LoopSt := List Nat × Nat

/-- `ASMs2D::getBoundaryNodes` (ASMs2D.C:1497-1543), for any `lIndex`. -/
def boundaryNodes2 (node0 n1 n2 lIndex thick : Nat) : List Nat :=
  if lIndex = 1 ∨ lIndex = 2 then
    ((List.range n2).foldl (fun (S : LoopSt) _ => (S.1 ++ (List.range thick).map fun t => S.2 + t, S.2 + n1)) ([], if lIndex = 2 then node0 + (n1-thick) else node0)).1
  else if lIndex = 3 ∨ lIndex = 4 then
    ((List.range n1).foldl (fun (S : LoopSt) _ => (S.1 ++ (List.range thick).map fun t => S.2 + t*n1, S.2 + 1)) ([], if lIndex = 4 then node0 + n1*(n2-thick) else node0)).1
  else []

/-- `if (swapW && lIndex > 4) lIndex = 11-lIndex` (ASMs3D.C:709-713, 858, 1787). -/
def swapFace (swapW : Bool) (lIndex : Nat) : Nat := if swapW ∧ lIndex > 4 then 11 - lIndex else lIndex

/-- `ASMs3D::getBoundaryNodes` (ASMs3D.C:1770-1827), for any `lIndex`. -/
def boundaryNodes3 (swapW : Bool) (node0 n1 n2 n3 lIndex0 thick : Nat) : List Nat :=
  let lIndex := swapFace swapW lIndex0
  if lIndex = 1 ∨ lIndex = 2 then
    ((List.range n3).foldl (fun (S : LoopSt) _ => (List.range n2).foldl (fun (S : LoopSt) _ => (S.1 ++ (List.range thick).map fun t => S.2 + t, S.2 + n1)) S)
      ([], if lIndex = 2 then node0 + (n1-thick) else node0)).1
  else if lIndex = 3 ∨ lIndex = 4 then
    ((List.range n3).foldl (fun (S : LoopSt) _ =>
      let S' := (List.range n1).foldl (fun (S : LoopSt) _ => (S.1 ++ (List.range thick).map fun t => S.2 + t*n1, S.2 + 1)) S
      (S'.1, S'.2 + n1*(n2-1))) ([], if lIndex = 4 then node0 + n1*(n2-thick) else node0)).1
  else if lIndex = 5 ∨ lIndex = 6 then
    ((List.range n2).foldl (fun (S : LoopSt) _ => (List.range n1).foldl (fun (S : LoopSt) _ => (S.1 ++ (List.range thick).map fun t => S.2 + t*(n1*n2), S.2 + 1)) S)
      ([], if lIndex = 6 then node0 + n1*n2*(n3-thick) else node0)).1
  else []

/-- Account for the swapped direction: `lEdge += (lEdge-1)%4 < 2 ? 2 : -2` (ASMs3D.C:1847-1848). -/
def swapEdge (swapW : Bool) (lEdge : Nat) : Nat := if swapW ∧ lEdge ≤ 8 then (if (lEdge-1) % 4 < 2 then lEdge + 2 else lEdge - 2) else lEdge

/-- Start node of an edge (ASMs3D.C:1858-1881). -/
def edgeStart (node0 n1 n2 n3 lEdge : Nat) : Nat :=
  if lEdge = 6 ∨ lEdge = 10 then node0 + (n1 - 1)
  else if lEdge = 2 ∨ lEdge = 11 then node0 + n1*(n2-1)
  else if lEdge = 12 then node0 + (n1*n2 - 1)
  else if lEdge = 3 ∨ lEdge = 7 then node0 + n1*n2*(n3-1)
  else if lEdge = 8 then node0 + (n1*(n2*(n3-1) + 1) - 1)
  else if lEdge = 4 then node0 + n1*(n2*n3-1)
  else node0

/-- `range` (ASMs3D.C:1850-1856): increment and number of nodes. -/
def edgeRange (n1 n2 n3 lEdge : Nat) : Nat × Nat := if lEdge > 8 then (n1*n2, n3) else if lEdge > 4 then (n1, n2) else (1, n1)

/-- `ASMs3D::getBoundary1Nodes` (ASMs3D.C:1830-1893). -/
def boundary1Nodes3 (swapW : Bool) (node0 n1 n2 n3 lEdge0 : Nat) (isOpen : Bool) : List Nat :=
  let lEdge := swapEdge swapW lEdge0
  let range := edgeRange n1 n2 n3 lEdge
  ((List.range' 1 range.2).foldl (fun (S : LoopSt) i => (if isOpen = false ∨ (i > 1 ∧ i < range.2) then S.1 ++ [S.2] else S.1, S.2 + range.1))
    ([], edgeStart node0 n1 n2 n3 lEdge)).1

/-- `ASMs2D::getCorner` (ASMs2D.C:3244-3260); `I`, `J` are -1 or 1 (or 0). -/
def corner2 (swapV : Bool) (node0 n1 n2 : Nat) (I J : Int) : Nat :=
  let J := if swapV then -J else J
  node0 + (if I > 0 then n1-1 else 0) + (if J > 0 then n1*(n2-1) else 0)

/-- `ASMs3D::getCorner` (ASMs3D.C:3779-3793). -/
def corner3 (swapW : Bool) (node0 n1 n2 n3 : Nat) (I J K : Int) : Nat :=
  let K := if swapW then -K else K
  node0 + (if I > 0 then n1-1 else 0) + (if J > 0 then n1*(n2-1) else 0) + (if K > 0 then n1*n2*(n3-1) else 0)

/-- `ASMs2D::findBoundaryElms`, `ASMs2DLag::findBoundaryElms` (ASMs2D.C:3364-3383, ASMs2DLag.C:996-1014): `N1m`, `N2m` are the numbers of elements in each direction. -/
def boundaryElms2 (N1m N2m lIndex : Nat) : List Nat :=
  if lIndex = 1 ∨ lIndex = 2 then (List.range N2m).map fun i => i*N1m + (lIndex-1)*(N1m-1)
  else if lIndex = 3 ∨ lIndex = 4 then (List.range N1m).map fun i => i + (lIndex-3)*N1m*(N2m-1)
  else []

/-- `ASMs3D::findBoundaryElms`, `ASMs3DLag::findBoundaryElms` (ASMs3D.C:3927-3957, ASMs3DLag.C:1310-1340). -/
def boundaryElms3 (N1m N2m N3m lIndex : Nat) : List Nat :=
  if lIndex = 1 ∨ lIndex = 2 then (List.range N3m).flatMap fun k => (List.range N2m).map fun j => j*N1m + k*N1m*N2m + (lIndex-1)*(N1m-1)
  else if lIndex = 3 ∨ lIndex = 4 then (List.range N3m).flatMap fun k => (List.range N1m).map fun i => i + k*N1m*N2m + (lIndex-3)*(N1m*(N2m-1))
  else if lIndex = 5 ∨ lIndex = 6 then (List.range N2m).flatMap fun j => (List.range N1m).map fun i => i + j*N1m + (lIndex-5)*(N1m*N2m*(N3m-1))
  else []

/-! ### Connection of patches -/

/-- `if (swapV && edge > 2) edge = 7-edge` (ASMs2D.C:683-687). -/
def swapEdge2 (swapV : Bool) (edge : Nat) : Nat := if swapV ∧ edge > 2 then 7 - edge else edge

/-- The loop of `ASMs2D::connectBasis` (ASMs2D.C:729-748): the node pairs (of the neighbour and of this patch) which are collapsed, in order, and the return value.
`same m s` tells whether the two nodes are co-located (always true without coordinate check). -/
def connectLoop2 (same : Nat → Nat → Bool) (masterNodes slaveNodes : List Nat) (revers : Bool) : List Nat → List (Nat × Nat) → List (Nat × Nat) × Bool
  | [], acc => (acc, true)
  | i :: is, acc =>
    let mnode := masterNodes.getD i 0
    let snode := slaveNodes.getD (if revers then slaveNodes.length - i - 1 else i) 0
    if same mnode snode then connectLoop2 same masterNodes slaveNodes revers is (acc ++ [(mnode, snode)]) else (acc, false)

/-- Structured surface patch: number of nodes in each direction, and whether the second direction has been swapped. -/
structure Surf where
  n1 : Nat
  n2 : Nat
  swapV : Bool

/-- `ASMs2D::connectPatch` (ASMs2D.C:676-695) with `ASMs2D::connectBasis` (698-751), one basis, patches that do not share FE data. -/
def connectPatch2 (same : Nat → Nat → Bool) (p : Surf) (edge : Nat) (q : Surf) (nedge : Nat) (revers : Bool) (thick : Nat) : List (Nat × Nat) × Bool :=
  let slaveNodes := boundaryNodes2 1 p.n1 p.n2 (swapEdge2 p.swapV edge) thick
  let masterNodes := boundaryNodes2 1 q.n1 q.n2 (swapEdge2 q.swapV nedge) thick
  if masterNodes = [] ∨ masterNodes.length ≠ slaveNodes.length then ([], false)
  else connectLoop2 same masterNodes slaveNodes revers (List.range masterNodes.length) []

/-- Structured volume patch. -/
structure Vol where
  n1 : Nat
  n2 : Nat
  n3 : Nat
  swapW : Bool

/-- `ASMs3D::getFaceSize` (ASMs3D.C:3796-3810). -/
def faceSize (p : Vol) (face : Nat) : Nat × Nat :=
  if face = 1 ∨ face = 2 then (p.n2, p.n3) else if face = 3 ∨ face = 4 then (p.n1, p.n3) else if face ≠ 5 ∧ face ≠ 6 then (0, 0) else (p.n1, p.n2)

/-- The matching position on this patch's face (ASMs3D.C:780-791): `n1 x n2` are the sizes of the neighbour's face, `m1 x m2` those of this face. -/
def orient (norient n1 n2 m1 m2 i j : Nat) : Nat × Nat :=
  if norient = 0 then (i, j)
  else if norient = 1 then (i, n2-j-1)
  else if norient = 2 then (n1-i-1, j)
  else if norient = 3 then (n1-i-1, n2-j-1)
  else if norient = 4 then (j, i)
  else if norient = 5 then (j, m2-i-1)
  else if norient = 6 then (m1-j-1, i)
  else (m1-j-1, m2-i-1)

/-- Innermost statements of `connectBasis` (ASMs3D.C:793-810); the state is the collapsed pairs and the number of failures. -/
def connectOne3 (same : Nat → Nat → Bool) (mnode snode : Nat) (S : List (Nat × Nat) × Nat) : List (Nat × Nat) × Nat :=
  if same mnode snode then (S.1 ++ [(mnode, snode)], S.2) else (S.1, S.2 + 1)

/-- `ASMs3D::connectBasis` (ASMs3D.C:722-814), patches that do not share FE data. -/
def connectBasis3 (same : Nat → Nat → Bool) (p : Vol) (face : Nat) (q : Vol) (nface norient thick : Nat) : List (Nat × Nat) × Bool :=
  if norient > 7 then ([], false)
  else
    let m := faceSize p face
    let n := faceSize q nface
    let n' := if norient > 3 then (n.2, n.1) else n
    let slaveNodes := boundaryNodes3 p.swapW 1 p.n1 p.n2 p.n3 face thick
    let masterNodes := boundaryNodes3 q.swapW 1 q.n1 q.n2 q.n3 nface thick
    if n'.1 = 0 ∨ n'.2 = 0 ∨ n' ≠ m then ([], false)
    else
      let S := (List.range n.2).foldl (fun S j => (List.range n.1).foldl (fun S i => (List.range thick).foldl (fun S t =>
        let kl := orient norient n.1 n.2 m.1 m.2 i j
        connectOne3 same (masterNodes.getD ((j*n.1+i)*thick+t) 0) (slaveNodes.getD ((kl.2*m.1+kl.1)*thick+t) 0) S) S) S) ([], 0)
      (S.1, S.2 == 0)

/-- `ASMs3D::connectPatch` (ASMs3D.C:702-719). -/
def connectPatch3 (same : Nat → Nat → Bool) (p : Vol) (face : Nat) (q : Vol) (nface norient thick : Nat) : List (Nat × Nat) × Bool :=
  connectBasis3 same p (swapFace p.swapW face) q (swapFace q.swapW nface) norient thick

end IFEM.Topo
