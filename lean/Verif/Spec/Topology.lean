/-!
# Specification: structured grids

The nodes of a structured grid are numbered with the first direction running fastest. -/
namespace IFEM.Spec

/-- Number of the node in column `I`, row `J` of a grid with `nx` nodes in each row. -/
def gridNode2 (nx I J : Nat) : Nat := I + nx*J

/-- Number of the node at `(I, J, K)` of a grid with `nx x ny` nodes in each layer. -/
def gridNode3 (nx ny I J K : Nat) : Nat := I + nx*(J + ny*K)

/-- `m` lists the elements of a grid of `ex x ey` quadrilaterals of degrees `d1`, `d2`: element `(i, j)` has the nodes of the cell `(i, j)`, in grid order. -/
def QuadMesh (ex ey d1 d2 : Nat) (m : List (List Nat)) : Prop :=
  m.length = ex*ey ∧ ∀ i < ex, ∀ j < ey, ∃ e, m[i + ex*j]? = some e ∧ e.length = (d1+1)*(d2+1) ∧
    ∀ a ≤ d1, ∀ b ≤ d2, e[a + (d1+1)*b]? = some (gridNode2 (ex*d1+1) (d1*i+a) (d2*j+b))

/-- `m` lists the elements of a grid of `ex x ey x ez` hexahedra of degrees `d1`, `d2`, `d3`. -/
def HexMesh (ex ey ez d1 d2 d3 : Nat) (m : List (List Nat)) : Prop :=
  m.length = ex*ey*ez ∧ ∀ i < ex, ∀ j < ey, ∀ k < ez, ∃ e, m[i + ex*(j + ey*k)]? = some e ∧ e.length = (d1+1)*(d2+1)*(d3+1) ∧
    ∀ a ≤ d1, ∀ b ≤ d2, ∀ c ≤ d3, e[a + (d1+1)*(b + (d2+1)*c)]? = some (gridNode3 (ex*d1+1) (ey*d2+1) (d1*i+a) (d2*j+b) (d3*k+c))

/-- The two triangles of cell `(i, j)` of a grid with `nx` nodes in each row; the cell is cut along the diagonal from its lower left corner,
or along the other diagonal if `anti`. -/
def cellTriangles (nx : Nat) (anti : Bool) (i j : Nat) : List Nat × List Nat :=
  let sw := gridNode2 nx i j
  let se := gridNode2 nx (i+1) j
  let nw := gridNode2 nx i (j+1)
  let ne := gridNode2 nx (i+1) (j+1)
  if anti then ([sw, se, nw], [ne, nw, se]) else ([sw, se, ne], [ne, nw, sw])

/-- Alternate diagonals ("Union Jack" pattern) are used if the numbers of nodes in both directions are odd. -/
def antiDiagonal (nx ny i j : Nat) : Bool := nx % 2 = 1 ∧ ny % 2 = 1 ∧ (i + j) % 2 = 1

/-- The first (`side = false`) or last `thick` of `n` layers. -/
def InLayer (side : Bool) (n thick i : Nat) : Prop := if side then n ≤ i + thick else i < thick

/-- Node `(I, J)` of a grid with `n1 x n2` nodes is in the boundary layer of thickness `thick` at local edge 1 (`I` minimal), 2 (`I` maximal), 3 (`J` minimal), 4 (`J` maximal). -/
def GridEdge (n1 n2 edge thick I J : Nat) : Prop :=
  I < n1 ∧ J < n2 ∧ (edge = 1 ∧ InLayer false n1 thick I ∨ edge = 2 ∧ InLayer true n1 thick I ∨ edge = 3 ∧ InLayer false n2 thick J ∨ edge = 4 ∧ InLayer true n2 thick J)

/-- Node `(I, J, K)` of a grid with `n1 x n2 x n3` nodes is in the boundary layer of thickness `thick` at local face 1 (`I` minimal), 2 (`I` maximal), …, 6 (`K` maximal). -/
def GridFace (n1 n2 n3 face thick I J K : Nat) : Prop :=
  I < n1 ∧ J < n2 ∧ K < n3 ∧ (face = 1 ∧ InLayer false n1 thick I ∨ face = 2 ∧ InLayer true n1 thick I ∨ face = 3 ∧ InLayer false n2 thick J ∨
    face = 4 ∧ InLayer true n2 thick J ∨ face = 5 ∧ InLayer false n3 thick K ∨ face = 6 ∧ InLayer true n3 thick K)

/-- The two faces at the ends of a local edge of a volume patch. -/
def edgeEnds (edge : Nat) : Nat × Nat := if edge ≤ 4 then (1, 2) else if edge ≤ 8 then (3, 4) else (5, 6)

/-- The two faces meeting at the local edges 1..12 of a volume patch: edges 1–4 run in the first, 5–8 in the second and 9–12 in the third direction. -/
def edgeFaces (edge : Nat) : Nat × Nat :=
  match edge with
  | 1 => (3, 5) | 2 => (4, 5) | 3 => (3, 6) | 4 => (4, 6)
  | 5 => (1, 5) | 6 => (2, 5) | 7 => (1, 6) | 8 => (2, 6)
  | 9 => (1, 3) | 10 => (2, 3) | 11 => (1, 4) | 12 => (2, 4)
  | _ => (0, 0)

end IFEM.Spec
