import Verif.Model.Renumber
import Verif.Model.Utilities
import Mathlib.Data.List.Sort
/-!
# Closing of boundaries, and collapsing of edges and faces

Models `closeBoundaries` of `ASMs1D`, `ASMs2D`, `ASMs3D` and the mixed patches, `ASMbase::makePeriodic`, `ASMs2D::collapseEdge` and `ASMs3D::collapseFace`.  The merging of nodes is that of `Model/Renumber.lean`, the periodicity
conditions those of `Model/Patch.lean`.

Simplifications: the sizes of the bases are arguments (`getSize` succeeds); the comparison of the coordinates of two nodes is a parameter; the directions of the thread groups are not modelled.
-/
namespace IFEM.ClosePatch

variable {K : Type} [Field K] [LinearOrder K]

/-- `std::set<int> dofs(utl::getDigits(dirs))` in ascending order (ASMbase.C:807). -/
def digitSet (dirs : Nat) : List Nat := (getDigits dirs).dedup.insertionSort (· ≤ ·)

/-- `ASMbase::makePeriodic` (ASMbase.C:805-813) of patch `q`. -/
def makePeriodic (tol : K) (q : Nat) (dirs : Nat) (M : PatchModel K) (ms : Nat × Nat) : Option (PatchModel K) :=
  match M.patches[q]? with
  | none => some M
  | some p =>
    if (digitSet dirs).length = p.nf ∧ (digitSet dirs).getLast? = some p.nf then some (collapseNodes M q ms.1 q ms.2).2
    else ((digitSet dirs).foldlM (fun p d => (addPeriodicity tol p ms.1 ms.2 d).map Prod.fst) p).map fun p' => { M with patches := M.patches.set q p' }

/-- The loop for the I-direction (ASMs2D.C:763-764, ASMs3D.C:828-829): the calls of `makePeriodic` and the final `master`. -/
def callsI (n1 : Nat) : Nat → Nat → List (Nat × Nat) × Nat
  | 0, m => ([], m)
  | c+1, m => ((m, m+n1-1) :: (callsI n1 c (m+n1)).1, (callsI n1 c (m+n1)).2)

/-- A loop with `master++` (ASMs2D.C:769-770, ASMs3D.C:835-836, 842-843). -/
def callsStep (off : Nat) : Nat → Nat → List (Nat × Nat) × Nat
  | 0, m => ([], m)
  | c+1, m => ((m, m+off) :: (callsStep off c (m+1)).1, (callsStep off c (m+1)).2)

/-- An outer loop (ASMs3D.C:827, 834, 841), with an increment of `master` after the inner one. -/
def callsOuter (inner : Nat → List (Nat × Nat) × Nat) (inc : Nat) : Nat → Nat → List (Nat × Nat) × Nat
  | 0, m => ([], m)
  | c+1, m => ((inner m).1 ++ (callsOuter inner inc c ((inner m).2 + inc)).1, (callsOuter inner inc c ((inner m).2 + inc)).2)

/-- The calls made by `ASMs2D::closeBoundaries` (ASMs2D.C:760-773). -/
def calls2D (dir n1 n2 master : Nat) : List (Nat × Nat) :=
  if dir = 1 then (callsI n1 n2 master).1
  else if dir = 2 then (callsStep (n1*(n2-1)) n1 master).1
  else []

/-- The calls made by `ASMs3D::closeBoundaries` (ASMs3D.C:824-846). -/
def calls3D (dir n1 n2 n3 master : Nat) : List (Nat × Nat) :=
  if dir = 1 then (callsOuter (callsI n1 n2) 0 n3 master).1
  else if dir = 2 then (callsOuter (callsStep (n1*(n2-1)) n1) (n1*(n2-1)) n3 master).1
  else if dir = 3 then (callsOuter (callsStep (n1*n2*(n3-1)) n1) 0 n2 master).1
  else []

/-- `ASMs1D::closeBoundaries` (ASMs1D.C:485-490), with the default argument of `makePeriodic` (ASMbase.h:939). -/
def closeBoundaries1D (tol : K) (q n1 master : Nat) (M : PatchModel K) : Option (PatchModel K) :=
  makePeriodic tol q 123 M (1, master+n1-1)

/-- `ASMs2D::closeBoundaries` (ASMs2D.C:752-774); `nf` is the number of fields of the basis. -/
def closeBoundaries2D (tol : K) (q nf dir n1 n2 master : Nat) (M : PatchModel K) : Option (PatchModel K) :=
  (calls2D dir n1 n2 master).foldlM (makePeriodic tol q (getDirs nf)) M

/-- `ASMs3D::closeBoundaries` (ASMs3D.C:815-847). -/
def closeBoundaries3D (tol : K) (q nf dir n1 n2 n3 master : Nat) (M : PatchModel K) : Option (PatchModel K) :=
  (calls3D dir n1 n2 n3 master).foldlM (makePeriodic tol q (getDirs nf)) M

/-- `ASMs2Dmx::closeBoundaries` (ASMs2Dmx.C:404-412), and the same in 3D with `c` the closing of one basis: number of fields, number of nodes, and sizes of each basis. -/
def closeMixed {σ : Type} (c : Nat → σ → Nat → PatchModel K → Option (PatchModel K)) : List (Nat × Nat × σ) → Nat → PatchModel K → Option (PatchModel K)
  | [], _, M => some M
  | (nf, nb, sz) :: bs, nbi, M =>
    match c nf sz nbi M with
    | none => none
    | some M' => closeMixed c bs (nbi + nb) M'

/-- The loop in `ASMs2D::collapseEdge` (ASMs2D.C:812-827); `same` is the comparison of the coordinates of two nodes. -/
def collapseLoop (same : Nat → Nat → Bool) (q master incn : Nat) : Nat → Nat → PatchModel K → Bool × PatchModel K
  | 0, _, M => (true, M)
  | c+1, node, M =>
    if same node master then collapseLoop same q master incn c (node+incn) (collapseNodes M q master q node).2
    else (false, M)

/-- `ASMs2D::collapseEdge` (ASMs2D.C:777-832); `start` is the first node of the basis. -/
def collapseEdge (same : Nat → Nat → Bool) (swapV : Bool) (q n1 n2 start : Nat) (edge : Nat) (M : PatchModel K) : Bool × PatchModel K :=
  let edge := if swapV = true ∧ edge > 2 then 7 - edge else edge
  if edge = 2 then collapseLoop same q (start+n1-1) n1 (n2-1) (start+n1-1+n1) M
  else if edge = 1 then collapseLoop same q start n1 (n2-1) (start+n1) M
  else if edge = 4 then collapseLoop same q (start+n1*(n2-1)) 1 (n1-1) (start+n1*(n2-1)+1) M
  else if edge = 3 then collapseLoop same q start 1 (n1-1) (start+1) M
  else (false, M)

/-- The lambda in `ASMs3D::collapseFace` (ASMs3D.C:862-881). -/
def collapsePair (same : Nat → Nat → Bool) (q master slave : Nat) (M : PatchModel K) : Bool × PatchModel K :=
  if master = slave then (true, M)
  else if same slave master then (true, (collapseNodes M q master q slave).2)
  else (false, M)

/-- The inner loop over a face (ASMs3D.C:895-918, 931-954, 966-989) with `c` rounds left: result, running `master` and `node`.  `upd last` is the change of `master`, where `last` tells whether this is the last round; `none` for an invalid edge. -/
def faceInner (same : Nat → Nat → Bool) (q inc : Nat) (upd : Bool → Option Int) : Nat → Int → Nat → PatchModel K → Bool × Int × Nat × PatchModel K
  | 0, m, n, M => (true, m, n, M)
  | c+1, m, n, M =>
    let r := collapsePair same q m.toNat n M
    if r.1 then
      match upd (decide (c = 0)) with
      | none => (false, m, n, r.2)
      | some d => faceInner same q inc upd c (m+d) (n+inc) r.2
    else (false, m, n, r.2)

/-- The outer loop over a face (ASMs3D.C:894, 930, 965), with an increment of `node` after the inner one. -/
def faceOuter (same : Nat → Nat → Bool) (q inner inc extra : Nat) (upd : Bool → Option Int) : Nat → Int → Nat → PatchModel K → Bool × PatchModel K
  | 0, _, _, M => (true, M)
  | c+1, m, n, M =>
    let r := faceInner same q inc upd inner m n M
    if r.1 then faceOuter same q inner inc extra upd c r.2.1 (r.2.2.1 + extra) r.2.2.2
    else (false, r.2.2.2)

/-- The change of `master` on faces 1 and 2 (ASMs3D.C:899-917). -/
def updU (n1 n2 : Nat) (iedge : Int) (last : Bool) : Option Int :=
  if iedge = 1 ∨ iedge = 2 then some (n1 - (if last then n1*n2 else 0))
  else if iedge = 3 ∨ iedge = 4 then some (if last then n1*n2 else 0)
  else if iedge = -1 ∨ iedge = -2 then some 0
  else none

/-- The change of `master` on faces 3 and 4 (ASMs3D.C:935-953). -/
def updV (n1 n2 : Nat) (iedge : Int) (last : Bool) : Option Int :=
  if iedge = 1 ∨ iedge = 2 then some (1 - (if last then n1 else 0))
  else if iedge = 3 ∨ iedge = 4 then some (if last then n1*n2 else 0)
  else if iedge = 0 then some 0
  else none

/-- The change of `master` on faces 5 and 6 (ASMs3D.C:970-988). -/
def updW (n1 : Nat) (iedge : Int) (last : Bool) : Option Int :=
  if iedge = 1 ∨ iedge = 2 then some (1 - (if last then n1 else 0))
  else if iedge = 5 ∨ iedge = 6 then some (if last then n1 else 0)
  else if iedge = 0 ∨ iedge = -2 then some 0
  else none

/-- `ASMs3D::collapseFace` (ASMs3D.C:850-1000); `start` is the first node of the basis, and division is that of C. -/
def collapseFace (same : Nat → Nat → Bool) (swapW : Bool) (q n1 n2 n3 start : Nat) (face edge : Int) (M : PatchModel K) : Bool × PatchModel K :=
  let face := if swapW = true ∧ face > 4 then 11 - face else face
  if face = 1 ∨ face = 2 then
    let node := if face = 2 then start + (n1-1) else start
    let iedge := Int.tdiv (edge - face - 2) 2
    let master := if iedge = 2 then node + n1*n2*(n3-1) else if iedge = 4 then node + n1*(n2-1) else node
    faceOuter same q n2 n1 0 (updU n1 n2 iedge) n3 master node M
  else if face = 3 ∨ face = 4 then
    let node := if face = 4 then start + n1*(n2-1) else start
    let iedge := if edge < 9 then Int.tdiv (edge - face + 4) 2 else edge - 2*face
    let master := if iedge = 2 then node + n1*n2*(n3-1) else if iedge = 4 then node + (n1-1) else node
    faceOuter same q n1 1 (n1*(n2-1)) (updV n1 n2 iedge) n3 master node M
  else if face = 5 ∨ face = 6 then
    let node := if face = 6 then start + n1*n2*(n3-1) else start
    faceOuter same q n1 1 0 (updW n1 (edge - 2*face + 10)) n2 node node M
  else (false, M)

end IFEM.ClosePatch
