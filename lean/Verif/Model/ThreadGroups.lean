import Verif.Model.Arrays
/-!
# Model of the threading groups

`src/Utility/ThreadGroups.C`, `src/Utility/ThreadGroups.h`, and their callers in the structured patches
(`src/ASM/ASMs2D.C`, `ASMs3D.C`, `ASMs2DLag.C`, `ASMs3DLag.C`, `ASMs2DTri.C`), for a build with OpenMP.

Simplifications: sizes and counters are natural numbers (`int`/`size_t` without overflow, no negative sizes);
`omp_get_max_threads()` is a parameter `threads`; `reserve` and print-out are left out.
-/
namespace IFEM.Threads

/-- `ThreadGroups::StripDirection` (ThreadGroups.h:33). -/
inductive StripDir
  | NONE | U | V | W | ANY
  deriving DecidableEq, Repr

/-- `ThreadGroups` (ThreadGroups.h:25-113): `stripDir`, `tg[0]`, `tg[1]`. -/
structure Groups where
  stripDir : StripDir
  tg0 : List (List Int)
  tg1 : List (List Int)
  deriving Repr

/-- The default constructor (ThreadGroups.h:36). -/
def Groups.new (dir : StripDir := .ANY) : Groups := ⟨dir, [], []⟩

/-- `operator[]` (ThreadGroups.h:90-92) for `i = 0, 1`. -/
def Groups.grp (G : Groups) (i : Nat) : List (List Int) := if i = 0 then G.tg0 else G.tg1

/-- `ThreadGroups::size` (ThreadGroups.h:86). -/
def Groups.size (G : Groups) : Nat := if G.tg1.isEmpty then 1 else 2

/-- `std::vector::resize(n,x)`: existing entries are kept, new ones are set to `x`. -/
def vresize {α : Type} (l : List α) (n : Nat) (x : α) : List α := l.take n ++ List.replicate (n - l.length) x

/-- `ThreadGroups::oneGroup(nel)` (ThreadGroups.C:45-51). -/
def oneGroup (G : Groups) (nel : Nat) : Groups :=
  { G with tg0 := [(List.range nel).map Int.ofNat], tg1 := [] }

/-- `ThreadGroups::oneGroup(nel,elms)` (ThreadGroups.C:54-62); `resize(1,x)` keeps an already present first list. -/
def oneGroupOf (G : Groups) (nel : Nat) (elms : List Int) : Groups :=
  match elms with
  | [] => oneGroup G nel
  | e :: _ => { G with tg0 := vresize G.tg0 1 (if 0 ≤ e then elms else []), tg1 := [] }

/-- The loop of `oneStripe` (ThreadGroups.C:69-70, 82-83): `tg[0][iel].resize(1,e)` for consecutive lists and elements;
`resize` keeps an already present first element. -/
def stripeLoop (lists : List (List Int)) (elms : List Int) : List (List Int) :=
  List.zipWith (fun l e => vresize l 1 e) lists elms

/-- `ThreadGroups::oneStripe(nel)` (ThreadGroups.C:65-71). -/
def oneStripe (G : Groups) (nel : Nat) : Groups :=
  { G with tg0 := stripeLoop (vresize G.tg0 nel []) ((List.range nel).map Int.ofNat), tg1 := [] }

/-- `ThreadGroups::oneStripe(nel,elms)` (ThreadGroups.C:74-85). -/
def oneStripeOf (G : Groups) (nel : Nat) (elms : List Int) : Groups :=
  match elms with
  | [] => oneStripe G nel
  | e :: _ =>
    let tg := vresize G.tg0 elms.length []
    { G with tg0 := if 0 ≤ e then stripeLoop tg elms else tg, tg1 := [] }

/-- `ThreadGroups::getStripDirection(nel1,nel2,parts)` (ThreadGroups.C:426-441). -/
def stripDirection2 (nel1 nel2 parts : Nat) : StripDir :=
  let r1 := nel1 - nel1/parts*parts
  let r2 := nel2 - nel2/parts*parts
  if r1*nel2 < r2*nel1 then .U
  else if r1*nel2 > r2*nel1 then .V
  else if nel1 > nel2 then .U else .V

/-- `ThreadGroups::getStripDirection(nel1,nel2,nel3,parts)` (ThreadGroups.C:444-478). -/
def stripDirection3 (nel1 nel2 nel3 parts : Nat) : StripDir :=
  let r1 := nel1 - nel1/parts*parts
  let r2 := nel2 - nel2/parts*parts
  let r3 := nel3 - nel3/parts*parts
  if r1*nel2*nel3 < nel1*r2*nel3 ∧ r1*nel2*nel3 < nel1*nel2*r3 then .U
  else if nel1*r2*nel3 < r1*nel2*nel3 ∧ nel1*r2*nel3 < nel1*nel2*r3 then .V
  else if nel1*nel2*r3 < r1*nel2*nel3 ∧ nel1*nel2*r3 < nel1*r2*nel3 then .W
  else if r1*nel2*nel3 > nel1*r2*nel3 then (if nel2 > nel3 then .V else .W)
  else if nel1*r2*nel3 > nel1*nel2*r3 then (if nel1 > nel3 then .U else .W)
  else if nel1*nel2*r3 > r1*nel2*nel3 then (if nel1 > nel2 then .U else .V)
  else if nel1 ≥ nel2 ∧ nel1 ≥ nel3 then .U
  else if nel2 ≥ nel1 ∧ nel2 ≥ nel3 then .V
  else .W

/-- `parts = threads > 1 ? 2*threads : 1` (ThreadGroups.C:101, 190, 267, 360). -/
def numParts (threads : Nat) : Nat := if threads > 1 then 2*threads else 1

/-- The loop reducing the number of threads (ThreadGroups.C:111-120, 197-206, 277-286, 367-376):
the arguments are `threads` and `parts`, the result is `threads` and `stripsize` (for `threads > 1`). -/
def shrink (els minsize : Nat) : Nat → Nat → Nat × Nat
  | t+2, parts => if els/parts < minsize then shrink els minsize (t+1) (parts-2) else (t+2, els/parts)
  | t, _ => (t, els)

/-- The body of the loop spreading the remainder (ThreadGroups.C:142-143, 225-226, 309-310, 394-395). -/
def bump (threads : Nat) (s : List Nat × List Nat) (i : Nat) : Option (List Nat × List Nat) :=
  if i % 2 = 0 then (add0? s.1 ((threads : Int) - ((i+1)/2 : Nat)) 1).map (fun l => (l, s.2))
  else (add0? s.2 ((threads : Int) - ((i+1)/2 : Nat)) 1).map (fun l => (s.1, l))

/-- The array `stripsizes` (ThreadGroups.C:140-143, 223-226, 307-310, 392-395). -/
def stripSizes (threads stripsize remainder : Nat) : Option (List Nat × List Nat) :=
  (List.range' 1 remainder).foldlM (bump threads)
    (List.replicate threads stripsize, List.replicate threads stripsize)

/-- The offsets of the strips (ThreadGroups.C:228-233, 398-403), before multiplication with `mul`: pairs of
start and width, alternating between the two groups. -/
def cutPlain : Nat → List Nat → List Nat → List ((Nat × Nat) × (Nat × Nat))
  | offs, a :: s0, b :: s1 => ((offs, a), (offs + a, b)) :: cutPlain (offs + a + b) s0 s1
  | _, _, _ => []

/-- `for (i = zspan = 0; i < n; offs++) if (elz[j++]) i++; else zspan++;` (ThreadGroups.C:149-154, 157-162, 316-321,
324-329): the number of steps taken when `n` further non-zero spans are needed, where the list is the rest of `elz` from `j`;
`none` when the loop leaves the array.  The new width `stripsizes += zspan` is the number of steps. -/
def scan : List Bool → Nat → Option Nat
  | _, 0 => some 0
  | [], _+1 => none
  | true :: z, n+1 => (scan z n).map (· + 1)
  | false :: z, n+1 => (scan z (n+1)).map (· + 1)

/-- The offsets and widths of the strips in presence of zero spans (ThreadGroups.C:147-163, 314-330). -/
def cutZero (elz : List Bool) : Nat → List Nat → List Nat → Option (List ((Nat × Nat) × (Nat × Nat)))
  | offs, a :: s0, b :: s1 => do
    let w0 ← scan (elz.drop offs) a
    let w1 ← scan (elz.drop (offs + w0)) b
    let rest ← cutZero elz (offs + w0 + w1) s0 s1
    some (((offs, w0), (offs + w0, w1)) :: rest)
  | _, _, _ => some []

/-- `start + i1 + i2*nel1` for all `i1 < maxx`, `i2 < maxy` (ThreadGroups.C:171-173, 240-242). -/
def block2 (start maxx maxy nel1 : Nat) : List Int :=
  (List.range maxy).flatMap fun i2 => (List.range maxx).map fun i1 => ((start + i1 + i2*nel1 : Nat) : Int)

/-- `start + i1 + nel1*(i2+nel2*i3)` (ThreadGroups.C:339-342, 411-414). -/
def block3 (start maxx maxy maxz nel1 nel2 : Nat) : List Int :=
  (List.range maxz).flatMap fun i3 => (List.range maxy).flatMap fun i2 =>
    (List.range maxx).map fun i1 => ((start + i1 + nel1*(i2+nel2*i3) : Nat) : Int)

/-- The elements of one strip in 2D (ThreadGroups.C:104, 148, 168-173, 193, 229, 238-242): `c` is offset and width. -/
def strip2 (dir : StripDir) (nel1 nel2 : Nat) (c : Nat × Nat) : List Int :=
  block2 (c.1 * (if dir = .U then 1 else nel1)) (if dir = .U then c.2 else nel1) (if dir = .V then c.2 else nel2) nel1

/-- The elements of one strip in 3D (ThreadGroups.C:270, 315, 335-342, 363, 399, 408-414). -/
def strip3 (dir : StripDir) (nel1 nel2 nel3 : Nat) (c : Nat × Nat) : List Int :=
  block3 (c.1 * (if dir = .U then 1 else nel1 * (if dir = .V then 1 else nel2)))
    (if dir = .U then c.2 else nel1) (if dir = .V then c.2 else nel2) (if dir = .W then c.2 else nel3) nel1 nel2

/-- `tg[i].resize(threads)`, then `push_back` of the elements of each strip (ThreadGroups.C:165-174, 235-243, 332-343, 405-415). -/
def pushStrips (old : List (List Int)) (threads : Nat) (strips : List (List Int)) : List (List Int) :=
  List.zipWith (· ++ ·) (vresize old threads []) strips

/-- The groups of a partitioning with more than one thread; `strip` gives the elements of a strip. -/
def fillGroups (G : Groups) (dir : StripDir) (threads : Nat) (strip : Nat × Nat → List Int) (cuts : List ((Nat × Nat) × (Nat × Nat))) : Groups :=
  { stripDir := dir
    tg0 := pushStrips G.tg0 threads (cuts.map fun c => strip c.1)
    tg1 := pushStrips G.tg1 threads (cuts.map fun c => strip c.2) }

/-- The part of `calcGroups` common to all versions, after the strip direction is known (ThreadGroups.C:105-180, 194-249, 271-350,
364-422): `els` is the number of (non-zero) spans in the strip direction, `nelTot` the number of elements, `cut` computes the strips. -/
def calcCommon (G : Groups) (dir : StripDir) (threads els minsize nelTot : Nat) (strip : Nat × Nat → List Int)
    (cut : List Nat → List Nat → Option (List ((Nat × Nat) × (Nat × Nat)))) : Option Groups :=
  let ts := shrink els minsize threads (numParts threads)
  if ts.1 = 1 then some (oneGroup { G with stripDir := dir } nelTot)
  else do
    let s ← stripSizes ts.1 ts.2 (els - ts.2*(2*ts.1))
    let cuts ← cut s.1 s.2
    some (fillGroups G dir ts.1 strip cuts)

/-- The number of non-zero spans (ThreadGroups.C:96-98, 261-264). -/
def countSpans (el : List Bool) : Nat := el.countP (fun e => e)

/-- `ThreadGroups::calcGroups(nel1,nel2,minsize)` (ThreadGroups.C:184-250). -/
def calcGroups2 (threads : Nat) (G : Groups) (nel1 nel2 minsize : Nat) : Option Groups :=
  let dir := if G.stripDir = .ANY then stripDirection2 nel1 nel2 (numParts threads) else G.stripDir
  calcCommon G dir threads (if dir = .U then nel1 else nel2) minsize (nel1*nel2)
    (strip2 dir nel1 nel2) (fun s0 s1 => some (cutPlain 0 s0 s1))

/-- `ThreadGroups::calcGroups(el1,el2,p1,p2)` (ThreadGroups.C:88-181). -/
def calcGroups2z (threads : Nat) (G : Groups) (el1 el2 : List Bool) (p1 p2 : Nat) : Option Groups :=
  let dir := if G.stripDir = .ANY then stripDirection2 (countSpans el1) (countSpans el2) (numParts threads) else G.stripDir
  calcCommon G dir threads (if dir = .U then countSpans el1 else countSpans el2) (if dir = .U then p1 else p2)
    (el1.length*el2.length) (strip2 dir el1.length el2.length) (cutZero (if dir = .U then el1 else el2) 0)

/-- `ThreadGroups::calcGroups(nel1,nel2,nel3,minsize)` (ThreadGroups.C:354-423). -/
def calcGroups3 (threads : Nat) (G : Groups) (nel1 nel2 nel3 minsize : Nat) : Option Groups :=
  let dir := if G.stripDir = .ANY then stripDirection3 nel1 nel2 nel3 (numParts threads) else G.stripDir
  calcCommon G dir threads (if dir = .U then nel1 else if dir = .V then nel2 else nel3) minsize (nel1*nel2*nel3)
    (strip3 dir nel1 nel2 nel3) (fun s0 s1 => some (cutPlain 0 s0 s1))

/-- `ThreadGroups::calcGroups(el1,el2,el3,p1,p2,p3)` (ThreadGroups.C:253-351). -/
def calcGroups3z (threads : Nat) (G : Groups) (el1 el2 el3 : List Bool) (p1 p2 p3 : Nat) : Option Groups :=
  let dir := if G.stripDir = .ANY then stripDirection3 (countSpans el1) (countSpans el2) (countSpans el3) (numParts threads) else G.stripDir
  calcCommon G dir threads (if dir = .U then countSpans el1 else if dir = .V then countSpans el2 else countSpans el3)
    (if dir = .U then p1 else if dir = .V then p2 else p3)
    (el1.length*el2.length*el3.length) (strip3 dir el1.length el2.length el3.length)
    (cutZero (if dir = .U then el1 else if dir = .V then el2 else el3) 0)

/-- `ThreadGroups::applyMap` (ThreadGroups.C:481-487). -/
def applyMap (G : Groups) (map : List Int) : Option Groups := do
  let t0 ← G.tg0.mapM fun l => l.mapM (at0? map)
  let t1 ← G.tg1.mapM fun l => l.mapM (at0? map)
  some { G with tg0 := t0, tg1 := t1 }

/-- `ThreadGroups::filter` (ThreadGroups.C:490-504); the strip direction of the result is the default. -/
def filterGroups (G : Groups) (elmList : List Int) : Groups :=
  { stripDir := .ANY
    tg0 := G.tg0.map fun l => l.filter fun e => elmList.contains e
    tg1 := G.tg1.map fun l => l.filter fun e => elmList.contains e }

/-! ### Callers -/

/-- The in-place loop of `ASMs2DTri::generateThreadGroups` on one thread list (ASMs2DTri.C:595-603): every quadrilateral `q` becomes
the triangles `2q`, `2q+1`.  The backward loop is written as a map, since it reads entry `i` before entries `2i`, `2i+1` are written. -/
def triangulate (l : List Int) : List Int := l.flatMap fun q => [2*q, 2*q+1]

/-- `ASMs2DTri::generateThreadGroups` (ASMs2DTri.C:582-612); `nel` is the number of triangles (ASMs2DTri.C:50-51). -/
def triGroups (threads : Nat) (G : Groups) (nx ny : Nat) : Option Groups :=
  (if G.stripDir = .NONE then some (oneGroup G (2*((nx-1)*(ny-1)))) else calcGroups2 threads G (nx-1) (ny-1) 1).map
    fun G' => { G' with tg0 := G'.tg0.map triangulate, tg1 := G'.tg1.map triangulate }

/-- `ASMs2DLag::generateThreadGroups` (ASMs2DLag.C:932-940), `nel` the number of elements. -/
def lagGroups2 (threads : Nat) (G : Groups) (nx ny p1 p2 : Nat) : Option Groups :=
  if G.stripDir = .NONE then some (oneGroup G ((nx-1)/(p1-1)*((ny-1)/(p2-1))))
  else calcGroups2 threads G ((nx-1)/(p1-1)) ((ny-1)/(p2-1)) 1

/-- `ASMs3DLag::generateThreadGroups` (ASMs3DLag.C:1197-1205). -/
def lagGroups3 (threads : Nat) (G : Groups) (nx ny nz p1 p2 p3 : Nat) : Option Groups :=
  if G.stripDir = .NONE then some (oneGroup G ((nx-1)/(p1-1)*((ny-1)/(p2-1))*((nz-1)/(p3-1))))
  else calcGroups3 threads G ((nx-1)/(p1-1)) ((ny-1)/(p2-1)) ((nz-1)/(p3-1)) 1

/-- `ASMs2D::generateThreadGroups` (ASMs2D.C:3067-3112), for the geometry basis: `el1`, `el2` flag the non-zero knot spans. -/
def splineGroups2 (threads : Nat) (G : Groups) (el1 el2 : List Bool) (p1 p2 : Nat) : Option Groups :=
  if G.stripDir = .NONE then some (oneGroup G (el1.length*el2.length)) else calcGroups2z threads G el1 el2 p1 p2

/-- `ASMs3D::generateThreadGroups` (ASMs3D.C:3506-3562), for the geometry basis. -/
def splineGroups3 (threads : Nat) (G : Groups) (el1 el2 el3 : List Bool) (p1 p2 p3 : Nat) : Option Groups :=
  if G.stripDir = .NONE then some (oneGroup G (el1.length*el2.length*el3.length)) else calcGroups3z threads G el1 el2 el3 p1 p2 p3

/-- `ASMs3D::findBoundaryElms` (ASMs3D.C:3927-3956). -/
def boundaryElms3 (N1 N2 N3 lIndex : Nat) : List Int :=
  if lIndex = 1 ∨ lIndex = 2 then
    (List.range N3).flatMap fun k => (List.range N2).map fun j => ((j*N1 + k*N1*N2 + (lIndex-1)*(N1-1) : Nat) : Int)
  else if lIndex = 3 ∨ lIndex = 4 then
    (List.range N3).flatMap fun k => (List.range N1).map fun i => ((i + k*N1*N2 + (lIndex-3)*(N1*(N2-1)) : Nat) : Int)
  else if lIndex = 5 ∨ lIndex = 6 then
    (List.range N2).flatMap fun j => (List.range N1).map fun i => ((i + j*N1 + (lIndex-5)*(N1*N2*(N3-1)) : Nat) : Int)
  else []

/-- `ASMs3D::generateThreadGroups(lIndex,...)` (ASMs3D.C:3609-3670): `old` is the entry of `threadGroupsFace` for the face, if any. -/
def faceGroups3 (threads : Nat) (old : Option Groups) (el1 el2 el3 : List Bool) (p1 p2 p3 lIndex : Nat) : Option Groups :=
  match old with
  | some G => some (if G.stripDir = .NONE then oneGroup G (el1.length*el2.length*el3.length) else G)
  | none => do
    let G ← if lIndex = 1 ∨ lIndex = 2 then calcGroups2z threads .new el2 el3 p2 p3
      else if lIndex = 3 ∨ lIndex = 4 then calcGroups2z threads .new el1 el3 p1 p3
      else calcGroups2z threads .new el1 el2 p1 p2
    applyMap G (boundaryElms3 el1.length el2.length el3.length lIndex)

end IFEM.Threads
