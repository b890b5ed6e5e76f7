import Mathlib.Algebra.Field.Defs
import Mathlib.Algebra.Order.Ring.Defs
/-!
# Blocks of visualization elements

Models `ElementBlock` and the connectivity of `SphereBlock` and `CylinderBlock` (src/Utility/ElementBlock.C, ElementBlock.h).  `none` is an access
outside of an array.  The points and the parameters are of any type.
-/
namespace IFEM.VBlk

variable {P Q : Type}

/-- `legalNENs` (ElementBlock.C:27). -/
def legalNENs : List Nat := [2, 3, 4, 6, 8, 9, 27]

/-- The members of `ElementBlock` (ElementBlock.h:117-124). -/
structure Block (P Q : Type) where
  nen : Nat
  coord : List P
  param : List Q
  mmnpc : List Int
  minex : List Int
  elmIdx : List Nat

/-- `ElementBlock::unStructResize` (ElementBlock.C:67-83): the new points, parameters and entries are value-initialized, here by `p0`, `q0` and 0;
existing values are kept by `std::vector::resize`.  With `nEL = 0` and `nMNPC > 0` the code divides by zero. -/
def unStructResize (p0 : P) (q0 : Q) (B : Block P Q) (nEL nPts nMNPC : Nat) : Block P Q :=
  let nen := if nMNPC > 0 then (if nMNPC / nEL * nEL ≠ nMNPC then 0 else nMNPC / nEL) else B.nen
  let n := if nMNPC > 0 then nMNPC else B.nen * nEL
  let m := if nen > 0 then n else n + nEL
  { nen := nen
    coord := B.coord.take nPts ++ List.replicate (nPts - B.coord.length) p0
    param := B.param.take nPts ++ List.replicate (nPts - B.param.length) q0
    mmnpc := B.mmnpc.take m ++ List.replicate (m - B.mmnpc.length) 0
    minex := (List.range nEL).map fun i : Nat => (i : Int) + 1
    elmIdx := B.elmIdx }

/-- `ElementBlock::setCoor(i,X)` (ElementBlock.C:95-101). -/
def setCoor (B : Block P Q) (i : Nat) (X : P) : Block P Q × Bool :=
  if i ≥ B.coord.length then (B, false) else ({ B with coord := B.coord.set i X }, true)

/-- `ElementBlock::setNode` (ElementBlock.C:115-121). -/
def setNode (B : Block P Q) (i : Nat) (n : Int) : Block P Q × Bool :=
  if i ≥ B.mmnpc.length then (B, false) else ({ B with mmnpc := B.mmnpc.set i n }, true)

/-- The loop over the connectivity for elements with `nenod` nodes (ElementBlock.C:140-152); the state is the number of nodes, of elements, the
next position, and the map (an element number outside of it is not modelled: `set` has no effect). -/
def idxPass (nenod : Nat) : List Int → Nat → Nat → Nat → List Nat → Nat × List Nat
  | [], _, _, iEl, idx => (iEl, idx)
  | x :: xs, npc, iEx, iEl, idx =>
    if x < 0 then
      if npc = nenod then idxPass nenod xs 0 (iEx+1) (iEl+1) (idx.set iEx iEl)
      else idxPass nenod xs 0 (iEx+1) iEl idx
    else idxPass nenod xs (npc+1) iEx iEl idx

/-- The loop over the legal numbers of nodes (ElementBlock.C:138-155). -/
def idxLoop (mmnpc : List Int) (nEl : Nat) : List Nat → Nat → List Nat → List Nat
  | [], _, idx => idx
  | n :: ns, iEl, idx =>
    let r := idxPass n mmnpc 0 0 iEl idx
    if r.1 ≥ nEl then r.2 else idxLoop mmnpc nEl ns r.1 r.2

/-- `ElementBlock::endOfElm` (ElementBlock.C:124-159). -/
def endOfElm (B : Block P Q) (i : Nat) : Block P Q × Nat × Bool :=
  if B.nen = 0 then
    if i ≥ B.mmnpc.length then (B, i, false)
    else
      let m := B.mmnpc.set i (-1)
      if i + 1 = m.length then
        ({ B with mmnpc := m
                  elmIdx := idxLoop m B.minex.length legalNENs 0
                    (B.elmIdx.take B.minex.length ++ List.replicate (B.minex.length - B.elmIdx.length) 0) }, i + 1, true)
      else ({ B with mmnpc := m }, i + 1, true)
  else (B, i, true)

/-- `getElmIndex` (ElementBlock.h:74). -/
def getElmIndex (B : Block P Q) (i : Nat) : Nat := if i < B.elmIdx.length then B.elmIdx.getD i 0 else i

/-- The loop over the points of the other block in `merge` (ElementBlock.C:194-202); `same` is `Vec3::operator==`. -/
def mergePoints (same : P → P → Bool) (uniq : Bool) : List P → List P → List Nat → List P × List Nat
  | [], coord, nums => (coord, nums)
  | X :: Xs, coord, nums =>
    match (if uniq then coord.findIdx? (fun c => same c X) else none) with
    | none => mergePoints same uniq Xs (coord ++ [X]) (nums ++ [coord.length])
    | some k => mergePoints same uniq Xs coord (nums ++ [k])

/-- The loop over the connectivity of the other block (ElementBlock.C:204-205). -/
def mergeNodes (nums : List Nat) : List Int → Option (List Int)
  | [] => some []
  | x :: xs =>
    if x < 0 then (mergeNodes nums xs).map fun r => x :: r
    else
      match nums[x.toNat]? with
      | none => none
      | some k => (mergeNodes nums xs).map fun r => (k : Int) :: r

/-- `std::max_element` over a non-empty list. -/
def maxElm : List Int → Int
  | [] => 0
  | x :: xs => xs.foldl max x

/-- `ElementBlock::merge` (ElementBlock.C:188-215): the number of element nodes, the parameters and the index map of this block are kept. -/
def merge (same : P → P → Bool) (B O : Block P Q) (uniq : Bool) : Option (Block P Q × List Nat) :=
  let r := mergePoints same uniq O.coord B.coord []
  match mergeNodes r.2 O.mmnpc with
  | none => none
  | some m =>
    some ({ B with
      coord := r.1
      mmnpc := B.mmnpc ++ m
      minex := if B.minex = [] then O.minex else B.minex ++ O.minex.map fun i => maxElm B.minex + i }, r.2)

/-- The loop of `getElements` for mixed types (ElementBlock.C:251-262): `cur` are the nodes from `itb` on. -/
def elementsOf (nenod : Nat) : List Int → List Int → List Int
  | [], _ => []
  | x :: xs, cur =>
    if x < 0 then (if cur.length = nenod then cur else []) ++ elementsOf nenod xs []
    else elementsOf nenod xs (cur ++ [x])

/-- `ElementBlock::getElements(mnpc,nenod)` (ElementBlock.C:239-265). -/
def getElements (B : Block P Q) (nenod : Nat) : List Int × Bool :=
  if B.nen > 0 then
    if B.nen ≠ nenod then ([], false) else (B.mmnpc, true)
  else
    let m := elementsOf nenod B.mmnpc []
    (m, !m.isEmpty)

/-- The loop of `getCenter` for mixed types (ElementBlock.C:288-303): the nodes of element `i` (1-based). -/
def centerNodes (i : Nat) : List Int → Nat → List Int
  | [], _ => []
  | x :: xs, elm =>
    if x < 0 then (if elm + 1 = i then [] else centerNodes i xs (elm+1))
    else if elm + 1 = i then x :: centerNodes i xs elm else centerNodes i xs elm

/-- `ElementBlock::getCenter` (ElementBlock.C:268-310) for the coordinates, one at a time: `none` is the point returned for an element that does
not exist, `some none` an access outside of an array. -/
def getCenter {K : Type} [Field K] (B : Block K Q) (i : Nat) : Option (Option K) :=
  if i < 1 ∨ i > B.minex.length then none
  else
    let nodes := if B.nen > 0 then (B.mmnpc.drop (B.nen * i - B.nen)).take B.nen else centerNodes i B.mmnpc 0
    if B.nen > 0 ∧ nodes.length < B.nen then some none
    else some ((nodes.mapM fun x => if x < 0 then none else B.coord[x.toNat]?).map fun X =>
      X.sum / ((if B.nen > 0 then B.nen else nodes.length : Nat) : K))

/-- The search for the nodes of element `i` in a block of mixed types (ElementBlock.C:326-331). -/
def findElm (i : Nat) : List Int → Nat → Nat → Option Nat → Option Nat × Option Nat
  | [], _, _, it1 => (it1, none)
  | x :: xs, ip, elm, it1 =>
    if x < 0 ∧ elm + 1 = i + 1 then (it1, some (ip+1))
    else
      let elm' := if x < 0 then elm + 1 else elm
      findElm i xs (ip+1) elm' (if elm' = i ∧ it1 = none then some ip else it1)

/-- The removal of element `i` from the connectivity (ElementBlock.C:318-334). -/
def eraseElm (B : Block P Q) (i : Nat) : List Int :=
  if B.nen > 0 then B.mmnpc.take (B.nen * i) ++ B.mmnpc.drop (B.nen * i + B.nen)
  else
    let r := findElm i B.mmnpc 0 0 none
    B.mmnpc.take (r.1.getD B.mmnpc.length) ++ B.mmnpc.drop (r.2.getD B.mmnpc.length)

/-- `ElementBlock::removeElement` (ElementBlock.C:313-339): each pass of the loop either moves to the next element or removes one, so that there
are as many passes as elements. -/
def removeLoop (iel : Int) : Nat → Nat → Block P Q → Block P Q
  | 0, _, B => B
  | k+1, i, B =>
    match B.minex[i]? with
    | none => B
    | some e =>
      if e = iel then removeLoop iel k i { B with mmnpc := eraseElm B i, minex := B.minex.eraseIdx i }
      else removeLoop iel k (i+1) B

/-- `ElementBlock::removeElement` (ElementBlock.C:313-339): all passes. -/
def removeElement (B : Block P Q) (iel : Int) : Block P Q := removeLoop iel B.minex.length 0 B

/-! ## Spheres and cylinders -/

/-- The calls of `setNode` in the constructor of `SphereBlock` (ElementBlock.C:395-428), with `ip = 0, 1, 2, ..`; the subtractions are of unsigned
integers, as in the code. -/
def sphereNodes (nTheta nPhi : Nat) : List Nat :=
  ((List.range (nTheta - 1)).flatMap fun n =>
    [0, nPhi*n - n + 2, nPhi*(n+1) - n + 1, 0] ++
    ((List.range' 1 (nPhi - 2)).flatMap fun m =>
      [nPhi*n - n + m + 1, nPhi*n - n + m + 2, nPhi*(n+1) - n + m + 1, nPhi*(n+1) - n + m]) ++
    [nPhi*(n+1) - n, 1, 1, nPhi*(n+2) - n - 1]) ++
  [0, (nPhi-1)*(nTheta-1) + 2, 2, 0] ++
  ((List.range' 1 (nPhi - 2)).flatMap fun m =>
    [(nPhi-1)*(nTheta-1) + m + 1, (nPhi-1)*(nTheta-1) + m + 2, m + 2, m + 1]) ++
  [(nPhi-1)*nTheta + 1, 1, 1, nPhi]

/-- The number of points of `SphereBlock` (ElementBlock.C:377). -/
def spherePoints (nTheta nPhi : Nat) : Nat := 2 + (nPhi-1)*nTheta

/-- The calls of `setNode` in the constructor of `CylinderBlock` (ElementBlock.C:452-483). -/
def cylinderNodes (nTheta : Nat) : List Nat :=
  ((List.range (nTheta - 1)).flatMap fun n =>
    [0, 2+n, 1+n, 0] ++ [2+n, 1+n, 2+nTheta+n, 3+nTheta+n] ++ [1+nTheta, 2+nTheta+n, 3+nTheta+n, 1+nTheta]) ++
  [0, 1, nTheta, 0] ++ [1, nTheta, 1+nTheta+nTheta, 2+nTheta] ++ [1+nTheta, 1+nTheta+nTheta, 2+nTheta, 1+nTheta]

/-- The number of points of `CylinderBlock` (ElementBlock.C:435). -/
def cylinderPoints (nTheta : Nat) : Nat := 2 + 2*nTheta

end IFEM.VBlk
