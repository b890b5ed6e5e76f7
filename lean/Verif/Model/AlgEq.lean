import Verif.Model.Assem
/-!
# Element assembly into an algebraic equation system

Models the remaining `SAM::assembleSystem` overloads and the part of `AlgEqSystem::assemble` for one
system matrix and one right-hand-side vector.
-/
namespace IFEM
variable {R : Type} [CommRing R]

/-- `matrix::empty()` (src/LinAlg/matrix.h:307-320: no elements stored). -/
def Mat.isEmpty (m : Mat R) : Bool := m.elem.isEmpty

namespace Sam

/-- `SAM::assembleSystem(sysK,sysRHS,eK,iel)` (SAM.C:430-467) without reaction forces, for dense storage. -/
def assembleMat (s : Sam R) (K : Mat R) (B : List R) (eK : Mat R) (iel : Int) :
    Option (Mat R × List R) :=
  if eK.isEmpty then some (K, B) else s.assembleDense K B eK iel

/-- Body of the `j`-loop of `SAM::assembleSystem(sysRHS,eK,iel)` (SAM.C:493-508), without reactions:
`assembleRHS(sysRHS, -c0*eK(i,j), meen[i-1])` for all `i`. -/
def rhsOnlyCol (s : Sam R) (eK : Mat R) (meen : List Int) (B : List R) (j : Fin meen.length) :
    Option (List R) :=
  if -meen[j] < 1 then some B else do
    let c0 ← s.offset? (-meen[j])
    (List.finRange meen.length).foldlM (fun B (i : Fin meen.length) => do
      let v ← eK.elm? i j
      s.assembleRHS B (-c0 * v) meen[i]) B

/-- `SAM::assembleSystem(sysRHS,eK,iel)` (SAM.C:477-515) without reaction forces: the right-hand-side
contributions of the constraints only. -/
def assembleRhsOnly (s : Sam R) (B : List R) (eK : Mat R) (iel : Int) : Option (List R) :=
  if eK.isEmpty then some B else do
    let meen ← s.getElmEqns iel eK.nrow
    (List.finRange meen.length).foldlM (s.rhsOnlyCol eK meen) B

/-- One element: number, coefficient matrix ("Newton matrix") and right-hand-side vector. -/
structure Elem (R : Type) where
  iel : Nat
  eK  : Mat R
  eF  : List R

/-- `AlgEqSystem::assemble` for one system matrix and one right-hand-side vector
(src/ASM/AlgEqSystem.C:230-250), `withLHS`, not `rhsOnly`, no reaction forces: first the right-hand side, then the matrix. -/
def assembleElm (s : Sam R) (st : Mat R × List R) (e : Elem R) : Option (Mat R × List R) := do
  let B ← s.assembleVec st.2 e.eF e.iel
  s.assembleMat st.1 B e.eK e.iel

/-- The element loop: assembly of a list of elements in the given order. -/
def assembleAll (s : Sam R) (st : Mat R × List R) (es : List (Elem R)) : Option (Mat R × List R) :=
  es.foldlM s.assembleElm st

/-- `AlgEqSystem::assemble` with `rhsOnly` set (src/ASM/AlgEqSystem.C:236-246): re-assembly of the
right-hand side only. -/
def assembleElmRhs (s : Sam R) (B : List R) (e : Elem R) : Option (List R) := do
  let B ← s.assembleVec B e.eF e.iel
  s.assembleRhsOnly B e.eK e.iel

/-- The element loop of a right-hand-side-only assembly. -/
def assembleAllRhs (s : Sam R) (B : List R) (es : List (Elem R)) : Option (List R) :=
  es.foldlM s.assembleElmRhs B

end Sam
end IFEM
