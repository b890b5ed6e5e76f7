import Verif.Model.Newmark
import Verif.Model.Diag

/-!
# Modal dynamics

Models `src/SIM/SIMmodal.C` (`SAMmodal`, `expandSolution`, `assembleModalSystem`, `saveModes`,
`restoreModes`) and the members of `Mode` and the conversion of eigenvalues in
`src/SIM/SIMbase.C:2187-2273`.  The element matrices are those of `Model/Newmark.lean`, the assembly
that of `Model/Sam.lean` and `Model/Diag.lean`.

Simplifications: exact field arithmetic; 2π is a parameter; an access outside an array and a refusal
are both `none`; `AlgEqSystem::finalize` is not modelled.
-/

namespace IFEM.Modal

variable {K : Type}

/-- SIMbase.h:46-60 `struct Mode`. -/
structure Mode (K : Type) where
  /-- Eigenvalue identifier -/
  eigNo : Int
  /-- Eigenvalue (the frequency) -/
  eigVal : K
  /-- Modal damping coefficient -/
  damping : K
  /-- The eigenvector, by degrees of freedom -/
  eigVec : List K
  /-- The eigenvector, by equations -/
  eqnVec : List K

/-- SIMbase.h:55 the default constructor. -/
def Mode.empty [Zero K] : Mode K := ⟨0, 0, 0, [], []⟩

/-- SIMmodal.C:38-50: the tables of a diagonal system before the equations are numbered. -/
def samTables (n : Nat) : Sam K :=
  { nnod := n, nel := n, ndof := n, neq := n,
    mpmnpc := (List.range (n+1)).map fun i : Nat => (i : Int) + 1,
    mmnpc := (List.range n).map fun i : Nat => (i : Int) + 1,
    madof := (List.range (n+1)).map fun i : Nat => (i : Int) + 1,
    msc := List.replicate n 1 }

/-- SIMmodal.C:38-50 `SAMmodal::SAMmodal`. -/
def samModal (n : Nat) : Option (Sam K) := (Sam.initSystemEquations (samTables n)).map (·.1)

variable [Field K]

/-- matrix.h:1183-1197 `vector::add` for a vector of at least the length of `X`. -/
def addScaled (s X : List K) (a : K) : List K :=
  (List.range s.length).map fun i => s.getD i 0 + a * X.getD i 0

/-- matrix.h:1106-1113 `vector::dot`: the shorter length counts. -/
def dot (a b : List K) : K := ((a.zip b).map fun p => p.1 * p.2).sum

/-- SIMmodal.C:139-140: the sum of the modes. -/
def expandOne (modes : List (Mode K)) (n : Nat) (m : List K) : List K :=
  (modes.zip m).foldl (fun s p => addScaled s p.1.eigVec p.2) (List.replicate n 0)

/-- SIMmodal.C:115-141: the loop over the solution vectors; `none` when `sol` is cleared. -/
def expandLoop [DecidableEq K] (modes : List (Mode K)) (n : Nat) :
    List (List K) → List (List K) → Option (List (List K))
  | s :: ss, m :: ms =>
    if m.length ≠ modes.length then none
    else if s = [] ∨ s.length = n then
      (expandLoop modes n ss ms).map fun r => expandOne modes n m :: r
    else none
  | _, _ => some []

/-- SIMmodal.C:105-113: `sol` on entry to the loop. -/
def expandStart [DecidableEq K] (sol mSol : List (List K)) : List (List K) :=
  if sol = [] then List.replicate mSol.length []
  else if sol.length ≠ mSol.length then [] else sol

/-- SIMmodal.C:103-144 `SIMmodal::expandSolution`: the new value of `sol`, which is returned;
`none` if the first of no modes is accessed. -/
def expandSolution [DecidableEq K] (modes : List (Mode K)) (sol mSol : List (List K)) :
    Option (List (List K)) :=
  match modes with
  | [] => if expandStart sol mSol ≠ [] ∧ mSol.head? = some [] then none else some []
  | f :: _ => some ((expandLoop modes f.eigVec.length (expandStart sol mSol) mSol).getD [])

/-- SIMmodal.C:147-154 `SIMmodal::expandedSolution(idx)`. -/
def expandedSolution (sol : List (List K)) (idx : Int) : List K :=
  if 0 ≤ idx ∧ idx < sol.length then sol.getD idx.toNat [] else []

/-- SIMmodal.C:180-195: the element object, one degree of freedom. -/
inductive Elm (K : Type) where
  /-- `NewmarkMats`, with or without a damping matrix -/
  | newmark (p : NmPar K) (damp : Bool)
  /-- `ElmMats` of a quasi-static simulation -/
  | quasi

/-- SIMmodal.h: the members of `SIMmodal` that `assembleModalSystem` uses. -/
structure State (K : Type) where
  /-- Mass-proportional damping -/
  alpha1 : K
  /-- Stiffness-proportional damping -/
  alpha2 : K
  /-- `modalSam` -/
  sam : Option (Sam K)
  /-- `myElmMat` -/
  elm : Option (Elm K)

variable [LinearOrder K]

/-- SIMmodal.C:184-193: the element object that is created. -/
def newElm (alpha1 alpha2 beta gamma : K) : Elm K :=
  if beta > 0 then .newmark (NmPar.make 0 0 beta gamma false) (alpha1 > 0 ∨ alpha2 > 0) else .quasi

/-- SIMmodal.C:220-224: the damping of a mode. -/
def modeDamping (alpha1 alpha2 omega : K) (m : Mode K) : K :=
  if m.damping > 0 then m.damping else alpha1 + alpha2*omega*omega

/-- A matrix of one element. -/
def one1 (a : K) : Matrix (Fin 1) (Fin 1) K := fun _ _ => a

/-- A vector of one element. -/
def vec1 (a : K) : Fin 1 → K := fun _ => a

/-- SIMmodal.C:232-248 and the functions of the element object: the Newton matrix and the right-hand
side of one mode; `vals` are the values of the mode in all solution vectors: the displacement is the
third last one (SIMmodal.C:200), velocity and acceleration are the second and third one
(NewmarkMats.h:53-56).  A change between
dynamic and quasi-static simulation is not modelled (`none`): the element object of the first call
stays. -/
def modeSystem (e : Elm K) (alpha1 alpha2 omega dt : K) (m : Mode K) (rhs vals : List K) (beta : K) :
    Option (K × K) :=
  match e with
  | .newmark p damp =>
    if beta > 0 then do
      let u ← at0? vals ((vals.length : Int) - 3)
      let v ← at0? vals 1
      let a ← at0? vals 2
      let M := some (one1 1)
      let S := some (one1 (omega*omega))
      let C := if damp then some (one1 (modeDamping alpha1 alpha2 omega m)) else none
      let load := dot m.eigVec rhs + -omega*omega*u
      return (nmNewton p dt M S C 0 0, nmRHS p M S C (vec1 load) none (vec1 v) (vec1 a) 0)
    else none
  | .quasi => if beta > 0 then none else some (omega*omega, dot m.eigVec rhs)

/-- AlgEqSystem.C:230-250 with one matrix and one vector: the vector first. -/
def assembleMode (sam : Sam K) (st : List K × List K) (N r : K) (iel : Int) :
    Option (List K × List K) := do
  let b ← sam.assembleVec st.2 [r] iel
  let d ← Diag.assembleMat sam st.1 ⟨1, 1, [N]⟩ iel
  return (d, b)

/-- SIMmodal.C:218-251: one pass of the loop over the modes. -/
def modeStep (sam : Sam K) (e : Elm K) (alpha1 alpha2 twoPi dt beta : K) (rhs : List K)
    (mSol : List (List K)) (st : List K × List K) (m : Nat × Mode K) : Option (List K × List K) := do
  let vals ← mSol.mapM fun s => s[m.1]?
  let Nr ← modeSystem e alpha1 alpha2 (twoPi * m.2.eigVal) dt m.2 rhs vals beta
  assembleMode sam st Nr.1 Nr.2 m.2.eigNo

/-- SIMmodal.C:200-205: the check on the number of solution vectors. -/
def enough (mSol : List (List K)) (beta : K) : Bool :=
  0 ≤ (mSol.length : Int) - (if beta > 0 then 3 else 1)

/-- SIMmodal.C:168-195: the objects created by the first call. -/
def prepare (st : State K) (modes : List (Mode K)) (beta gamma : K) : State K :=
  { st with
    sam := match st.sam with
      | some s => some s
      | none => samModal modes.length
    elm := match st.elm with
      | some e => some e
      | none => some (newElm st.alpha1 st.alpha2 beta gamma) }

/-- SIMmodal.C:165-255 `SIMmodal::assembleModalSystem`: the new state, and the diagonal matrix and
the right-hand side. -/
def assembleModalSystem (st : State K) (modes : List (Mode K)) (twoPi dt : K) (rhs : List K)
    (mSol : List (List K)) (beta gamma : K) : State K × Option (List K × List K) :=
  let st := prepare st modes beta gamma
  (st, if enough mSol beta then do
      let sam ← st.sam
      let e ← st.elm
      ((List.range modes.length).zip modes).foldlM
        (modeStep sam e st.alpha1 st.alpha2 twoPi dt beta rhs mSol)
        (List.replicate sam.neq 0, List.replicate sam.neq 0)
    else none)

/-- SIMmodal.C:258-277 `SIMmodal::saveModes`: what is written for each mode. -/
def saveModes (modes : List (Mode K)) : List (Int × K × List K) :=
  modes.map fun m => (m.eigNo, m.eigVal, m.eigVec)

/-- SIMmodal.C:280-301 `SIMmodal::restoreModes`: the array is resized, then three members of each
mode are read. -/
def restoreModes (modes : List (Mode K)) (data : List (Int × K × List K)) : List (Mode K) :=
  (List.range data.length).map fun i =>
    let m := modes.getD i Mode.empty
    match data[i]? with
    | some d => { m with eigNo := d.1, eigVal := d.2.1, eigVec := d.2.2 }
    | none => m

/-- SIMbase.C:2234-2259 `Mode::orthonormalize`; `mul` is the multiplication with the matrix, `eps`
the number 1e-16. -/
def orthonormalize (mul : List K → Option (List K)) (eps : K) (m : Mode K) : Option (Mode K) := do
  let tmp ← mul m.eqnVec
  let scale := dot tmp m.eqnVec
  if scale < eps then none
  else if |scale - 1| < eps then some m
  else some { m with eqnVec := m.eqnVec.map (· / scale), eigVec := m.eigVec.map (· / scale) }

/-- SIMbase.C:2262-2273 `Mode::computeDamping`. -/
def computeDamping (mul : List K → Option (List K)) (m : Mode K) : Option (Mode K) := do
  let tmp ← mul m.eqnVec
  return { m with damping := dot tmp m.eqnVec }

/-- SIMbase.C:2220-2225: the value stored for an eigenvalue. -/
def storedValue (sqrt : K → K) (pi : K) (freq : Bool) (ev : K) : K :=
  if !freq then ev
  else if ev < 0 then -sqrt (-ev) * (1/2) / pi
  else sqrt ev * (1/2) / pi

end IFEM.Modal
