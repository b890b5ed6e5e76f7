import Mathlib.Algebra.Order.Floor.Ring
import Mathlib.Algebra.Order.Field.Basic
import Mathlib.Algebra.Order.Group.Abs
import Mathlib.Analysis.Real.Sqrt
import Mathlib.Data.List.Sort

/-!
# Adaptive mesh refinement: which elements or functions are refined, and when to stop

Models `AdaptiveSetup::calcRefinement` and `errorLimits` (src/SIM/AdaptiveSetup.C), `SIMgeneric::getReferenceNorm` and the loop of `SIMSolverAdap::solveProblem`.
The errors are elements of an ordered field with a ceiling, so that rounding is left out; the sorting is the one of the Lean library (all indices differ, so that the result is unique).
An access outside of an array makes the result `none`. The refinement of the mesh, the mapping of errors to other bases (`remapErrors`) and the numbering of functions shared by patches are parameters.
-/
namespace IFEM.Adapt

/-- `AdaptiveSetup::Threshold` (AdaptiveSetup.h). -/
inductive Threshold where
  | none | maximum | average | minimum | trueBeta | dorfel | symmetrized
  deriving DecidableEq, Repr

/-- `AdaptiveSetup::RefScheme` (AdaptiveSetup.h): only the use of function errors matters. -/
inductive Scheme where
  | fullspan | minspan | isotropicElement | isotropicFunction
  deriving DecidableEq, Repr

variable {K : Type} [Field K] [LinearOrder K]

/-- `std::greater_equal` on pairs of an error and an index. -/
def pairGe (a b : K × Nat) : Bool := decide (b.1 < a.1) || (decide (a.1 = b.1) && decide (b.2 ≤ a.2))

/-- The errors with their indices in the sequence of decreasing errors (AdaptiveSetup.C:381-386). -/
def sorted (e : List K) : List (K × Nat) := e.zipIdx.insertionSort fun a b => pairGe a b = true

/-- The second loop over the errors for `DORFEL` (AdaptiveSetup.C:581-588). -/
def dorfelLoop (target : K) : K → K → List (K × Nat) → K
  | limit, _, [] => limit
  | limit, cur, e :: l => if cur < target then dorfelLoop target limit (cur + e.1) l else e.1

/-- `errorLimits` (AdaptiveSetup.C:554-595). -/
def errorLimit (s : List (K × Nat)) (beta : K) : Threshold → Option K
  | .maximum => s.head?.map fun e => e.1 * (beta/100)
  | .average => if s.length = 0 then none else some ((s.map Prod.fst).sum / (s.length : K) * (beta/100))
  | .minimum => s.getLast?.map fun e => e.1 * (beta/100)
  | .dorfel => s.getLast?.map fun e => dorfelLoop ((s.map Prod.fst).sum * (beta/100)) e.1 0 s
  | _ => some 0

/-- `std::upper_bound` with `greater_equal` on the sorted list (AdaptiveSetup.C:396-397): the number of errors before the first one not above the limit with index 0. -/
def upperBound (s : List (K × Nat)) (limit : K) : Nat := (s.takeWhile fun e => !pairGe (limit, 0) e).length

/-- The loop over nearly equal errors (AdaptiveSetup.C:399-406). -/
def symmetrize (s : List (K × Nat)) (eps : K) (k : Nat) : Option Nat :=
  if k = 0 then none else (s[k-1]?).map fun f => k + ((s.drop k).takeWhile fun e => decide (|e.1 - f.1| < |f.1| * eps)).length

/-- `refineSize` (AdaptiveSetup.C:391-406). -/
def refineSize [FloorRing K] (s : List (K × Nat)) (thr : Threshold) (beta eps : K) : Option Nat :=
  match thr with
  | .none => some ⌈(s.length : K) * beta / 100⌉₊
  | .symmetrized => symmetrize s eps ⌈(s.length : K) * beta / 100⌉₊
  | t => (errorLimit s beta t).map (upperBound s)

/-- The elements or functions to refine (AdaptiveSetup.C:383-452); the last error is read for a message. -/
def mark [FloorRing K] (e : List K) (thr : Threshold) (beta eps : K) : Option (List Nat) := do
  let s := sorted e
  let k ← refineSize s thr beta eps
  if k = 0 ∨ s.length < k then none
  else return (s.take k).map Prod.snd

/-- Function `i` of a patch is added to the global errors (AdaptiveSetup.C:363-367): the global numbers and the errors of its functions. -/
def addFunction (p : List Nat × List K) (e : List K) (i : Nat) : Option (List K) := do
  let x ← p.2[i]?
  let g ← p.1[i]?
  let y ← e[g]?
  return e.set g (y + x)

/-- One patch in the loop that adds the errors of its functions (AdaptiveSetup.C:353-369). -/
def addPatch (e : List K) (p : List Nat × List K) : Option (List K) := (List.range p.2.length).foldlM (addFunction p) e

/-- The errors of all functions of the model (AdaptiveSetup.C:330-369). -/
def functionErrors (nNodes : Nat) (patches : List (List Nat × List K)) : Option (List K) := patches.foldlM addPatch (List.replicate nNodes 0)

/-- The parameters of the adaptation (AdaptiveSetup.h:95-139); `beta` is a function of the step, `epsZ` the tolerance for a zero reference norm. -/
structure Setup (K : Type) where
  adaptor : Nat
  adNorm : Nat
  beta : Int → K
  errTol : K
  condLimit : K
  maxStep : Int
  maxDOFs : Int
  scheme : Scheme
  threshold : Threshold
  symmEps : K
  epsZ : K

/-- What the adaptation needs to know about the model and its last solution: number of patches, whether there is an analytical solution, number of degrees of freedom, global norms, reference norm,
reciprocal condition number, element errors, and the errors mapped to functions (`nodeErrors`) or elements of the basis that is refined (`remapped`). -/
structure State (K : Type) where
  nPatches : Nat
  anaSol : Bool
  dofs : Int
  gNorm : List (List K)
  refNorm : K
  rCond : K
  refIn : List K
  nodeErrors : Option (List K)
  remapped : List K

/-- Access to a vector with indices from 1 (`vector::operator()`, matrix.h). -/
def get1 (g : List K) (i : Nat) : Option K := if i = 0 then none else g[i-1]?

/-- `calcRefinement` (AdaptiveSetup.C:247-455): the return value and the elements or functions to refine. -/
def calcRefinement [FloorRing K] (P : Setup K) (S : State K) (iStep : Int) : Option (Int × List Nat) := do
  if S.nPatches = 0 then return (0, [])
  else if P.adaptor ≥ S.gNorm.length ∨ S.refIn = [] then return (0, [])
  else if P.adaptor = 0 ∧ S.anaSol = false then return (0, [])
  else
    let refNorm := S.refNorm / 100
    if refNorm < -P.epsZ then return (-1, [])
    else if refNorm < P.epsZ then return (0, [])
    else if iStep > P.maxStep then return (0, [])
    else if S.dofs > P.maxDOFs then return (0, [])
    else
      let g ← S.gNorm[P.adaptor]?
      let err ← get1 g P.adNorm
      if err < P.errTol * refNorm then return (0, [])
      else if 1 / S.rCond > P.condLimit then return (0, [])
      else if P.threshold = .trueBeta then
        if S.nPatches > 1 then return (-2, []) else return (S.remapped.length, [])
      else if P.scheme = .isotropicFunction then
        let e ← S.nodeErrors
        let m ← mark e P.threshold (P.beta (iStep-1)) P.symmEps
        return (m.length, m)
      else if S.nPatches > 1 then return (-4, [])
      else
        let m ← mark S.refIn P.threshold (P.beta (iStep-1)) P.symmEps
        return (m.length, m)

/-- One element in the loop for the smallest and largest error and their sum (AdaptiveSetup.C:501-509). -/
def extremeStep (s : K × K × K) (x : K) : K × K × K :=
  if s.1 > x then (x, s.2.1, s.2.2 + x) else if s.2.1 < x then (s.1, x, s.2.2 + x) else (s.1, s.2.1, s.2.2 + x)

/-- The smallest, largest and average element error that `printNorms` reports (AdaptiveSetup.C:494-510). -/
def extremes (e : List K) : Option (K × K × K) :=
  match e with
  | [] => none
  | x :: l =>
    let s := l.foldl extremeStep (x, x, x)
    some (s.1, s.2.1, s.2.2 / (e.length : K))

/-- `SIMgeneric::getReferenceNorm` (SIMgeneric.C:129-143). -/
noncomputable def referenceNorm (g : List (List ℝ)) (adaptor : Nat) : ℝ :=
  match g with
  | [] => 0
  | [] :: _ => 0
  | (f :: fs) :: _ =>
    if adaptor < 1 ∧ (f :: fs).length > 2 then (f :: fs).getD 2 0
    else match g[adaptor]? with
      | some (_ :: y :: _) => Real.sqrt (f^2 + y^2)
      | _ => -(adaptor : ℝ)

/-- What happens in one adaptive cycle: the return value of `calcRefinement`, and whether the refinement, the solution and the output succeed. -/
structure Cycle where
  code : Int
  refine : Bool
  solve : Bool
  output : Bool

/-- `AdaptiveSIM::adaptMesh` (AdaptiveSIM.C:197-219). -/
def adaptMesh (c : Int → Cycle) (iStep : Int) : Bool := if iStep < 2 then true else if (c iStep).code ≤ 0 then false else (c iStep).refine

/-- The loop of `solveProblem` (SIMSolverAdap.h:126-132) from a given step: the return value and the steps that were solved; `none` if it is not finished after `fuel` passes. -/
def solveLoop (c : Int → Cycle) : Nat → Int → List Int → Option (Int × List Int)
  | 0, _, _ => none
  | fuel+1, iStep, acc =>
    if adaptMesh c iStep then
      if (c iStep).solve = false then some (1, acc)
      else if (c iStep).output = false then some (2, acc ++ [iStep])
      else solveLoop c fuel (iStep+1) (acc ++ [iStep])
    else some (0, acc)

end IFEM.Adapt
