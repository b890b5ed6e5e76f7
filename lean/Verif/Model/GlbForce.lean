import Mathlib.Data.List.Dedup
import Mathlib.Algebra.BigOperators.Group.Finset.Basic
import Mathlib.Algebra.Ring.Defs
/-!
# Model of nodal force resultants on boundaries (src/ASM/GlbForceVec.[hC])

The nodes of an element and the number of DOFs of a node are those of the `SAM` object and are parameters here.  Accesses outside of vectors and
matrices are modelled by `none`.
-/
namespace IFEM.GForce

variable {R : Type} [CommRing R]

/-- The data of `GlbForceVec` (GlbForceVec.h:65-69): force matrix by columns, number of force components, node numbers, map from node numbers to
column numbers (entries that are inserted later come first). -/
structure ForceVec (R : Type) where
  F : List (List R)
  nfc : Nat
  nodeNum : List Int
  nodeMap : List (Int × Nat)

/-- `GlbForceVec::initNodeMap` (GlbForceVec.C:23-42); the new matrix is taken as zero (`initialize` is called before the assembly). -/
def initNodeMap (nnod : Int) (globalNodes : List Int) (nfc : Nat) : ForceVec R × Bool :=
  let legal := globalNodes.zipIdx.filter fun p => p.1 > 0 ∧ p.1 ≤ nnod
  (⟨List.replicate (legal.map (·.1)).dedup.length (List.replicate nfc 0), nfc, globalNodes, (legal.map fun p => (p.1, p.2 + 1)).reverse⟩,
   legal.length = globalNodes.length)

/-- `nodeMap.find` (GlbForceVec.C:74, 100-102). -/
def ForceVec.column (s : ForceVec R) (node : Int) : Option Nat := (s.nodeMap.find? fun p => p.1 = node).map (·.2)

/-- `GlbForceVec::initialize` (GlbForceVec.C:45-48). -/
def ForceVec.initialize (s : ForceVec R) : ForceVec R := { s with F := s.F.map fun c => c.map fun _ => 0 }

/-- The subtraction of `nfc` entries of the element vector from a column (GlbForceVec.C:76-77). -/
def subCol (nfc k : Nat) (ES col : List R) : List R := (List.range nfc).map fun j => col.getD j 0 - ES.getD (k+j) 0

/-- The loop over the element nodes in `GlbForceVec::assemble` (GlbForceVec.C:71-80): the matrix and the number of nodes not found. -/
def nodeLoop (s : ForceVec R) (ndof : Int → Nat) (ES : List R) : List Int → Nat → List (List R) → Nat → Option (List (List R) × Nat)
  | [], _, F, nin => some (F, nin)
  | n :: ns, k, F, nin =>
    match s.column n with
    | none => nodeLoop s ndof ES ns (k + ndof n) F (nin + 1)
    | some c =>
      if 1 ≤ c ∧ c ≤ F.length ∧ k + s.nfc ≤ ES.length then nodeLoop s ndof ES ns (k + ndof n) (F.modify (c-1) (subCol s.nfc k ES)) nin
      else none

/-- `GlbForceVec::assemble` (GlbForceVec.C:51-86) for an element with the given vector (`none` if there is none) and nodes (`none` if the element
does not exist): the new state and the returned status. -/
def assemble (s : ForceVec R) (ndof : Int → Nat) (nodes : Option (List Int)) (ES : Option (List R)) : Option (ForceVec R × Bool) :=
  match ES, nodes with
  | none, _ => some (s, false)
  | some _, none => some (s, false)
  | some ES, some mnpc => (nodeLoop s ndof ES mnpc 0 s.F 0).map fun r => ({ s with F := r.1 }, decide (r.2 < mnpc.length))

/-- The assembly of a list of elements, each given by its nodes and its vector: the new state, and whether all calls returned true. -/
def assembleAll (s : ForceVec R) (ndof : Int → Nat) (els : List (Option (List Int) × Option (List R))) : Option (ForceVec R × Bool) :=
  els.foldlM (fun (r : ForceVec R × Bool) e => (assemble r.1 ndof e.1 e.2).map fun q => (q.1, r.2 && q.2)) (s, true)

/-- Component `j` of the `Vec3` made from column `c`, from 1 (Vec3.h:44-45). -/
def ForceVec.comp (s : ForceVec R) (c j : Nat) : R := (s.F.getD (c-1) []).getD j 0

/-- `GlbForceVec::getForce(node)` (GlbForceVec.C:97-108), component `j < 3`. -/
def ForceVec.getForce (s : ForceVec R) (node : Int) (j : Nat) : R :=
  match s.column node with
  | none => 0
  | some c => s.comp c j

/-- `GlbForceVec::getTotalForce` (GlbForceVec.C:111-118), component `j < 3`. -/
def ForceVec.getTotalForce (s : ForceVec R) (j : Nat) : R := (List.range' 1 s.F.length).foldl (fun a c => a + s.comp c j) 0

/-- `GlbForceVec::getForce(indx,force)` (GlbForceVec.C:121-132): the node number and component `j < 3`; 0 if the index is out of range. -/
def ForceVec.getIndexed (s : ForceVec R) (indx j : Nat) : Int × R :=
  if indx < s.F.length ∧ indx < s.nodeNum.length then (s.nodeNum.getD indx 0, s.comp (indx+1) j) else (0, 0)

end IFEM.GForce
