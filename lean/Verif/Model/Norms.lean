import Mathlib.Analysis.Real.Sqrt

/-!
# Element norms and global norms

Models `src/ASM/GlbNorm.C`, the accumulation in `src/SIM/SIMbase.C: solutionNorms` and `ForceBase::assemble`, in exact real arithmetic.
What an integrand adds to the values of an element is a parameter; an access outside of an array makes the result `none`.
Message output, MPI sums and extraction function volumes are left out.
-/
namespace IFEM.Norms

/-- `ASM::FinalNormOp` (ASMenums.h). -/
inductive Op where
  | none | abs | sqrt
  deriving DecidableEq

open Classical in
/-- `applyFinalOp` (GlbNorm.C:60-79, IntegrandBase.C:501-512). -/
noncomputable def Op.apply (op : Op) (x : ℝ) : ℝ :=
  match op with
  | .abs => |x|
  | .sqrt => if x < 0 then -Real.sqrt (-x) else Real.sqrt x
  | .none => x

/-- One pass of the loop in `assemble` (GlbNorm.C:49-55): the global values, `k` and `j`. -/
noncomputable def addOne (s : List (List ℝ) × Nat × Nat) (x : ℝ) : Option (List (List ℝ) × Nat × Nat) := do
  let g ← s.1[s.2.1]?
  let k := if s.2.2 ≥ g.length then s.2.1+1 else s.2.1
  let j := if s.2.2 ≥ g.length then 0 else s.2.2
  match s.1[k]? with
  | some h => if j < h.length then some (s.1.set k (h.set j (h.getD j 0 + x)), k, j+1) else some (s.1, k, j)
  | none => some (s.1, k, j)

/-- `GlbNorm::assemble` for an element that is not delayed (GlbNorm.C:32-57): the global values and those of the element. -/
noncomputable def assemble (op : Op) (vals : List (List ℝ)) (el : List ℝ) : Option (List (List ℝ) × List ℝ) := do
  let s ← el.foldlM addOne (vals, 0, 0)
  return (s.1, el.map op.apply)

/-- `~GlbNorm` (GlbNorm.C:24-29). -/
noncomputable def finish (op : Op) (vals : List (List ℝ)) : List (List ℝ) := vals.map fun v => v.map op.apply

/-- The values of the groups before the integration (SIMbase.C:1961-1981), if no group is skipped: zeros. -/
def initial (sizes : List Nat) : List (List ℝ) := sizes.map fun n => List.replicate n 0

/-- One contribution: the element and what the integrand adds to its values. -/
abbrev Contribution := Nat × List ℝ

/-- `NormBase::addBoundaryTerms` (IntegrandBase.C:515-529). -/
noncomputable def addBoundaryTerms (g : List (List ℝ)) (energy : ℝ) : List (List ℝ) :=
  match g with
  | (a :: b :: l) :: gs => (a :: (b + energy) :: l) :: gs
  | _ => g

/-- Integration without storage of the element norms: each contribution is computed in a buffer of its own and assembled at once (IntegrandBase.C:481-498, GlbNorm.C:32-57). -/
noncomputable def direct (op : Op) (sizes : List Nat) (cs : List Contribution) (energy : ℝ) : Option (List (List ℝ)) := do
  let v ← cs.foldlM (fun (v : List (List ℝ)) (c : Contribution) => (assemble op v c.2).map Prod.fst) (initial sizes)
  return finish op (addBoundaryTerms v energy)

/-- An integrand adds to the values of an element in the matrix of element norms. -/
def addElm (e : List (List ℝ)) (c : Contribution) : List (List ℝ) := e.set c.1 (List.zipWith (· + ·) (e.getD c.1 []) c.2)

/-- One element in the final loop over the elements (SIMbase.C:2076-2080). -/
noncomputable def finalElm (op : Op) (s : List (List ℝ) × List (List ℝ)) (el : List ℝ) : Option (List (List ℝ) × List (List ℝ)) :=
  (assemble op s.1 el).map fun r => (r.1, s.2 ++ [r.2])

/-- Integration with storage of the element norms (SIMbase.C:1984-1993, 2070-2084): the values are accumulated per element, in any number of loops over the elements, and assembled at the end; the
global and the element norms. -/
noncomputable def stored (op : Op) (sizes : List Nat) (nel : Nat) (cs : List Contribution) (energy : ℝ) : Option (List (List ℝ) × List (List ℝ)) := do
  let e := cs.foldl addElm (List.replicate nel (List.replicate sizes.sum 0))
  let s ← e.foldlM (finalElm op) (initial sizes, [])
  return (finish op (addBoundaryTerms s.1 energy), s.2)

/-- `ForceBase::assemble` (IntegrandBase.C:683-693): the sum of the element forces. -/
def sumForces (ncmp : Nat) (els : List (List ℝ)) : List ℝ :=
  els.foldl (fun (g : List ℝ) (el : List ℝ) => g.mapIdx fun j x => x + el.getD j 0) (List.replicate ncmp 0)

/-- `eRow` (AdaptiveSetup.C:234-239): the row, from 1, of norm number `adNorm` of group `adaptor` in the matrix of element norms. -/
def eRow (sizes : List Nat) (adaptor adNorm : Nat) : Nat := adNorm + (sizes.take adaptor).sum

end IFEM.Norms
