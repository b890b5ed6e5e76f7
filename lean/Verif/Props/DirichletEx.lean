import Verif.Props.Dirichlet
import Verif.Props.SamPatchEx

/-! Examples and counterexamples for C81. -/
namespace IFEM.Dirichlet
open IFEM.Spec IFEM.Props Spec

/-- Set up the tables of a model, do the updates, and expand a vector. -/
def runUpdates (nnod : Nat) (P : List (SPatch Rat)) (ops : List (List (SPatch Rat) × Option (List Rat))) (x : List Rat) : Option (List Rat) := do
  let b ← buildTables nnod 9 P
  let s ← b.1.initSystemEquations
  let is ← iceqsOf nnod 9 P
  let s' ← history 9 is s.1 ops
  s'.expandVector x 1

/-- The model of C51 with other constant terms. -/
def exModel' : List (SPatch Rat) :=
  [{ nodes := [(1,2),(2,2)], bcode := [{ node := 1, CX := 0 }], elems := [(3,[0,1])], mpcs := [⟨2,1,-2,[⟨3,1,2,true⟩]⟩] },
   { nodes := [(2,2),(3,2),(4,2)], elems := [(1,[0,-1,2]),(0,[0])], mpcs := [⟨3,1,4,[⟨4,1,3,false⟩,⟨1,1,1,false⟩]⟩] }]

/-- The hypotheses of the C81 theorems are met by a model with a fixed DOF and a chain of two constraints, and another one that differs in the constant terms. -/
example : GoodModel exModel 4 ∧ noConst exModel' = noConst exModel := ⟨exModel_good, rfl⟩

/-- In this model the lift is 6 in DOF (2,1) and 4 in DOF (3,1); the free DOFs are (1,2), (2,2), (3,2), (4,1), (4,2).  Increments for the previous solution `10,…,17`:
`6·7 + (6-12)` and `3·7 + (4-14)`. -/
example : runUpdates 4 exModel [(exModel, some []), (exModel', some [10,11,12,13,14,15,16,17])] [1,2,3,7,5] = some [0, 1, 6*7 + (6-12), 2, 3*7 + (4-14), 3, 7, 5] ∧
    runUpdates 4 exModel [(exModel', none)] [1,2,3,7,5] = some [0, 1, 6*7, 2, 3*7, 3, 7, 5] := by
  refine ⟨?_, ?_⟩ <;> decide +kernel

/-- Two nodes with one DOF; the first has the prescribed value `c`. -/
def ramp (c : Rat) : List (SPatch Rat) := [{ nodes := [(1,1),(2,1)], mpcs := [⟨1,1,c,[]⟩] }]

/-- A finding (F12): a prescribed value of 1 in the first step and 0 in the second: the increment of the second step is zero and the DOF keeps the value 1. -/
theorem C81_back_to_zero : runUpdates 2 (ramp 1) [(ramp 1, some [0,0])] [7] = some [1,7] ∧ runUpdates 2 (ramp 1) [(ramp 1, some [0,0]), (ramp 0, some [1,7])] [0] = some [0,0] ∧
    ¬ Obeys (ramp 0) 2 (fun k => field (ramp 0) [1,7] k + field (ramp 0) [0,0] k) := by
  refine ⟨by decide +kernel, by decide +kernel, ?_⟩
  rintro ⟨-, h⟩
  have := h ⟨1,1,0,[]⟩ (by decide +kernel) (by rintro ⟨p, hp, b, hb, -⟩; simp [ramp] at hp; subst hp; simp at hb)
  revert this
  unfold Holds
  decide +kernel

/-- Two nodes with one DOF: `u(1) = c + u(2)`. -/
def link (c : Rat) : List (SPatch Rat) := [{ nodes := [(1,1),(2,1)], mpcs := [⟨1,1,c,[⟨2,1,1,false⟩]⟩] }]

/-- A finding (F12): with a master and a nonzero constant term, a solution that obeys the constraint `u(1) = 1 + u(2)` no longer does so after an update with unchanged constant and zero increments in the free DOFs. -/
theorem C81_constant_and_masters : Obeys (link 1) 2 (field (link 1) [6,5]) ∧ runUpdates 2 (link 1) [(link 1, some [6,5])] [0] = some [-5,0] ∧
    ¬ Obeys (link 1) 2 (fun k => field (link 1) [6,5] k + field (link 1) [-5,0] k) := by
  have nf : ∀ n c, ¬ FixedIn (link 1) n c := by rintro n c ⟨p, hp, b, hb, -⟩; simp [link] at hp; subst hp; simp at hb
  refine ⟨⟨fun k _ h => absurd h (nf _ _), fun m hm _ => ?_⟩, by decide +kernel, ?_⟩
  · simp only [allMpcs, link, List.flatMap_cons, List.flatMap_nil, List.append_nil, List.mem_singleton] at hm
    subst hm
    unfold Holds
    decide +kernel
  rintro ⟨-, h⟩
  have := h ⟨1,1,1,[⟨2,1,1,false⟩]⟩ (by decide +kernel) (nf _ _)
  revert this
  unfold Holds
  decide +kernel

/-- A patch with two nodes and a vector function: code 7 for DOF 2 of node 5. -/
def dex : DPatch Rat := { base := { nodes := [(4,2),(5,2)], mpcs := [⟨5,1,3,[]⟩, ⟨5,2,0,[]⟩] }, coord := fun i _ => (i : Rat), dCode := [((5,2),7)] }

/-- The constant term becomes component 2 of the function at the second node, at time 10. -/
example : (updatePatches (fun _ => none) (fun c => if c = 7 then some { zero := false, dim := 2, val := fun X i => X.X 0 + X.t + (i : Rat), der := fun _ _ => 1 } else none) (10 : Rat) false [dex]).1.map
    (fun p => p.base.mpcs) = [[⟨5,1,3,[]⟩, ⟨5,2,2+10+2,[]⟩]] := by decide +kernel

end IFEM.Dirichlet
