import Verif.Props.SamPatch
import Mathlib.Tactic.NormNum
import Mathlib.Data.Rat.Defs
import Mathlib.Algebra.Order.Ring.Rat
/-! Examples and counterexamples for C51. -/
namespace IFEM.Props
open IFEM.Spec

/-- Two patches sharing node 2: a fixed DOF, a chain of two constraints, elements 3 and 1 (in this order; 2 is a hole), and an inactive element. -/
def exModel : List (SPatch Rat) :=
  [{ nodes := [(1,2),(2,2)], bcode := [{ node := 1, CX := 0 }], elems := [(3,[0,1])], mpcs := [⟨2,1,1/2,[⟨3,1,2,true⟩]⟩] },
   { nodes := [(2,2),(3,2),(4,2)], elems := [(1,[0,-1,2]),(0,[0])], mpcs := [⟨3,1,1,[⟨4,1,3,false⟩,⟨1,1,1,false⟩]⟩] }]

theorem exModel_good : GoodModel exModel 4 where
  nodes := by
    intro q hq _ _
    simp only [exModel, List.flatMap_cons, List.flatMap_nil, List.append_nil, List.cons_append, List.nil_append, List.mem_cons, List.not_mem_nil, or_false] at hq
    rcases hq with rfl | rfl | rfl | rfl | rfl <;> decide
  bcs := by
    intro p hp b hb
    simp only [exModel, List.mem_cons, List.not_mem_nil, or_false] at hp
    rcases hp with rfl | rfl
    · simp only [List.mem_cons, List.not_mem_nil, or_false] at hb
      subst hb
      refine ⟨by decide, fun c => ?_⟩
      unfold bcCode
      split <;> simp
    · cases hb
  slaves := by unfold IsDof; decide +kernel
  masters := by unfold IsDof; decide +kernel
  unique := by unfold UniqueSlaves; decide +kernel
  linked := by
    simp only [allMpcs, exModel, List.flatMap_cons, List.flatMap_nil, List.append_nil, List.cons_append, List.nil_append, List.mem_cons, List.not_mem_nil, or_false, IsSlave]
    rintro m (rfl | rfl) t ht
    · simp at ht; subst ht; simp
    · simp at ht; rcases ht with rfl | rfl <;> simp
  acyclic := by
    refine ⟨fun k => if k.1 = 2 then 1 else 0, ?_⟩
    simp only [allMpcs, exModel, List.flatMap_cons, List.flatMap_nil, List.append_nil, List.cons_append, List.nil_append, List.mem_cons, List.not_mem_nil, or_false, IsSlave]
    rintro m (rfl | rfl) t ht
    · simp at ht; subst ht; simp
    · simp at ht; rcases ht with rfl | rfl <;> simp
  free := by
    simp only [allMpcs, exModel, List.flatMap_cons, List.flatMap_nil, List.append_nil, List.cons_append, List.nil_append, List.mem_cons, List.not_mem_nil, or_false, FixedIn, FixedDof]
    rintro m (rfl | rfl) t ht
    · simp at ht; subst ht; simp
    · simp at ht; rcases ht with rfl | rfl <;> simp
  elms := by decide
  elmn := by decide +kernel

/-- The tables of this model. -/
example : ((buildTables 4 9 exModel).map fun r => (r.1.msc, r.1.mpmnpc, r.1.mmnpc, r.2)) = some ([0,1,0,1,0,1,1,1], [1,4,4,6], [2,-3,4,1,2], true) ∧
    ((buildTables 4 9 exModel).map fun r => (r.1.mpmceq, r.1.mmceq, r.1.ttcc)) = some ([1,3,5], [3,7,5,7], [1/2 + 2, 6, 1, 3]) := by decide +kernel

/-- Chained constraints without chain pointers: `u(1) = u(2)` and `u(2) = u(3)`. -/
def unresolved (swap : Bool) : List (SPatch Rat) :=
  if swap then [{ nodes := [(1,1),(2,1),(3,1)], mpcs := [⟨2,1,0,[⟨3,1,1,false⟩]⟩, ⟨1,1,0,[⟨2,1,1,false⟩]⟩] }]
  else [{ nodes := [(1,1),(2,1),(3,1)], mpcs := [⟨1,1,0,[⟨2,1,1,false⟩]⟩, ⟨2,1,0,[⟨3,1,1,false⟩]⟩] }]

/-- The pointers are needed (finding F26): depending on the order of the constraints, the master is silently dropped (`u(1) = 0` although `u(2) = u(3) = 7`), or the model is rejected. -/
theorem C51_unresolved_chain_dropped :
    (((buildTables 3 9 (unresolved true)).bind fun r => r.1.initSystemEquations).bind fun r => (r.1.expandVector [7] 1).map fun u => (r.2, u)) = some (true, [0, 7, 7]) ∧
    (((buildTables 3 9 (unresolved false)).bind fun r => r.1.initSystemEquations).map fun r => r.2) = some false := by decide +kernel

/-- `u(1) = u(2)`, `u(2) = 5 + u(3)`, with DOF 2 fixed by another patch. -/
def fixedLink : List (SPatch Rat) :=
  [{ nodes := [(1,1),(2,1),(3,1)], mpcs := [⟨1,1,0,[⟨2,1,1,true⟩]⟩, ⟨2,1,5,[⟨3,1,1,false⟩]⟩] }, { nodes := [(2,1)], bcode := [{ node := 2, CX := 0 }] }]

/-- The condition that linked masters are not fixed is needed (finding F44): the constraint of DOF 2 is ignored as DOF 2 is fixed, but it is still substituted into the
constraint of DOF 1, so that the solution violates `u(1) = u(2)`. -/
theorem C51_fixed_link_substituted :
    (((buildTables 3 9 fixedLink).bind fun r => r.1.initSystemEquations).bind fun r => (r.1.expandVector [7] 1).map fun u => (r.2, u)) = some (true, [12, 0, 7]) := by decide +kernel

end IFEM.Props
