import Mathlib.Algebra.BigOperators.Group.List.Basic
import Verif.Spec.FEModel
import Verif.Spec.SamNorms
/-!
# Specification: sums of reaction forces
-/
namespace IFEM.Spec
variable {R : Type}

/-- The vector `rf` holds, for every suppressed DOF `d`, the reaction force `f d`, at the index given by the (negative) status code of the DOF (src/LinAlg/SAM.h:344, SAM.C:247-248). -/
def HoldsReactions (s : Sam R) (D : FEModel R) (rf : List R) (f : Nat → R) : Prop :=
  rf.length = s.nspdof ∧ ∀ d, D.Suppressed d → ∃ r : Int, at1? s.msc d = some (-r) ∧ at1? rf r = some (f d)

open Classical in
/-- The reaction force in local direction `dir` (from 1) of node `n`; zero if there is no such DOF, or it is free. -/
noncomputable def reactionAt [Zero R] (D : FEModel R) (dir : Nat) (f : Nat → R) (n : Nat) : R :=
  match (D.nodeDofs n)[dir-1]? with
  | some d => if D.Suppressed d then f d else 0
  | none => 0

open Classical in
/-- Sum of the reaction forces in local direction `dir` over the nodes satisfying `P`. -/
noncomputable def reactionSum [AddCommMonoid R] (D : FEModel R) (dir : Nat) (f : Nat → R) (P : Nat → Prop) : R :=
  ((List.range' 1 D.nndof.length).map fun n => if P n then reactionAt D dir f n else 0).sum

open Classical in
/-- The prescribed DOFs: those given by a constraint without master DOFs. -/
def Prescribed (D : FEModel R) (d : Nat) : Prop := ∃ c ∈ D.cons, c.slave = d ∧ c.masters = []

end IFEM.Spec
