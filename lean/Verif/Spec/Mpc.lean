import Verif.Model.Mpc
import Mathlib.Algebra.BigOperators.Group.List.Basic
/-!
# Specification: the meaning of constraint equations

A displacement field gives a value to every DOF (node number, local DOF number).
-/
namespace IFEM.Spec
variable {K : Type} [Field K]

/-- The sum of the master terms in a displacement field. -/
def masterSum (u : Int × Int → K) (l : List (MTerm K)) : K := (l.map fun t => t.coeff * u (t.node, t.dof)).sum

/-- The displacement field obeys the constraint equation `s = c0 + c1·m1 + c2·m2 + …` -/
def Holds (m : Mpc K) (u : Int × Int → K) : Prop := u (m.node, m.dof) = m.c0 + masterSum u m.master

/-- It obeys all constraint equations. -/
def HoldAll (H : List (Mpc K)) (u : Int × Int → K) : Prop := ∀ m ∈ H, Holds m u

/-- No two constraint equations have the same slave. -/
def UniqueSlaves (H : List (Mpc K)) : Prop := (H.map fun m => (m.node, m.dof)).Nodup

/-- A DOF is a slave. -/
def IsSlave (H : List (Mpc K)) (k : Int × Int) : Prop := ∃ m ∈ H, (m.node, m.dof) = k

/-- The chains of constraint equations have no cycles: the slaves can be ranked such that masters which are slaves have lower rank than their slave. -/
def Acyclic (H : List (Mpc K)) : Prop := ∃ rank : Int × Int → Nat,
  ∀ m ∈ H, ∀ t ∈ m.master, IsSlave H (t.node, t.dof) → rank (t.node, t.dof) < rank (m.node, m.dof)

/-- No master of the constraint is a slave. -/
def Unchained (H : List (Mpc K)) (m : Mpc K) : Prop := ∀ t ∈ m.master, ¬ IsSlave H (t.node, t.dof)

end IFEM.Spec
