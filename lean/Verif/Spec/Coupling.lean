import Verif.Spec.Galerkin
/-! # Specification: which equations an element acts on -/
namespace IFEM.Spec
variable {R : Type}

/-- Element `iel` acts on equation `r`: one of its DOFs owns the equation, or is prescribed by a constraint with a
master DOF owning the equation. -/
def ActsOn (s : Sam R) (D : FEModel R) (iel : Nat) (r : Int) : Prop :=
  ∃ d, some d ∈ D.dofsOf iel ∧
    ((D.Free d ∧ EqnOf s d r) ∨ ∃ c ∈ D.cons, c.slave = d ∧ ∃ m ∈ c.masters, EqnOf s m.1 r)

/-- No DOF occurs twice in the element. -/
def NoRepeat (D : FEModel R) (iel : Nat) : Prop :=
  ∀ (i j : Fin (D.dofsOf iel).length) (d : Nat), (D.dofsOf iel)[i] = some d → (D.dofsOf iel)[j] = some d → i = j

end IFEM.Spec
