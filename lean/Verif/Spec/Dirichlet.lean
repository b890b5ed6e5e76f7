import Verif.Model.Dirichlet
import Verif.Spec.SamPatch

/-!
# Specification: fields that obey the constraints of a model (C81)
-/
namespace IFEM.Dirichlet.Spec
open IFEM.Spec
variable {K : Type} [Field K]

/-- The model with the constant terms of all constraints replaced by zero.  Two models differ in the constant terms only if they agree after this. -/
def noConst (P : List (SPatch K)) : List (SPatch K) := P.map fun p => { p with mpcs := p.mpcs.map fun m => { m with c0 := 0 } }

/-- The field vanishes in the fixed DOFs and obeys the constraints of all other slaves. -/
def Obeys (P : List (SPatch K)) (nnod : Nat) (u : Int × Int → K) : Prop :=
  (∀ k, IsDof P nnod k → FixedIn P k.1 k.2.toNat → u k = 0) ∧ ∀ m ∈ allMpcs P, ¬ FixedIn P m.node m.dof.toNat → Holds m u

/-- A DOF that is neither fixed nor a slave. -/
def OpenDof (P : List (SPatch K)) (nnod : Nat) (k : Int × Int) : Prop := IsDof P nnod k ∧ ¬ FixedIn P k.1 k.2.toNat ∧ ¬ IsSlave (allMpcs P) k

/-- The field of the constant terms alone: it obeys all constraints and vanishes in the free DOFs. -/
def IsLift (P : List (SPatch K)) (nnod : Nat) (g : Int × Int → K) : Prop := Obeys P nnod g ∧ ∀ k, OpenDof P nnod k → g k = 0

/-- The field without constant terms that agrees with `u` in the free DOFs. -/
def IsHomog (P : List (SPatch K)) (nnod : Nat) (u h : Int × Int → K) : Prop := Obeys (noConst P) nnod h ∧ ∀ k, OpenDof P nnod k → h k = u k

/-- The values of a vector of all DOFs of the model. -/
def field (P : List (SPatch K)) (u : List K) (k : Int × Int) : K := u.getD (dofIndex P k - 1) 0

/-- The tables after a sequence of updates, each with the current constraints and the previous solution; none if an update fails. -/
def history [LinearOrder K] (f : Nat) (is : List (Option Nat)) : Sam K → List (List (SPatch K) × Option (List K)) → Option (Sam K)
  | s, [] => some s
  | s, o :: os =>
    match updateConstraintEqs s f o.1 is o.2 with
    | some (s', true) => history f is s' os
    | _ => none

end IFEM.Dirichlet.Spec
