import Verif.Model.Arrays
/-!
# Specification: equation numbering and constraint tables

Written without reference to the model's functions: only lists of integers occur
(and `at1?`, the checked read `a[i-1]`).
-/
namespace IFEM.Spec

/-- DOF `d` (0-based) is free: it has status 1 or 2. -/
def IsFree (status : List Int) (d : Nat) : Prop := status[d]? = some 1 ∨ status[d]? = some 2

/-- `eqn` numbers the free DOFs bijectively by `1..neq`, status-1 DOFs first, each group in DOF
order, and gives no positive number to any other DOF. -/
structure EquationNumbering (status eqn : List Int) (neq : Nat) : Prop where
  length : eqn.length = status.length
  range : ∀ (d : Nat) (e : Int), IsFree status d → eqn[d]? = some e → 1 ≤ e ∧ e ≤ neq
  inj : ∀ (d d' : Nat) (e : Int), IsFree status d → IsFree status d' → eqn[d]? = some e → eqn[d']? = some e → d = d'
  surj : ∀ e : Int, 1 ≤ e → e ≤ neq → ∃ d, IsFree status d ∧ eqn[d]? = some e
  first : ∀ (d d' : Nat) (e e' : Int), status[d]? = some 1 → status[d']? = some 2 →
    eqn[d]? = some e → eqn[d']? = some e' → e < e'
  ordered : ∀ (d d' : Nat) (e e' : Int), d < d' → IsFree status d → status[d']? = status[d]? →
    eqn[d]? = some e → eqn[d']? = some e' → e < e'
  suppressed : ∀ (d : Nat) (e : Int), ¬ IsFree status d → eqn[d]? = some e → e ≤ 0

/-- Constraint equation `i` (1-based) of the tables is well formed: its slave DOF exists and is
suppressed, all its master DOFs exist and are free. -/
def ConstraintOK (status mpmceq mmceq : List Int) (i : Nat) : Prop :=
  ∃ ip jp idof : Int,
    at1? mpmceq i = some ip ∧ at1? mpmceq ((i : Int) + 1) = some (jp+1) ∧ ip ≤ jp ∧
    at1? mmceq ip = some idof ∧ at1? status idof = some 0 ∧
    ∀ k, ip < k → k ≤ jp → ∃ jdof, at1? mmceq k = some jdof ∧
      (at1? status jdof = some 1 ∨ at1? status jdof = some 2)

/-- DOF `d` (1-based) is the slave of constraint `i`. -/
def SlaveOf (mpmceq mmceq : List Int) (i : Nat) (d : Int) : Prop :=
  ∃ ip, at1? mpmceq i = some ip ∧ at1? mmceq ip = some d

end IFEM.Spec
