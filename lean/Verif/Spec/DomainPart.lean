import Verif.Model.DomainPart

/-! # Specification of the global equation numbers for a partitioning of the elements -/
namespace IFEM.DomPart

/-- The process has an element with this equation. -/
def Has (getElmEqns : Nat → List Int) (elms : Nat → List Nat) (p : Nat) (eq : Int) : Prop := ∃ e ∈ elms p, eq ∈ getElmEqns (e+1)

/-- The global number of an equation in the table of a process. -/
def number (r : Res) (eq : Int) : Int := r.mlgeq.getD (eq-1).toNat 0

/-- What the numbers have to be like. -/
structure Numbered (nproc neq : Nat) (getElmEqns : Nat → List Int) (elms : Nat → List Nat) (out : Nat → Res) : Prop where
  /-- all processes have the same table, of the right length -/
  same : ∀ p < nproc, ∀ q < nproc, (out p).mlgeq = (out q).mlgeq
  length : ∀ p < nproc, (out p).mlgeq.length = neq
  /-- the ranges of the processes follow each other without gaps, starting at 1 -/
  first : (out 0).minEq = 1
  next : ∀ p, p + 1 < nproc → (out (p+1)).minEq = (out p).maxEq + 1
  range : ∀ p < nproc, (out p).minEq ≤ (out p).maxEq + 1
  /-- an equation without any element has no number -/
  none : ∀ p < nproc, ∀ eq : Int, 1 ≤ eq → eq ≤ neq → ((∀ q < nproc, ¬ Has getElmEqns elms q eq) ↔ number (out p) eq = -1)
  /-- the number of an equation is in the range of the first process that has an element with it -/
  owner : ∀ p < nproc, ∀ q < nproc, ∀ eq : Int, 1 ≤ eq → eq ≤ neq → Has getElmEqns elms q eq → (∀ q' < q, ¬ Has getElmEqns elms q' eq) →
    (out q).minEq ≤ number (out p) eq ∧ number (out p) eq ≤ (out q).maxEq
  /-- different equations have different numbers, and no number is left out -/
  inj : ∀ p < nproc, ∀ a b : Int, 1 ≤ a → a ≤ neq → 1 ≤ b → b ≤ neq → number (out p) a = number (out p) b → number (out p) a ≠ -1 → a = b
  onto : ∀ p < nproc, ∀ q < nproc, ∀ g : Int, (out q).minEq ≤ g → g ≤ (out q).maxEq → ∃ eq : Int, 1 ≤ eq ∧ eq ≤ neq ∧ number (out p) eq = g
  /-- the inverse map gives the equation of a number -/
  inverse : ∀ p < nproc, ∀ eq : Int, 1 ≤ eq → eq ≤ neq → number (out p) eq ≠ -1 → (out p).g2leq.lookup (number (out p) eq) = some eq

/-- All processes are done, with these results. -/
def finished (nproc : Nat) (out : Nat → Res) : Nat → Mpi.Prog (Option Res) := fun r => if r < nproc then .done (some (out r)) else .done .none

end IFEM.DomPart
