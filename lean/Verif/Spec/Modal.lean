import Mathlib.Data.Matrix.Mul
import Mathlib.Algebra.BigOperators.Group.Finset.Basic

/-!
# Specification for C84: modes of a structure

A structure with `n` degrees of freedom (mass, damping and stiffness matrix) and `m` of its modes.
Nothing here refers to the model.
-/

namespace IFEM.Spec.Modal

open Matrix

/-- A structure and modes that are orthonormal with respect to the mass matrix and orthogonal with
respect to stiffness and damping. -/
structure Structure (K : Type) [Field K] (n m : Nat) where
  /-- Mass -/
  M : Matrix (Fin n) (Fin n) K
  /-- Damping -/
  C : Matrix (Fin n) (Fin n) K
  /-- Stiffness -/
  S : Matrix (Fin n) (Fin n) K
  /-- Mode shapes -/
  phi : Fin m → Fin n → K
  /-- Angular frequencies -/
  omega : Fin m → K
  /-- Modal damping -/
  zeta : Fin m → K
  mass : ∀ i j, phi i ⬝ᵥ M *ᵥ phi j = if i = j then 1 else 0
  damp : ∀ i j, phi i ⬝ᵥ C *ᵥ phi j = if i = j then zeta j else 0
  stif : ∀ i j, phi i ⬝ᵥ S *ᵥ phi j = if i = j then omega j ^ 2 else 0

variable {K : Type} [Field K] {n m : Nat}

/-- The motion with given modal amplitudes. -/
def Structure.expand (T : Structure K n m) (q : Fin m → K) : Fin n → K := ∑ j, q j • T.phi j

/-- The force missing for dynamic equilibrium. -/
def Structure.imbalance (T : Structure K n m) (R u v a : Fin n → K) : Fin n → K :=
  T.M *ᵥ a + T.C *ᵥ v + T.S *ᵥ u - R

/-- A force does no work in any of the modes. -/
def Structure.Workless (T : Structure K n m) (f : Fin n → K) : Prop := ∀ i, T.phi i ⬝ᵥ f = 0

/-- No force but zero does no work in any of the modes. -/
def Structure.Complete (T : Structure K n m) : Prop := ∀ f, T.Workless f → f = 0

end IFEM.Spec.Modal
