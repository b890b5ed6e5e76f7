import Verif.Model.Tensor4
import Mathlib.Algebra.BigOperators.Group.Finset.Basic
import Mathlib.Order.Interval.Finset.Nat
/-!
# Specification of fourth-order tensors
-/
namespace IFEM.Spec

variable {R : Type}

/-- The double contraction of a fourth-order tensor with a second-order tensor: `(T:A)_ij = Σ_kl T_ijkl A_kl`, with indices from 1 to `n`. -/
def contract [Ring R] (n : Nat) (T : Nat → Nat → Nat → Nat → R) (A : Nat → Nat → R) (i j : Nat) : R :=
  ∑ k ∈ Finset.Icc 1 n, ∑ l ∈ Finset.Icc 1 n, T i j k l * A k l

/-- The trace of a second-order tensor. -/
def trace2 [Ring R] (n : Nat) (A : Nat → Nat → R) : R := ∑ k ∈ Finset.Icc 1 n, A k k

end IFEM.Spec
