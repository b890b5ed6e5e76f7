import Mathlib.RingTheory.Polynomial.Chebyshev
import Mathlib.Algebra.BigOperators.Group.Finset.Basic
import Mathlib.Data.Real.Basic
import Mathlib.LinearAlgebra.Lagrange

/-!
# Specification for C83: Chebyshev expansions and Lagrange interpolation

The Chebyshev polynomials are Mathlib's `Polynomial.Chebyshev.T` and `U`; nothing here refers to
the model.
-/

namespace IFEM.Spec.Cheby

open Polynomial

/-- The affine map that takes the interval `[lo,hi]` to `[-1,1]`. -/
def natural {K : Type} [Field K] (lo hi x : K) : K := (2*x - lo - hi) / (hi - lo)

/-- The Chebyshev expansion in three directions, at a point. -/
noncomputable def expansion {K : Type} [Field K] (n : Fin 3 → Nat) (lo hi : Fin 3 → K)
    (coef : Nat → Nat → Nat → K) (X : Fin 3 → K) : K :=
  ∑ i ∈ Finset.range (n 0), ∑ j ∈ Finset.range (n 1), ∑ k ∈ Finset.range (n 2),
    coef i j k * ((Chebyshev.T K i).eval (natural (lo 0) (hi 0) (X 0)) *
      (Chebyshev.T K j).eval (natural (lo 1) (hi 1) (X 1)) *
      (Chebyshev.T K k).eval (natural (lo 2) (hi 2) (X 2)))

/-- The point at which second derivatives are taken: the end of `[-1,1]` if it is closer than
`10⁻⁶`, and otherwise the point itself. -/
def snap {K : Type} [Field K] [LinearOrder K] (x : K) : K :=
  if |x - 1| < 1/1000000 then 1 else if |x + 1| < 1/1000000 then -1 else x

end IFEM.Spec.Cheby
