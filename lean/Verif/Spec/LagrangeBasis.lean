import Mathlib.Algebra.Polynomial.Derivative
import Mathlib.Algebra.Polynomial.Eval.Degree
/-!
# Specification: Lagrange polynomials
-/
namespace IFEM.Spec
open Polynomial

/-- `P` is the Lagrange polynomial of point number `i`: of degree less than the number of points, one at that point and zero at all others. -/
structure IsLagrange {K : Type} [Field K] (points : List K) (i : Nat) (P : K[X]) : Prop where
  deg : P.degree < (points.length : WithBot ℕ)
  one : ∀ x, points[i]? = some x → P.eval x = 1
  zero : ∀ (j : Nat) (x : K), points[j]? = some x → j ≠ i → P.eval x = 0

/-- Function number `i` of a direction: without points the direction is absent, and the only function is the constant one. -/
def IsDirFun {K : Type} [Field K] (points : List K) (i : Nat) (P : K[X]) : Prop := (points = [] ∧ P = 1) ∨ (points ≠ [] ∧ IsLagrange points i P)

/-- A polynomial in three variables as a list of terms: coefficient and the three exponents. -/
def poly3 {K : Type} [Field K] (terms : List (K × Nat × Nat × Nat)) (x y z : K) : K :=
  (terms.map fun t => t.1 * x ^ t.2.1 * y ^ t.2.2.1 * z ^ t.2.2.2).sum

end IFEM.Spec
