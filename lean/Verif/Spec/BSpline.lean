import Mathlib.Algebra.Order.Field.Basic
/-!
# Specification: B-spline basis functions (Cox–de Boor recursion)
-/
namespace IFEM.Spec
variable {K : Type} [Field K] [LinearOrder K] [IsStrictOrderedRing K]

/-- The B-spline basis function number `k` of order `p` (degree `p-1`) on the knots `t`; a quotient with zero denominator counts as zero. -/
def bspline (t : Nat → K) : Nat → Nat → K → K
  | 0, _, _ => 0
  | 1, k, x => if t k ≤ x ∧ x < t (k+1) then 1 else 0
  | p+2, k, x => (x - t k) / (t (k+p+1) - t k) * bspline t (p+1) k x + (t (k+p+2) - x) / (t (k+p+2) - t (k+1)) * bspline t (p+1) (k+1) x

/-- The flags telling which of the first `n` knot intervals have positive length. -/
def knotSpans (t : Nat → K) (n : Nat) : List Bool := (List.range n).map fun m => decide (t m < t (m+1))

end IFEM.Spec
