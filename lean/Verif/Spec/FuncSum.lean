import Mathlib.Order.Bounds.Basic
import Mathlib.Algebra.BigOperators.Group.List.Basic
import Mathlib.Algebra.Order.Field.Basic
/-!
# Specification of weighted sums of functions
-/
namespace IFEM.Spec

variable {K : Type} [Field K] [LinearOrder K]

/-- The weighted sum of the pairs (value, weight). -/
def wsum (l : List (K × K)) : K := (l.map fun p => p.2 * p.1).sum

/-- `m` is the largest of the values. -/
def IsLargest (l : List K) (m : K) : Prop := m ∈ l ∧ ∀ v ∈ l, v ≤ m

/-- The functions that remain when those of another dimension than the first one are left out. -/
def sameDim {F : Type} (dim : F → Nat) : List (F × K) → List (F × K)
  | [] => []
  | c :: l => (c :: l).filter fun d => dim d.1 = dim c.1

end IFEM.Spec
