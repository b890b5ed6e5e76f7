import Mathlib.Algebra.Order.Field.Basic
import Mathlib.Algebra.Order.Group.Abs
/-!
# Time levels of a result file
-/
namespace IFEM.FieldFile.Spec
variable {K : Type} [Field K] [LinearOrder K]

/-- The times of the levels of a file are strictly increasing. -/
def Increasing (f : List K) : Prop := ∀ (i j : Nat) (a b : K), i < j → f[i]? = some a → f[j]? = some b → a < b

/-- Level `k` of the file has the time closest to `t`. -/
def Closest (f : List K) (t : K) (k : Nat) : Prop := ∃ a : K, f[k]? = some a ∧ ∀ (j : Nat) (b : K), f[j]? = some b → |t - a| ≤ |t - b|

end IFEM.FieldFile.Spec
