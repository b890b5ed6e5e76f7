import Verif.Model.Patch
/-!
# Specification of a renumbering
-/
namespace IFEM.Spec

/-- `n` is a node number used by some patch. -/
def Used (mlgns : List (List Int)) (n : Int) : Prop := ∃ l ∈ mlgns, n ∈ l

/-- `f` numbers the used nodes from 1 to `N`: every used node gets a number in the range, different nodes get different numbers, and every
number of the range is given. -/
structure Numbers (mlgns : List (List Int)) (f : Int → Int) (N : Nat) : Prop where
  range : ∀ n, Used mlgns n → 1 ≤ f n ∧ f n ≤ N
  inj : ∀ a b, Used mlgns a → Used mlgns b → f a = f b → a = b
  onto : ∀ k : Int, 1 ≤ k → k ≤ N → ∃ n, Used mlgns n ∧ f n = k

/-- `a` occurs before `b` when the patches are traversed in order: `b` does not occur in front of the first `a`. -/
def OccursBefore (l : List Int) (a b : Int) : Prop := ∃ s t : List Int, l = s ++ a :: t ∧ a ∉ s ∧ b ∉ s ∧ a ≠ b ∧ b ∈ t

end IFEM.Spec
