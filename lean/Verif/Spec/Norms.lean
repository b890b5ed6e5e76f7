import Verif.Model.Norms

/-!
# Specification of the solution norms

The value of norm number `i` over a list of contributions is the sum of what they add to it; norm `j` (from 0) of group `k` has number `place`.
-/
namespace IFEM.Norms.Spec

/-- The sum of the contributions to norm number `i`. -/
noncomputable def total (cs : List Contribution) (i : Nat) : ℝ := (cs.map fun c => c.2.getD i 0).sum

/-- The sum of the contributions of one element to norm number `i`. -/
noncomputable def ofElement (cs : List Contribution) (e i : Nat) : ℝ := total (cs.filter fun c => c.1 = e) i

/-- The number of norm `j` of group `k` if the groups are stored one after the other. -/
def place (sizes : List Nat) (k j : Nat) : Nat := (sizes.take k).sum + j

/-- The external energy belongs to the second norm of the first group, if there is one. -/
noncomputable def external (sizes : List Nat) (energy : ℝ) (i : Nat) : ℝ := if i = 1 ∧ 2 ≤ sizes.headD 0 then energy else 0

/-- Contributions as an integrand with norm groups of the given sizes on a mesh with `nel` elements makes them. -/
def Fits (sizes : List Nat) (nel : Nat) (cs : List Contribution) : Prop := ∀ c ∈ cs, c.1 < nel ∧ c.2.length = sizes.sum

end IFEM.Norms.Spec
