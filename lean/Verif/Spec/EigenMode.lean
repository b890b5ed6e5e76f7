import Verif.Model.EigenMode
import Mathlib.Algebra.BigOperators.Group.Finset.Basic
/-!
# Specification of the combination of eigenmodes

Mode numbers start at 1.
-/
namespace IFEM.Spec
open IFEM.EigMode

variable {K : Type} [Field K] [LinearOrder K]

/-- The child sets the amplitude of mode `k` to the given value. -/
def setsAmplitude (k : Nat) : Child K → Option K
  | .mode value number _ => if number = some k ∧ k > 0 then some value else none
  | .modes list scale _ => if (k : Int) ∈ list then some scale else none
  | .other => none

/-- The child gives a frequency for mode `k`. -/
def setsFrequency (eps : K) (k : Nat) : Child K → Option K
  | .mode _ number freq => if number = some k ∧ k > 0 ∧ freq > eps then some freq else none
  | .modes list _ freq => if (k : Int) ∈ list ∧ freq > eps then some freq else none
  | .other => none

/-- The last value set by the children for mode `k`, if any. -/
def lastSet (f : Child K → Option K) (cs : List (Child K)) : Option K := (cs.filterMap f).getLast?

/-- The combination `Σ_i a_i sin(ω_i t) v_i` at one degree of freedom, modes numbered from 0. -/
def modeSum (sinf : K → K) (n : Nat) (a w : Nat → K) (v : Nat → K) (t : K) : K := ∑ i ∈ Finset.range n, a i * sinf (w i * t) * v i

end IFEM.Spec
