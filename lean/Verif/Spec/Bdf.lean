import Verif.Model.Bdf
import Mathlib.Algebra.Polynomial.Derivative
/-!
# Specification: backward differences
-/
namespace IFEM.Spec
open Polynomial
variable {K : Type} [Field K]

/-- The times `t, t - h₁, t - h₁ - h₂, …` of the current and the previous steps, given the step sizes, most recent first. -/
def backTimes (t : K) : List K → List K
  | [] => [t]
  | h :: hs => t :: backTimes (t - h) hs

/-- The weighted sum `Σ cᵢ u(tᵢ)` of the values of `u` at the given times. -/
def weighted (cs ts : List K) (u : K → K) : K := ((cs.zip ts).map fun p => p.1 * u p.2).sum

/-- The coefficients give `dt u'` at the current time exactly for every polynomial `u` of degree at most `n`, where the solution
is known at the end of the steps of sizes `dt :: hs` (most recent first). -/
def Exact1 (cs : List K) (n : Nat) (dt : K) (hs : List K) : Prop :=
  cs.length ≤ hs.length + 2 ∧
  ∀ (p : K[X]) (t : K), p.natDegree ≤ n → weighted cs (backTimes t (dt :: hs)) (fun x => p.eval x) = dt * (derivative p).eval t

/-- The coefficients give `dt² u''` at the current time exactly for every polynomial `u` of degree at most `n`. -/
def Exact2 (cs : List K) (n : Nat) (dt : K) (hs : List K) : Prop :=
  cs.length ≤ hs.length + 2 ∧
  ∀ (p : K[X]) (t : K), p.natDegree ≤ n →
    weighted cs (backTimes t (dt :: hs)) (fun x => p.eval x) = dt * dt * (derivative (derivative p)).eval t

/-- As `Exact2`, but for polynomials with zero derivative at the initial time `t0`, i.e., at the start of the oldest step. -/
def Exact2Start (cs : List K) (n : Nat) (dt : K) (hs : List K) : Prop :=
  cs.length ≤ hs.length + 2 ∧
  ∀ (p : K[X]) (t : K), p.natDegree ≤ n → (derivative p).eval (t - (dt :: hs).sum) = 0 →
    weighted cs (backTimes t (dt :: hs)) (fun x => p.eval x) = dt * dt * (derivative (derivative p)).eval t

/-- A step size history, most recent first: calling `advanceStep` once for each step with the step size and the previous one
(`dtn = d0` for the first step). -/
def bdfRun [LinearOrder K] (s : Bdf K) (d0 : K) : List K → Bdf K
  | [] => s
  | h :: hs => ((bdfRun s d0 hs).advanceStep h (hs.headD d0)).2

end IFEM.Spec
