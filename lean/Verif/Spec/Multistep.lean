import Verif.Model.Multistep
import Mathlib.Algebra.BigOperators.Group.Finset.Basic
/-!
# Specification: linear multistep methods
-/
namespace IFEM.Spec
variable {K E V L : Type} [Field K] [AddCommGroup E] [Module K E] [AddCommGroup V] [Module K V]

/-- The simulator has the constant coefficient matrix `M0`, its load is `ℓ t u`, and `S v` is the solution of the linear system with right-hand
side `v`, up to the values that are prescribed; `B t u` is `u` with the prescribed values at time `t` imposed. -/
structure LmmIntegrates (sim : LmmSim K E V L) (M0 : L) (ℓ : K → E → V) (S : V →+ E) (B : K → E → E) : Prop where
  mass : ∀ t u, sim.mass t u = some M0
  load : ∀ t u, sim.load t u = some (ℓ t u)
  solve : ∀ v, ∃ x, sim.solve M0 v = some x ∧ ∀ t u, sim.bc t (x + u) = some (B t (u + S v))
  smul : ∀ (c : K) v, S (c • v) = c • S v

/-- The implicit simulator has the load `ℓ t u`, `S v` is the solution of the linear system with right-hand side `v`, and if the nonlinear solver converges,
then to a solution `w` of `w = u + s f(t,w) + S v`, `f` being `S ℓ`, with the prescribed values at time `t` imposed. -/
structure LmmNlIntegrates (sim : LmmNlSim K E V) (ℓ : K → E → V) (S : V →+ E) (B : K → E → E) : Prop where
  load : ∀ t u, sim.load t u = some (ℓ t u)
  nlsolve : ∀ t dt u s v w, sim.nlsolve t dt u s v = some w → w = B t (u + (s • S (ℓ t w) + S v))
  smul : ∀ (c : K) v, S (c • v) = c • S v

/-- Equidistant time steps starting at `t0`. -/
structure Equidistant (tp : Nat → TimeStep K) (t0 dt : K) : Prop where
  step : ∀ n, (tp n).step = n
  t : ∀ n : Nat, (tp n).t = t0 + n * dt
  dt : ∀ n, (tp n).dt = dt

/-- The time loop (`while (advanceStep(tp)) solveStep(tp)`, SIMSolver.h): `n` steps with an explicit method. -/
def abRun (sim : LmmSim K E V L) (order : Nat) (linear : Bool) (tp : Nat → TimeStep K) (s : ABState E V L) : Nat → Option (ABState E V L)
  | 0 => some s
  | n + 1 => (abRun sim order linear tp s n).bind fun s => (abAdvance sim order (tp (n+1)) s).bind (abSolveStep sim order linear (tp (n+1)))

/-- The time loop with an implicit method. -/
def amRun (sim : LmmNlSim K E V) (order : Nat) (tp : Nat → TimeStep K) (s : AMState E V) : Nat → Option (AMState E V)
  | 0 => some s
  | n + 1 => (amRun sim order tp s n).bind fun s => (amAdvance sim order (tp (n+1)) s).bind (amSolveStep sim order (tp (n+1)))

/-- One step of a multistep method with `q` weights `w`: the increment, where `f k` is the rate at time level `k` and `k` is the level of the latest
rate that is used. -/
def msIncrement (w : List K) (q : Nat) (dt : K) (f : Int → E) (k : Int) : E :=
  dt • ∑ j ∈ Finset.range q, w.getD j 0 • f (k - ((q : Int) - 1 - (j : Int)))

end IFEM.Spec
