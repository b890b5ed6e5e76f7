import Verif.Model.RungeKutta
import Mathlib.Algebra.BigOperators.Group.Finset.Basic
/-!
# Specification: explicit Runge-Kutta steps
-/
namespace IFEM.Spec
variable {K E L : Type} [Field K] [AddCommGroup E] [Module K E]

/-- The simulator integrates `u' = F(t,u)`, where `B t u` is `u` with the prescribed values at time `t` imposed: for every time and solution it
assembles a coefficient matrix with which the solution of the linear system is `F t u`.  If the matrix is reused (`linear`), it does not depend on
time and solution, and either this is the first time step or the simulator holds this matrix. -/
structure Integrates (sim : RKSim K E L) (B F : K → E → E) (linear : Bool) (step : Int) (held : Option L) : Prop where
  bc : ∀ t u, sim.bc t u = some (B t u)
  rate : ∀ t u, ∃ M, sim.mass t u = some M ∧ sim.rate M t u = some (F t u)
  reuse : linear = true → ∃ M0, (∀ t u, sim.mass t u = some M0) ∧ (step = 1 ∨ held = some M0)

/-- `ks` are the stages of the explicit Runge-Kutta method with coefficients `a`, `c` and `s` stages for `u' = F(t,u)`, started at time `t0` in `u`,
with step size `h`; the prescribed values are imposed on the argument of every stage at the time of the stage. -/
def IsStages (B F : K → E → E) (a : Nat → Nat → K) (c : Nat → K) (s : Nat) (t0 h : K) (u : E) (ks : List E) : Prop :=
  ks.length = s ∧ ∀ i < s, ks.getD i 0 = F (t0 + c i * h) (B (t0 + c i * h) (u + h • ∑ j ∈ Finset.range i, a i j • ks.getD j 0))

/-- A step of an embedded pair from `prev`, ending at `tp.t` with size `tp.dt`: `ks` are the stages of the tableau, `sol` is the solution (weights of
the tableau) and `err` is the size of the difference between the solution with the weights `bs` and this one. -/
structure Computed (B F : K → E → E) (T : Tableau K) (bs : List K) (norm : E → K) (tp : TimeStep K) (prev sol : E) (ks : List E) (err : K) : Prop where
  isStages : IsStages B F T.a (fun i => T.c.getD i 0) T.b.length (tp.t - tp.dt) tp.dt prev ks
  isSol : sol = B tp.t (prev + tp.dt • ∑ i ∈ Finset.range T.b.length, T.b.getD i 0 • ks.getD i 0)
  isErr : err = norm (B tp.t (prev + tp.dt • ∑ i ∈ Finset.range T.b.length, bs.getD i 0 • ks.getD i 0) - sol)

end IFEM.Spec
