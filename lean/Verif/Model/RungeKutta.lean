import Verif.Model.TimeStep
import Mathlib.Algebra.Module.Defs
/-!
# Explicit Runge-Kutta time integration

Models `TimeIntegration::SIMExplicitRK` (Apps/Utils/SIMExplicitRK.h), `SIMExplicitRKE` (Apps/Utils/SIMExplicitRKE.h) and the
Runge-Kutta part of Apps/Utils/TimeIntUtils.C.  `double` is an arbitrary field (exact arithmetic).
-/
namespace IFEM

/-- `TimeIntegration::Method` (TimeIntUtils.h:29-61). -/
inductive TimeMethod
  | none | euler | heun | rk3 | rk4 | ab1 | ab2 | ab3 | ab4 | ab5 | am1 | am2 | am3 | am4 | be | bdf2
  | heunEuler | bogackiShampine | fehlberg | theta
  deriving DecidableEq

/-- `TimeIntegration::get` (TimeIntUtils.C:16-58). -/
def TimeMethod.get (type : String) : TimeMethod :=
  if type = "be" then .be
  else if type = "bdf2" then .bdf2
  else if type = "cn" then .theta
  else if type = "euler" then .euler
  else if type = "heun" then .heun
  else if type = "heuneuler" then .heunEuler
  else if type = "bs" then .bogackiShampine
  else if type = "fehlberg" then .fehlberg
  else if type = "rk3" then .rk3
  else if type = "rk4" then .rk4
  else if type = "ab1" then .ab1
  else if type = "ab2" then .ab2
  else if type = "ab3" then .ab3
  else if type = "ab4" then .ab4
  else if type = "ab5" then .ab5
  else if type = "am1" then .am1
  else if type = "am2" then .am2
  else if type = "am3" then .am3
  else if type = "am4" then .am4
  else .none

/-- `TimeIntegration::Order` (TimeIntUtils.C:61-88). -/
def TimeMethod.order : TimeMethod → Nat
  | .ab1 | .am1 | .be | .euler => 1
  | .ab2 | .am2 | .bdf2 | .heun | .theta => 2
  | .ab3 | .am3 | .rk3 => 3
  | .ab4 | .am4 | .rk4 => 4
  | .ab5 => 5
  | _ => 0

/-- `TimeIntegration::Steps` (TimeIntUtils.C:91-109). -/
def TimeMethod.steps : TimeMethod → Nat
  | .ab5 => 5
  | .ab4 | .am4 => 4
  | .ab3 | .am3 => 3
  | .ab2 | .am2 | .bdf2 => 2
  | _ => 1

/-- `TimeIntegration::RKTableaux` (TimeIntUtils.h:64-69).  The matrix `A` is stored by rows; entries never assigned are zero
(`Matrix::resize` clears). -/
structure Tableau (K : Type) where
  order : Nat
  A : List (List K)
  b : List K
  c : List K

/-- `RK.A(i+1,j+1)`. -/
def Tableau.a {K : Type} [Zero K] (T : Tableau K) (i j : Nat) : K := ((T.A.getD i []).getD j 0)

variable {K : Type} [Field K]

/-- The tableau chosen by the constructor of `SIMExplicitRK` (SIMExplicitRK.h:37-73). -/
def rkTableau : TimeMethod → Tableau K
  | .euler => ⟨1, [[0]], [1], [0]⟩
  | .heun => ⟨2, [[0, 0], [1, 0]], [1/2, 1/2], [0, 1]⟩
  | .rk3 => ⟨3, [[0, 0, 0], [1/2, 0, 0], [-1, 2, 0]], [1/6, 2/3, 1/6], [0, 1/2, 1]⟩
  | .rk4 => ⟨4, [[0, 0, 0, 0], [1/2, 0, 0, 0], [0, 1/2, 0, 0], [0, 0, 1, 0]], [1/6, 1/3, 1/3, 1/6], [0, 1/2, 1/2, 1]⟩
  | _ => ⟨0, [], [], []⟩

/-- The tableau and the weights `bs` of the embedded method chosen by the constructor of `SIMExplicitRKE`
(SIMExplicitRKE.h:32-76). -/
def rkeTableau : TimeMethod → Tableau K × List K
  | .heunEuler => (⟨1, [[0, 0], [1, 0]], [1, 0], [0, 1]⟩, [1/2, 1/2])
  | .bogackiShampine => (⟨2, [[0, 0, 0, 0], [1/2, 0, 0, 0], [0, 3/4, 0, 0], [2/9, 1/3, 4/9, 0]],
      [7/24, 1/4, 1/3, 1/8], [0, 1/2, 3/4, 1]⟩, [2/9, 1/3, 4/9, 0])
  | .fehlberg => (⟨4, [[0, 0, 0, 0, 0, 0], [1/4, 0, 0, 0, 0, 0], [3/32, 9/32, 0, 0, 0, 0],
      [1932/2197, -7200/2197, 7296/2197, 0, 0, 0], [439/216, -8, 3680/513, -845/4104, 0, 0],
      [-8/27, 2, -3544/2565, 1859/4104, -11/40, 0]],
      [25/216, 0, 1408/2565, 2197/4104, -1/5, 0], [0, 1/4, 3/8, 12/13, 1, 1/2]⟩,
      [16/135, 0, 6656/12825, 28561/56430, -9/50, 2/55])
  | _ => (⟨0, [], [], []⟩, [])

/-- The simulator that is integrated in time, as seen by the Runge-Kutta driver; each operation may fail.
`bc t u`: `updateDirichlet(t,&dum)` followed by `applyDirichlet(u)`, imposing the boundary values at time `t`.
`mass t u`: the coefficient matrix assembled at time `t` with solution `u`.
`rate M t u`: right-hand side assembly at time `t` with solution `u`, with the boundary values of the unknown constrained to their rate of
change (`updateDirichlet(t,&zeroRef,true)`), and solution with the coefficient matrix `M`. -/
structure RKSim (K E L : Type) where
  bc : K → E → Option E
  mass : K → E → Option L
  rate : L → K → E → Option E

variable {E L : Type} [AddCommGroup E] [Module K E]

/-- The loop adding the previous stages to the solution (SIMExplicitRK.h:106-108), and the one adding the weighted stages
(SIMExplicitRK.h:139-140). -/
def addStages (dt : K) (w : Nat → K) (stages : List E) (n : Nat) (u : E) : E :=
  (List.range n).foldl (fun tmp j => tmp + (dt * w j) • stages.getD j 0) u

/-- One turn of the stage loop (SIMExplicitRK.h:105-136).  The state is the coefficient matrix held by the simulator (if any) and
the stages computed so far. -/
def rkStage (sim : RKSim K E L) (T : Tableau K) (linear : Bool) (tp : TimeStep K) (u : E) (s : Option L × List E) (i : Nat) :
    Option (Option L × List E) :=
  let time := tp.t + tp.dt * (T.c.getD i 0 - 1)
  (sim.bc time (addStages tp.dt (T.a i) s.2 i u)).bind fun tmp =>
  (if linear = false ∨ (tp.step = 1 ∧ i = 0) then sim.mass time tmp else s.1).bind fun M =>
  (sim.rate M time tmp).bind fun k => some (some M, s.2 ++ [k])

/-- `SIMExplicitRK::solveRK` (SIMExplicitRK.h:98-153): the coefficient matrix held afterwards, the new solution and the stages. -/
def solveRK (sim : RKSim K E L) (T : Tableau K) (linear : Bool) (tp : TimeStep K) (M : Option L) (u : E) :
    Option (Option L × E × List E) :=
  ((List.range T.b.length).foldlM (rkStage sim T linear tp u) (M, [])).bind fun s =>
  (sim.bc tp.t (addStages tp.dt (fun i => T.b.getD i 0) s.2 T.b.length u)).bind fun u' => some (s.1, u', s.2)

/-- The error estimate of `SIMExplicitRKE::solveStep` (SIMExplicitRKE.h:92-102): the norm of the difference between the embedded
and the computed solution. -/
def rkeEstimate (sim : RKSim K E L) (norm : E → K) (bs : List K) (tp : TimeStep K) (prev sol : E) (stages : List E) : Option K :=
  (sim.bc tp.t (addStages tp.dt (fun i => bs.getD i 0) stages stages.length prev)).map fun e => norm (e - sol)

variable [LinearOrder K]

/-- The loop `while (ok && prevEst > errTol)` of `SIMExplicitRKE::solveStep` (SIMExplicitRKE.h:89-116), with at most `fuel` turns.
The result is the time step information, the coefficient matrix, the solution and the last estimate; none if the step failed. -/
def rkeLoop (sim : RKSim K E L) (norm : E → K) (T : Tableau K) (bs : List K) (linear : Bool) (errTol : K) (prev : E) :
    Nat → TimeStep K → Option L → E → List E → K → Option (TimeStep K × Option L × E × K)
  | 0, _, _, _, _, _ => none
  | fuel + 1, tp, M, sol, stages, est =>
    if est > errTol then
      (rkeEstimate sim norm bs tp prev sol stages).bind fun est' =>
      if est' > errTol then
        if tp.cutback.2 then
          (solveRK sim T linear tp.cutback.1 M prev).bind fun r =>
            rkeLoop sim norm T bs linear errTol prev fuel tp.cutback.1 r.1 r.2.1 r.2.2 est'
        else none
      else rkeLoop sim norm T bs linear errTol prev fuel tp M sol stages est'
    else some (tp, M, sol, est)

/-- `SIMExplicitRKE::solveStep` (SIMExplicitRKE.h:79-124); `root x n` stands for `pow(x,1.0/n)`. -/
def rkeSolveStep (sim : RKSim K E L) (norm : E → K) (root : K → Nat → K) (T : Tableau K) (bs : List K) (linear : Bool) (errTol : K)
    (fuel : Nat) (tp : TimeStep K) (M : Option L) (u : E) : Option (TimeStep K × Option L × E) :=
  (solveRK sim T linear tp M u).bind fun r =>
  (rkeLoop sim norm T bs linear errTol u fuel tp r.1 r.2.1 r.2.2 1).map fun q =>
    (if q.2.2.2 > 0 then { q.1 with dt := q.1.dt * root (errTol / q.2.2.2) (T.order + 1) } else q.1, q.2.1, q.2.2.1)

end IFEM
