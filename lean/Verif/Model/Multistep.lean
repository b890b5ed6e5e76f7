import Verif.Model.RungeKutta
/-!
# Linear multistep time integration

Models `TimeIntegration::SIMExplicitLMM` (Apps/Utils/SIMExplicitLMM.h) and `SIMImplicitLMM` (Apps/Utils/SIMImplicitLMM.h).
`double` is an arbitrary field (exact arithmetic).
-/
namespace IFEM
variable {K : Type} [Field K]

/-- `AB_coefs` (SIMExplicitLMM.h:91-97). -/
def abCoefs : List (List K) :=
  [[1],
   [-1/2, 3/2],
   [5/12, -16/12, 23/12],
   [-9/24, 37/24, -59/24, 55/24],
   [251/720, -1274/720, 2616/720, -2774/720, 1901/720]]

/-- `AM_coefs` (SIMImplicitLMM.h:70-75). -/
def amCoefs : List (List K) :=
  [[1],
   [1/2, 1/2],
   [-1/12, 2/3, 5/12],
   [1/24, -5/24, 19/24, 9/24],
   [-19/720, 106/720, -264/720, 646/720, 251/720]]

/-- The order set by the constructor of `SIMExplicitLMM` (SIMExplicitLMM.h:50-59). -/
def abOrder : TimeMethod → Nat
  | .ab2 => 2
  | .ab3 => 3
  | .ab4 => 4
  | .ab5 => 5
  | _ => 1

/-- The order set by the constructor of `SIMImplicitLMM` (SIMImplicitLMM.h:43-50). -/
def amOrder : TimeMethod → Nat
  | .am2 => 2
  | .am3 => 3
  | .am4 => 4
  | _ => 1

/-- `c_order` (SIMExplicitLMM.h:99, SIMImplicitLMM.h:77); `none` is an index out of range. -/
def lmmOrder (hasICs : Bool) (order : Nat) (step : Int) : Option Nat :=
  let c : Int := if hasICs then order - 1 else min ((order : Int) - 1) (step - 1)
  if c < 0 then none else some c.toNat

/-- The simulator that is integrated in time, as seen by the multistep drivers.
`mass t u`: the coefficient matrix assembled at time `t` with solution `u`.
`load t u`: the right-hand side vector assembled at time `t` with solution `u`, the constraints being those of the rates at time `t`.
`solve M v`: solution of the linear system.
`bc t u`: imposes the boundary values at time `t` on the solution.
`hasIC j`: whether there is an initial condition field number `j`. -/
structure LmmSim (K E V L : Type) where
  mass : K → E → Option L
  load : K → E → Option V
  solve : L → V → Option E
  bc : K → E → Option E
  hasIC : Nat → Bool

variable {E V L : Type} [AddCommGroup E] [Module K E] [AddCommGroup V] [Module K V]

/-- Member data of `SIMExplicitLMM` and the data of the simulator that matter: load vectors (`nullptr` is `none`), initial condition flag,
solution vectors, coefficient matrix held. -/
structure ABState (E V L : Type) where
  loads : List (Option V)
  hasICs : Bool
  sols : List E
  held : Option L

/-- The state after construction (SIMExplicitLMM.h:47-64). -/
def abInit (m : TimeMethod) (sols : List E) : ABState E V L := ⟨List.replicate (abOrder m) none, false, sols, none⟩

/-- The loop adding the previous loads (SIMExplicitLMM.h:105-106), in which a null pointer is dereferenced if a load is missing.
`addToRHSvector` (SIMbase.C:1774-1782) skips zero scaling factors, with the same result. -/
def abAddLoads (loads : List (Option V)) (dt : K) (coef : List K) (c : Nat) (rhs : V) : Option V :=
  (List.range (coef.length - 1)).foldlM (fun rhs j =>
    ((loads.getD (c - j) none)).map fun l => rhs + (coef.getD j 0 * dt) • l) rhs

/-- `SIMExplicitLMM::solveStep` (SIMExplicitLMM.h:66-128). -/
def abSolveStep (sim : LmmSim K E V L) (order : Nat) (linear : Bool) (tp : TimeStep K) (s : ABState E V L) : Option (ABState E V L) :=
  let time := tp.t - tp.dt
  (s.sols[1]?).bind fun prev =>
  (if linear = false ∨ tp.step = 1 then sim.mass time prev else s.held).bind fun M =>
  (sim.load time prev).bind fun l0 =>
  (lmmOrder s.hasICs order tp.step).bind fun c =>
  ((abCoefs (K := K))[c]?).bind fun coef =>
  (abAddLoads (s.loads.set 0 (some l0)) tp.dt coef c ((coef.getLastD 0 * tp.dt) • l0)).bind fun rhs =>
  (sim.solve M rhs).bind fun x =>
  (sim.bc tp.t (x + prev)).map fun u =>
    { s with loads := s.loads.set 0 (some l0), sols := s.sols.set 0 u, held := some M }

/-- The loop over the initial conditions (SIMExplicitLMM.h:136-155): `cnt` more fields, the next one being number `j`. -/
def abInitConds (sim : LmmSim K E V L) (tp : TimeStep K) (sols : List E) : Nat → Nat → List (Option V) → Option (List (Option V) × Bool)
  | 0, _, loads => some (loads, true)
  | cnt + 1, j, loads =>
    if sim.hasIC j then
      (sols[j-1]?).bind fun u =>
      (sim.load (tp.t - j * tp.dt) u).bind fun l => abInitConds sim tp sols cnt (j + 1) (loads.set (j-2) (some l))
    else some (loads, false)

/-- `loads.back().reset(); for (j = order-2; j >= 0; --j) loads[j+1] = move(loads[j]); loads[0].reset()` (SIMExplicitLMM.h:158-161). -/
def abShift (loads : List (Option V)) : List (Option V) := none :: loads.dropLast

/-- `pushSolution` of the simulator in its `advanceStep` (SIMsolution.C:31-40, see `IFEM.pushSolution`), one vector per state. -/
def pushSols (sols : List E) : List E := sols.take 1 ++ sols.dropLast

/-- `SIMExplicitLMM::advanceStep` (SIMExplicitLMM.h:131-164).  The simulator's `advanceStep` is taken to push the solutions. -/
def abAdvance (sim : LmmSim K E V L) (order : Nat) (tp : TimeStep K) (s : ABState E V L) : Option (ABState E V L) :=
  (if tp.step = 1 then abInitConds sim tp s.sols (order - 1) 2 s.loads else some (s.loads, s.hasICs)).map fun r =>
    { s with loads := abShift r.1, hasICs := r.2, sols := pushSols s.sols }

/-! ### Implicit methods -/

/-- The simulator of an implicit method. `nlsolve t dt u s v`: the nonlinear solver, started in `u`, with time scale `s` and with
the vector `v` added to the right-hand side (none if it does not converge).  `load t u`: right-hand side at time `t`. -/
structure LmmNlSim (K E V : Type) where
  load : K → E → Option V
  nlsolve : K → K → E → K → V → Option E
  hasIC : Nat → Bool

/-- Member data of `SIMImplicitLMM`: the load vectors are raw pointers, here addresses into the list `heap` of all load vectors ever
allocated; an entry which has been freed is `none`. -/
structure AMState (E V : Type) where
  loads : List (Option Nat)
  hasICs : Bool
  sols : List E
  heap : List (Option V)

/-- The state after construction (SIMImplicitLMM.h:39-55). -/
def amInit (m : TimeMethod) (sols : List E) : AMState E V := ⟨List.replicate (amOrder m) none, false, sols, []⟩

/-- `delete p`: no effect for a null pointer, undefined behaviour (`none`) for memory that has been freed. -/
def deleteLoad (heap : List (Option V)) : Option Nat → Option (List (Option V))
  | none => some heap
  | some p => match heap[p]? with
    | some (some _) => some (heap.set p none)
    | _ => none

/-- `*p`: undefined behaviour (`none`) for a null pointer or freed memory. -/
def derefLoad (heap : List (Option V)) (p : Option Nat) : Option V := p.bind fun q => (heap[q]?).bind id

/-- The vector added by `LMMNonLinSIM::assembleSystem` (SIMImplicitLMM.h:182-185). -/
def amLoads (heap : List (Option V)) (loads : List (Option Nat)) (dt : K) (coef : List K) : Option V :=
  (List.range (coef.length - 1)).foldlM (fun v i =>
    (derefLoad heap (loads.getD (coef.length - i - 1) none)).map fun l => v + (coef.getD i 0 * dt) • l) 0

/-- `SIMImplicitLMM::solveStep` (SIMImplicitLMM.h:68-97). `none` is a failure; the state is unchanged then. -/
def amSolveStep (sim : LmmNlSim K E V) (order : Nat) (tp : TimeStep K) (s : AMState E V) : Option (AMState E V) :=
  (s.sols[0]?).bind fun u =>
  (lmmOrder s.hasICs order tp.step).bind fun c =>
  ((amCoefs (K := K))[c]?).bind fun coef =>
  (amLoads s.heap s.loads tp.dt coef).bind fun v =>
  (sim.nlsolve tp.t tp.dt u (coef.getLastD 0 * tp.dt) v).bind fun u' =>
  (sim.load tp.t u').map fun l =>
    { s with loads := s.loads.set 0 (some s.heap.length), sols := s.sols.set 0 u', heap := s.heap ++ [some l] }

/-- The loop over the initial conditions (SIMImplicitLMM.h:105-116). -/
def amInitConds (sim : LmmNlSim K E V) (tp : TimeStep K) (sols : List E) :
    Nat → Nat → List (Option Nat) → List (Option V) → Option (List (Option Nat) × List (Option V) × Bool)
  | 0, _, loads, heap => some (loads, heap, true)
  | cnt + 1, j, loads, heap =>
    if sim.hasIC j then
      (sols[j-1]?).bind fun u =>
      (sim.load (tp.t - j * tp.dt) u).bind fun l =>
        amInitConds sim tp sols cnt (j + 1) (loads.set (j-2) (some heap.length)) (heap ++ [some l])
    else some (loads, heap, false)

/-- `for (j = order-2; j >= 0; --j) loads[j+1] = loads[j]` (SIMImplicitLMM.h:120-121): the first pointer is kept. -/
def amShift (loads : List (Option Nat)) : List (Option Nat) := loads.take 1 ++ loads.dropLast

/-- `SIMImplicitLMM::advanceStep` (SIMImplicitLMM.h:100-124). -/
def amAdvance (sim : LmmNlSim K E V) (order : Nat) (tp : TimeStep K) (s : AMState E V) : Option (AMState E V) :=
  (if tp.step = 1 then amInitConds sim tp s.sols (order - 1) 2 s.loads s.heap else some (s.loads, s.heap, s.hasICs)).bind fun r =>
  (deleteLoad r.2.1 (r.1.getLastD none)).map fun heap =>
    { s with loads := amShift r.1, hasICs := r.2.2, sols := pushSols s.sols, heap := heap }

/-- The destructor (SIMImplicitLMM.h:58-62). -/
def amDestroy (s : AMState E V) : Option (List (Option V)) := s.loads.foldlM deleteLoad s.heap

end IFEM
