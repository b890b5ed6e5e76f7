import Mathlib.Algebra.Order.Field.Basic
import Mathlib.Algebra.Order.AbsoluteValue.Basic
import Mathlib.Algebra.Module.Basic
/-!
# Nonlinear solution drivers

Models the convergence control and the iteration loop of `NonLinSIM` and `NewmarkSIM` (src/SIM/NonLinSIM.C, src/SIM/NewmarkSIM.C).

`double` is an arbitrary linearly ordered field, extended by NaN where NaN can occur in the norms (`Option K`, `none` = NaN, all
comparisons with NaN being false).  Everything the drivers ask of the FE model (assembly, equation solving, norms, energies) is an
oracle, i.e., an arbitrary function of the iteration index.  Printing and rotational degrees of freedom are not modelled.
-/
namespace IFEM
variable {K : Type} [Field K] [LinearOrder K]

/-- `SIM::ConvStatus` (src/SIM/SIMenums.h:49-56). -/
inductive ConvStatus | failure | diverged | slow | ok | converged
deriving DecidableEq, Repr

/-- `a < b` for doubles, where `none` is NaN. -/
def nanLt (a b : Option K) : Bool := match a, b with
  | some x, some y => decide (x < y)
  | _, _ => false

/-- `a <= b` for doubles, where `none` is NaN. -/
def nanLe (a b : Option K) : Bool := match a, b with
  | some x, some y => decide (x ≤ y)
  | _, _ => false

/-- Control parameters of the drivers: `linear` is `iteNorm <= NONE`, `first` is `subiter&FIRST`, `all` is `refNopt == ALL`
(NonLinSIM.h:113-130, NewmarkSIM.h, MultiStepSIM.h). -/
structure ConvPar (K : Type) where
  linear  : Bool
  first   : Bool
  all     : Bool
  rTol    : K
  aTol    : K
  divgLim : K
  maxIncr : Int
  maxit   : Int

/-- The memory of `checkConvergence`: the member `refNorm`, and the function-local static variables (NonLinSIM.C:416-418,
NewmarkSIM.C:546-548). -/
structure ConvMem (K : Type) where
  refNorm   : K
  convTol   : K
  prevNorm  : Option K
  nIncrease : Int
deriving DecidableEq

/-- First part of `checkConvergence` for `param.iter == 0` (NonLinSIM.C:426-446, NewmarkSIM.C:556-577): sets the reference norm and the
tolerance.  Returns the scaled norm and the new memory. -/
def convStart (p : ConvPar K) (norm : Option K) (m : ConvMem K) : Option K × ConvMem K :=
  let ref := if (p.first && p.all) || nanLt (some m.refNorm) (norm.map abs) then norm.map abs else some m.refNorm
  -- a NaN reference norm fails the comparison below
  match ref with
  | some r =>
    if r * p.rTol > p.aTol then (norm.map (· / r), ⟨r, p.rTol, norm.map (· / r), 0⟩)
    else (norm, ⟨1, p.aTol, norm, 0⟩)
  | none => (norm, ⟨1, p.aTol, norm, 0⟩)

/-- Last part of `checkConvergence` (NonLinSIM.C:481-493, NewmarkSIM.C:597-609). -/
def convVerdict (p : ConvPar K) (iter : Int) (norm inc : Option K) (status : ConvStatus) (m : ConvMem K) : ConvStatus × ConvMem K :=
  let m' := { m with prevNorm := norm }
  if nanLt (norm.map abs) (some m.convTol) && (decide (iter > 0) || p.all) then (.converged, m')
  else if inc.isNone then (.diverged, m')
  else if nanLe (norm.map abs) (m.prevNorm.map abs) then (status, { m' with nIncrease := 0 })
  else if m.nIncrease + 1 > p.maxIncr || nanLt (some p.divgLim) (norm.map abs) then
    (.diverged, { m' with nIncrease := m.nIncrease + 1 })
  else (status, { m' with nIncrease := m.nIncrease + 1 })

/-- `NonLinSIM::checkConvergence` (NonLinSIM.C:409-495) with `norm` the norm selected by `iteNorm` and `inc` the norm of the
solution increment. -/
def nlCheck (p : ConvPar K) (iter : Int) (norm inc : Option K) (m : ConvMem K) : ConvStatus × ConvMem K :=
  if p.linear then (.converged, m)
  else if iter = 0 then
    if inc = some 0 then (.converged, m)
    else
      let s := convStart p norm m
      convVerdict p iter s.1 inc .ok s.2
  else
    let nrm := norm.map (· / m.refNorm)
    let slow := decide (iter > 1) && nanLt (some 0) m.prevNorm && nanLt (m.prevNorm.map (· * (1/10))) (nrm.map abs)
    convVerdict p iter nrm inc (if slow then .slow else .ok) m

/-- `NewmarkSIM::checkConvergence` (NewmarkSIM.C:544-611). -/
def nmCheck (p : ConvPar K) (iter : Int) (norm inc : Option K) (m : ConvMem K) : ConvStatus × ConvMem K :=
  if iter = 0 then
    if inc = some 0 then (.converged, m)
    else
      let s := convStart p norm m
      convVerdict p iter s.1 inc .ok s.2
  else convVerdict p iter (norm.map (· / m.refNorm)) inc .ok m

/-! ## Line search -/

variable {V : Type} [AddCommGroup V] [Module K V]

/-- The part of the state of `NonLinSIM` changed by the line search: current solution, `alpha` and `alphaO`. -/
structure LsState (K V : Type) where
  u      : V
  alpha  : K
  alphaO : K

/-- `NonLinSIM::updateConfiguration` (NonLinSIM.C:536-568) for a nonempty solution vector; rotations are not modelled. -/
def updCfg (linear : Bool) (linsol : V) (s : LsState K V) : LsState K V :=
  if linear then { s with u := linsol }
  else if s.alpha ≠ 0 then { s with u := s.u + s.alpha • linsol } else s

/-- The next trial step length (NonLinSIM.C:385-389): `ck*s0/(s0-sk)` limited to `[0.5,1.5]`.  A zero denominator gives plus or minus
infinity (then limited) for `s0 ≠ 0`, and NaN (`none`) for `s0 = 0`. -/
def lsNext (s0 sk ck : K) : Option K :=
  if s0 = sk then if s0 = 0 then none else some (if s0 > 0 then 3/2 else 1/2)
  else
    let c := ck * (s0 / (s0 - sk))
    some (if c > 3/2 then 3/2 else if c < 1/2 then 1/2 else c)

/-- Outcome of the line search. -/
inductive LsResult (K V : Type)
  | done (s : LsState K V)
  | failed (s : LsState K V)
  | nan (s : LsState K V)

/-- The loop of `NonLinSIM::lineSearch` (NonLinSIM.C:357-402) with `n` iterations left; `e` are the energies `residual.dot(linsol)`
found in the remaining iterations, `none` when the updating or assembly fails. -/
def lsLoop (linear : Bool) (eta s0 : K) (linsol : V) : Nat → (Nat → Option K) → (smin cmin ck cp : K) → LsState K V → LsResult K V
  | 0, _, _, cmin, _, cp, s => .done { s with alpha := cmin - cp, alphaO := cmin }
  | n+1, e, smin, cmin, ck, cp, s =>
    let s := updCfg linear linsol { s with alpha := ck - cp }
    match e 0 with
    | none => .failed s
    | some sk =>
      if |sk| < eta * |s0| then .done { s with alpha := 0, alphaO := ck }
      else
        let smin' := if |sk| < smin then |sk| else smin
        let cmin' := if |sk| < smin then ck else cmin
        match lsNext s0 sk ck with
        | none => .nan s
        | some c =>
          if |c - ck| < 1/2 * eta * |c + ck| then .done { s with alpha := 0, alphaO := c }
          else lsLoop linear eta s0 linsol n (fun i => e (i+1)) smin' cmin' c ck s

/-- `NonLinSIM::lineSearch` (NonLinSIM.C:341-406); `s0` is the initial energy. -/
def lineSearch (linear : Bool) (eta s0 : K) (e : Nat → Option K) (linsol : V) (s : LsState K V) : LsResult K V :=
  if eta ≤ 0 then .done s
  else lsLoop linear eta s0 linsol 10 e |s0| 1 1 0 s

/-! ## One load/time step -/

/-- Result of `assembleSystem`; on failure `getProblem()->diverged()` decides between divergence and failure. -/
inductive AsmRes | ok | fail | diverged
deriving DecidableEq, Repr

/-- The answers of the FE model during one step; index `k` is the iteration number. -/
structure StepEnv (K V : Type) where
  dirichlet0 : Bool
  dirichlet1 : Bool
  asmbl      : Nat → AsmRes
  extract    : Nat → Bool
  solve      : Nat → Bool
  update     : Nat → Bool
  updateEnd  : Bool
  norms      : Bool
  linsol     : Nat → V
  norm       : Nat → Option K
  inc        : Nat → Option K
  energy0    : Nat → K
  energy     : Nat → Nat → Option K

/-- State of the iteration loop: solution and step length, convergence memory, and the list of iterations in which a new
tangent was assembled (latest first). -/
structure StepState (K V : Type) where
  ls   : LsState K V
  mem  : ConvMem K
  tang : List Nat

/-- Other parameters of `NonLinSIM`: `fromIni`, `iteNorm != NONE`, `saveExL`, `nupdat`, `eta`. -/
structure NlPar (K : Type) extends ConvPar K where
  fromIni : Bool
  notNone : Bool
  saveExL : Bool
  nupdat  : Int
  eta     : K

/-- Outcome of one equilibrium iteration: the step ends with a verdict, a NaN step length was found, or the loop continues with the
flag `newTangent`. -/
inductive ItOut (K V : Type)
  | stop (st : ConvStatus) (s : StepState K V)
  | nan
  | cont (newTangent : Bool) (s : StepState K V)

/-- The `default` branch of the loop in `NonLinSIM::solveStep` (NonLinSIM.C:274-297): applies the increment of iteration `iter` and
starts iteration `iter + 1`.  The flag `poorConvg`, which is passed on to the assembly only, is not modelled. -/
def nlIterate (p : NlPar K) (env : StepEnv K V) (iter : Nat) (newTangent : Bool) (s : StepState K V) : ItOut K V :=
  let s := { s with ls := updCfg p.linear (env.linsol iter) s.ls }
  let iter := iter + 1
  if !env.update iter then .stop .failure s
  else if p.first && iter = 1 && !env.dirichlet1 then .stop .failure s
  else
    let newTangent := if (iter : Int) > p.nupdat then false else newTangent
    let s := if newTangent then { s with tang := iter :: s.tang } else s
    match env.asmbl iter with
    | .diverged => .stop .diverged s
    | .fail => .stop .failure s
    | .ok =>
      if !env.extract iter then .stop .failure s
      else if !env.solve iter then .stop .failure s
      else match lineSearch p.linear p.eta (env.energy0 iter) (env.energy iter) (env.linsol iter) s.ls with
        | .failed l => .stop .failure { s with ls := l }
        | .nan _ => .nan
        | .done l => .cont newTangent { s with ls := l }

/-- The `while` loop of `NonLinSIM::solveStep` (NonLinSIM.C:254-298).  `n = maxit + 1 - iter` is the number of iterations left, so that
the condition `iter <= maxit` fails exactly for `n = 0`.  Returns the status, the final iteration number and the state; a NaN step length
is returned as `none`. -/
def nlLoop (p : NlPar K) (env : StepEnv K V) : Nat → Nat → Bool → StepState K V → Option (ConvStatus × Nat × StepState K V)
  | 0, iter, _, s => some (.diverged, iter, s)
  | n+1, iter, newTangent, s =>
    let c := nlCheck p.toConvPar iter (env.norm iter) (env.inc iter) s.mem
    let s := { s with mem := c.2 }
    if c.1 = .converged then
      let s := { s with ls := updCfg p.linear (env.linsol iter) s.ls }
      if !env.updateEnd then some (.failure, iter, s)
      else if !env.norms then some (.failure, iter, s)
      else some (.converged, iter, s)
    else if c.1 = .diverged then some (.diverged, iter, s)
    else match nlIterate p env iter newTangent s with
      | .stop st s => some (st, iter + 1, s)
      | .nan => none
      | .cont nt s => nlLoop p env n (iter + 1) nt s

/-- `NonLinSIM::solveStep` (NonLinSIM.C:209-301) for a nonempty solution; `tfirst` is `param.time.first`. -/
def nlSolveStep (p : NlPar K) (env : StepEnv K V) (tfirst : Bool) (u : V) (mem : ConvMem K) : Option (ConvStatus × Nat × StepState K V) :=
  let s : StepState K V := ⟨⟨if p.fromIni then 0 else u, 1, 1⟩, mem, []⟩
  if p.first && !env.dirichlet0 then some (.failure, 0, s)
  else
    let newTangent := tfirst || p.notNone
    let s := if newTangent then { s with tang := [0] } else s
    match env.asmbl 0 with
    | .diverged => some (.diverged, 0, s)
    | .fail => some (.failure, 0, s)
    | .ok =>
      if (!p.linear || p.saveExL) && !env.extract 0 then some (.failure, 0, s)
      else if !env.solve 0 then some (.failure, 0, s)
      else nlLoop p env (p.maxit + 1).toNat 0 newTangent s

/-- State of the dynamic driver: convergence memory, iterations with a new tangent and the increments passed to `correctStep`
(latest first; `true` for the call after convergence). -/
structure NmState (K V : Type) where
  mem  : ConvMem K
  tang : List Nat
  corr : List (V × Bool)

/-- The `default` branch of the loop in `NewmarkSIM::solveStep` (NewmarkSIM.C:465-497).  `env.update` is the result of `correctStep`,
`env.extract` includes the saving of iterations and the mode setting. -/
def nmIterate (p : ConvPar K) (nupdat : Int) (env : StepEnv K V) (iter : Nat) (newTangent : Bool) (s : NmState K V) :
    (ConvStatus × NmState K V) ⊕ (Bool × NmState K V) :=
  let s := { s with corr := (env.linsol iter, false) :: s.corr }
  let iter := iter + 1
  let newTangent := if (iter : Int) > nupdat then false else newTangent
  if !env.update iter then .inl (.failure, s)
  else if p.first && iter = 1 && !env.dirichlet1 then .inl (.failure, s)
  else
    let s := if newTangent then { s with tang := iter :: s.tang } else s
    if env.asmbl iter ≠ .ok then .inl (.failure, s)
    else if !env.extract iter then .inl (.failure, s)
    else if !env.solve iter then .inl (.failure, s)
    else .inr (newTangent, s)

/-- The `while` loop of `NewmarkSIM::solveStep` (NewmarkSIM.C:443-497), `n = maxit + 1 - iter`. -/
def nmLoop (p : ConvPar K) (nupdat : Int) (env : StepEnv K V) : Nat → Nat → Bool → NmState K V → ConvStatus × Nat × NmState K V
  | 0, iter, _, s => (.diverged, iter, s)
  | n+1, iter, newTangent, s =>
    let c := nmCheck p iter (env.norm iter) (env.inc iter) s.mem
    let s := { s with mem := c.2 }
    if c.1 = .converged then
      let s := { s with corr := (env.linsol iter, true) :: s.corr }
      if !env.updateEnd then (.failure, iter, s)
      else if !env.norms then (.failure, iter, s)
      else (.converged, iter, s)
    else if c.1 = .diverged then (.diverged, iter, s)
    else match nmIterate p nupdat env iter newTangent s with
      | .inl (st, s) => (st, iter + 1, s)
      | .inr (nt, s) => nmLoop p nupdat env n (iter + 1) nt s

/-- `NewmarkSIM::solveStep` (NewmarkSIM.C:385-502), without factorised matrices on file (`read_factor` false); the predictor is part of
`env.dirichlet0`. -/
def nmSolveStep (p : ConvPar K) (nupdat : Int) (env : StepEnv K V) (tfirst : Bool) (mem : ConvMem K) :
    ConvStatus × Nat × NmState K V :=
  let s : NmState K V := ⟨mem, [], []⟩
  if p.first && !env.dirichlet0 then (.failure, 0, s)
  else
    let newTangent := tfirst || decide (nupdat > 0)
    let s := if newTangent then { s with tang := [0] } else s
    if env.asmbl 0 ≠ .ok then (.failure, 0, s)
    else if !env.extract 0 then (.failure, 0, s)
    else if !env.solve 0 then (.failure, 0, s)
    else nmLoop p nupdat env (p.maxit + 1).toNat 0 newTangent s

end IFEM
