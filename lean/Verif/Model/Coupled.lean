import Verif.Model.NonLin
import Mathlib.Data.Matrix.Mul
/-!
# Staggered iterations of two coupled simulators

Models Apps/Utils/SIMCoupledSI.h (`solveStep`, `checkConvergence`, `getMaxit`).

Simplifications: the two simulators are parameters, with a common state `σ`; the relaxation vector and the residual have a fixed size `n` and exact
arithmetic is used; a relaxation factor that is not a number (zero divided by zero) ends the model run with `none`; printing is left out; of the time stepping
data, only the iteration counter and the `first` flag are modelled; `int` is unbounded.  What happens is recorded in a log.
-/
namespace IFEM.Cpl
variable {K σ : Type} {n : Nat}

/-- The two simulators and the virtual methods of `SIMCoupledSI`: solving one iteration with its number, convergence check,
`getAitkenResidual`, `getRelaxationVector`, `setRelaxedSolution`, `postSolve`.  SIMCoupledSI.h:49-65, 128-142 -/
structure Pair (K σ : Type) (n : Nat) where
  solve1 : Nat → σ → σ × ConvStatus
  solve2 : Nat → σ → σ × ConvStatus
  check : Nat → σ → ConvStatus → ConvStatus → ConvStatus
  residual : σ → Fin n → K
  relaxVec : σ → Fin n → K
  setRelaxed : (Fin n → K) → σ → σ
  post1 : σ → σ
  post2 : σ → σ

/-- Parameters: `maxIter` (already evaluated at the step), `noStg`, `omega0`, `aitken`.  SIMCoupledSI.h:184-190 -/
structure Prm (K : Type) where
  maxIter : Int
  noStg : Bool
  omega0 : K
  aitken : Bool

/-- What happens: a simulator (`true`: the first) solves iteration `k` from the state `s`; the convergence check; the relaxed solution `x` is set in the state `s`;
post-processing of a simulator. -/
inductive Ev (K σ : Type) (n : Nat) where
  | solved (which : Bool) (k : Nat) (s : σ) (c : ConvStatus)
  | checked (k : Nat) (s : σ) (c : ConvStatus)
  | relaxed (k : Nat) (omega : K) (s : σ) (x : Fin n → K)
  | post (which : Bool) (s : σ)

/-- Relaxation data: `omega`, `prevSol`, `prevRes`.  SIMCoupledSI.h:189-193 -/
structure Rlx (K : Type) (n : Nat) where
  omega : K
  prevSol : Fin n → K
  prevRes : Fin n → K

/-- State of the simulation: the two simulators, relaxation data, `tp.iter`, `tp.time.first`, log. -/
structure St (K σ : Type) (n : Nat) where
  s : σ
  rlx : Rlx K n
  iter : Nat := 0
  first : Bool := true
  log : List (Ev K σ n) := []

/-- `status <= SIM::DIVERGED`.  SIMenums.h:49-56 -/
def bad (c : ConvStatus) : Bool := c == .failure || c == .diverged

/-- `SIMCoupledSI::checkConvergence`, unless overridden.  SIMCoupledSI.h:128-142 -/
def checkConvergence (status1 status2 : ConvStatus) : ConvStatus :=
  if status1 = status2 then status1
  else if status1 = .failure ∨ status2 = .failure then .failure
  else if status1 = .diverged ∨ status2 = .diverged then .diverged
  else .ok

/-- `SIMCoupledSI::getMaxit`; the iteration function is evaluated by the caller.  SIMCoupledSI.h:173-181 -/
def getMaxit (P : Prm K) : Int := if P.noStg then 0 else P.maxIter

/-- One simulator solves iteration `k`; the Boolean tells whether to go on.  SIMCoupledSI.h:79-86 -/
def part (sim : Pair K σ n) (which : Bool) (k : Nat) (st : St K σ n) : St K σ n × ConvStatus :=
  let r := if which then sim.solve1 k st.s else sim.solve2 k st.s
  ({ st with s := r.1, log := st.log ++ [.solved which k st.s r.2] }, r.2)

/-- Both simulators, and the convergence check; `none` for failure.  SIMCoupledSI.h:78-89 -/
def sweep (sim : Pair K σ n) (firstS1 : Bool) (k : Nat) (st : St K σ n) : St K σ n × Option ConvStatus :=
  let a := part sim firstS1 k st
  if bad a.2 then (a.1, none)
  else
    let b := part sim (!firstS1) k a.1
    if bad b.2 then (b.1, none)
    else
      let c := if firstS1 then sim.check k b.1.s a.2 b.2 else sim.check k b.1.s b.2 a.2
      let st' := { b.1 with log := b.1.log ++ [.checked k b.1.s c] }
      if bad c then (st', none) else (st', some c)

section
variable [Field K] [LinearOrder K]

/-- The limit below which the relaxation factor is replaced by the default one.  SIMCoupledSI.h:98 -/
def tiny : K := 1 / 1000000

/-- Aitken's relaxation factor; `none`: division of zero by zero.  SIMCoupledSI.h:94-103 -/
def aitkenFactor (omega0 omega : K) (prevRes res : Fin n → K) : Option K :=
  let r1 := res - prevRes
  if dotProduct r1 r1 = 0 then none
  else
    let w := omega * (-(dotProduct prevRes r1) / dotProduct r1 r1)
    some (if |w| < tiny then omega0 else w)

/-- Relaxation after iteration `k`.  SIMCoupledSI.h:91-116 -/
def relax (sim : Pair K σ n) (P : Prm K) (k : Nat) (st : St K σ n) : Option (St K σ n) :=
  if P.omega0 = 0 then some st
  else if 0 < k then
    match (if P.aitken then aitkenFactor P.omega0 st.rlx.omega st.rlx.prevRes (sim.residual st.s) else some st.rlx.omega) with
    | none => none
    | some w =>
      let x := (1 - w) • st.rlx.prevSol + w • sim.relaxVec st.s
      let s' := sim.setRelaxed x st.s
      some { st with s := s', rlx := ⟨w, x, if P.aitken then sim.residual s' else st.rlx.prevRes⟩, log := st.log ++ [.relaxed k w st.s x] }
  else
    some { st with rlx := ⟨P.omega0, sim.relaxVec st.s, if P.aitken then sim.residual st.s else st.rlx.prevRes⟩ }

/-- The loop over the iterations, with at most `m` more iterations to go; `false`: failure.  SIMCoupledSI.h:76-118 -/
def loop (sim : Pair K σ n) (P : Prm K) (firstS1 : Bool) : Nat → ConvStatus → St K σ n → Option (St K σ n × Bool)
  | 0, _, st => some (st, true)
  | m+1, conv, st =>
    if conv = .converged then some (st, true)
    else
      let r := sweep sim firstS1 st.iter st
      match r.2 with
      | none => some (r.1, false)
      | some c => match relax sim P st.iter r.1 with
        | none => none
        | some st' => loop sim P firstS1 m c { st' with iter := st.iter + 1 }

/-- `SIMCoupledSI::solveStep`.  SIMCoupledSI.h:68-125 -/
def solveStep (sim : Pair K σ n) (P : Prm K) (firstS1 : Bool) (st : St K σ n) : Option (St K σ n × Bool) :=
  match loop sim P firstS1 (getMaxit P + 1).toNat .ok { st with iter := 0 } with
  | none => none
  | some (st, false) => some (st, false)
  | some (st, true) =>
    let s1 := sim.post1 st.s
    let s2 := sim.post2 s1
    some ({ st with s := s2, first := false, log := st.log ++ [.post true st.s, .post false s1] }, true)

end
end IFEM.Cpl
