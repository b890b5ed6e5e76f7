import Mathlib.Algebra.Order.Field.Basic
/-!
# Time step control

Models `TimeStep` (src/SIM/TimeStep.h, src/SIM/TimeStep.C).  `double` is an arbitrary linearly ordered field
(exact arithmetic).  Parsing and printing are not modelled.
-/
namespace IFEM

/-- Member data of `TimeStep` and its `TimeDomain` (src/SIM/TimeStep.h:36-90, TimeDomain.h:22-40).  The iterator `stepIt` is
the index `pos` into `mySteps` (`end()` = the length). -/
structure TimeStep (K : Type) where
  step      : Int
  iter      : Int
  niter     : Int
  t         : K
  dt        : K
  dtn       : K
  CFL       : K
  first     : Char
  starTime  : K
  stopTime  : K
  maxCFL    : K
  nInitStep : Int
  maxStep   : Int
  dtMin     : K
  dtMax     : K
  f1        : K
  f2        : K
  mySteps   : List (List K × K)
  pos       : Nat
  lstep     : Nat

namespace TimeStep
variable {K : Type} [Field K] [LinearOrder K]

/-- `epsT = 1.0e-6` (TimeStep.C:183, 190). -/
def epsT : K := 1 / 1000000

/-- `TimeStep::hasReached` (TimeStep.C:188-198). -/
def hasReached (s : TimeStep K) (t : K) : Bool :=
  if t > 0 then s.t + epsT * max epsT s.dt > t
  else if t < 0 then s.t < 0 ∧ s.t - epsT * epsT < t
  else true

/-- `TimeStep::multiSteps` (TimeStep.C:181-185). -/
def multiSteps (s : TimeStep K) : Bool := s.starTime + (1 + epsT) * s.dt < s.stopTime

/-- The definition of the current series of steps, `*stepIt`, if `stepIt != mySteps.end()`. -/
def cur? (s : TimeStep K) : Option (List K × K) := s.mySteps[s.pos]?

/-- Step size selection by CFL number or step table (TimeStep.C:226-241). -/
def selectDt (s0 : TimeStep K) : TimeStep K :=
  let s := { s0 with dtn := s0.dt }
  if s.maxCFL > 0 ∧ s.CFL > 1 / 1000000000000 then
    if s.step > s.nInitStep then
      let dt := s.maxCFL / s.CFL
      if dt > s.dt * s.f1 then { s with dt := s.dt * s.f1 }
      else { s with dt := dt, maxCFL := s.maxCFL * s.f1 }
    else s
  else match s.cur? with
    | none => s
    | some seg =>
      match seg.1[s.lstep]? with
      | some dt => { s with lstep := s.lstep + 1, dt := dt }
      | none => { s with lstep := s.lstep + 1 }

/-- Adjustment based on the number of iterations (TimeStep.C:243-256). -/
def adaptDt (s : TimeStep K) : TimeStep K :=
  if s.dtMin < s.dtMax ∧ s.maxCFL ≤ 0 ∧ s.step > 1 then
    let dt := if s.iter ≤ 4 ∧ s.niter ≤ 4 then s.dt * s.f1
              else if s.iter > 10 then s.dt * s.f2 else s.dt
    { s with dt := if dt < s.dtMin then s.dtMin else if dt > s.dtMax then s.dtMax else dt }
  else s

/-- `first.back() = dt`; undefined behaviour for an empty vector, which does not occur (`TimeStep.Inv`). -/
def setBack (l : List K) (x : K) : List K := l.dropLast ++ [x]

/-- Replace the current series definition. -/
def setCur (s : TimeStep K) (l : List K × K) : TimeStep K := { s with mySteps := s.mySteps.set s.pos l }

/-- Bookkeeping of the step table (TimeStep.C:274-291). -/
def tableUpdate (s : TimeStep K) : TimeStep K :=
  match s.cur? with
  | none => s
  | some seg =>
    let l := if seg.1.length ≤ s.lstep then seg.1 ++ [s.dt] else seg.1
    let s := s.setCur (l, seg.2)
    if s.hasReached seg.2 then
      let s := if s.t ≠ seg.2 then
          let dt := s.dt + (seg.2 - s.t)
          ({ s with dt := dt, t := seg.2 }).setCur (setBack l dt, seg.2)
        else s
      { s with lstep := 0, pos := s.pos + 1 }
    else s

/-- Adjustment to the stop time (TimeStep.C:293-298). -/
def stopUpdate (s : TimeStep K) : TimeStep K :=
  if s.t > s.stopTime then { s with dt := s.dt + (s.stopTime - s.t), t := s.stopTime } else s

/-- `TimeStep::increment` (TimeStep.C:222-301). -/
def increment (s0 : TimeStep K) : TimeStep K × Bool :=
  let s := s0.selectDt.adaptDt
  if s.hasReached s.stopTime then (s, false)
  else if s.step = s.maxStep ∧ s.maxStep > 0 then ({ s with step := s.step + 1 }, false)
  else
    let s := { s with step := s.step + 1, niter := s.iter, t := s.t + s.dt }
    (s.tableUpdate.stopUpdate, true)

/-- `TimeStep::cutback` (TimeStep.C:304-329). -/
def cutback (s : TimeStep K) : TimeStep K × Bool :=
  if s.dt ≤ s.dtMin then (s, false)
  else
    let dt := s.dt * (if s.f2 < 1 then s.f2 else 1 / 2)
    let dt := if dt < s.dtMin then s.dtMin else dt
    let s' := { s with dt := dt, iter := 0, niter := 10, first := 'c', t := s.t + (dt - s.dt) }
    match s'.cur? with
    | none => (s', true)
    | some seg => (s'.setCur (setBack seg.1 dt, seg.2), true)

/-- `TimeStep::finished` (TimeStep.C:332-339). -/
def finished (s : TimeStep K) : Bool :=
  if s.step ≥ s.maxStep ∧ s.maxStep > 0 then true
  else s.hasReached s.stopTime || s.hasReached (-s.stopTime)

/-- The loop `for (i = 0; i < istep; i++) if (!increment()) return false` of `reset` (TimeStep.C:213-215). -/
def replay : Nat → TimeStep K → TimeStep K × Bool
  | 0, s => (s, true)
  | n + 1, s => match s.increment with
    | (s', true) => replay n s'
    | (s', false) => (s', false)

/-- `TimeStep::reset` (TimeStep.C:201-219).  `mySteps.front().first.front()` is never empty after parsing. -/
def reset (s : TimeStep K) (istep : Int) : TimeStep K × Bool :=
  match s.mySteps with
  | [] => ({ s with step := istep }, true)
  | seg :: segs =>
    replay istep.toNat
      { s with lstep := 0, step := 0, pos := 0,
               stopTime := if istep = 0 then (segs.getLastD seg).2 else s.stopTime,
               dt := seg.1.headD 0, dtn := 0, t := 0, CFL := 0 }

/-- The serialised data (TimeStep.C:343-352). -/
structure Saved (K : Type) where
  step   : Int
  maxCFL : K
  t      : K
  dt     : K
  dtn    : K
  CFL    : K
  first  : Char

/-- `TimeStep::serialize` (TimeStep.C:343-369); the binary archive is taken to be lossless. -/
def serialize (s : TimeStep K) : Saved K := ⟨s.step, s.maxCFL, s.t, s.dt, s.dtn, s.CFL, s.first⟩

/-- `TimeStep::deSerialize` (TimeStep.C:372-384). -/
def deSerialize (s : TimeStep K) (d : Saved K) : TimeStep K × Bool :=
  ({ s with step := d.step, maxCFL := d.maxCFL, t := d.t, dt := d.dt, dtn := d.dtn, CFL := d.CFL, first := d.first }).reset d.step

/-- `TimeStep::operator=` (TimeStep.C:39-60); `stepIt` is set to the first series. -/
def assign (ts : TimeStep K) : TimeStep K := { ts with pos := 0 }

end TimeStep
end IFEM
