import Verif.Model.TimeStep
/-!
# Specification: properly configured time stepping and its histories
-/
namespace IFEM.Spec
variable {K : Type} [Field K] [LinearOrder K]

/-- A properly configured time stepping, started or not: the current step size, all tabulated step sizes and the stop time are positive,
the remaining series of steps end at increasing positive times later than the current time, growth factor
at least one (enforced when parsing), positive reduction factor and maximum step size. -/
structure Legal (s : TimeStep K) : Prop where
  dt    : 0 < s.dt
  ent   : ∀ (i : Nat) (seg : List K × K), s.pos ≤ i → s.mySteps[i]? = some seg →
            seg.1 ≠ [] ∧ 0 < seg.2 ∧ ∀ x ∈ seg.1, 0 < x
  time  : ∀ seg, s.mySteps[s.pos]? = some seg → s.t < seg.2
  incr  : ∀ (i j : Nat) (a b : List K × K), s.pos ≤ i → i < j →
            s.mySteps[i]? = some a → s.mySteps[j]? = some b → a.2 < b.2
  f1    : 1 ≤ s.f1
  f2    : 0 < s.f2
  dtMax : 0 < s.dtMax
  stop  : 0 < s.stopTime

/-- `lo` is a lower bound on the step sizes of a time stepping without CFL control: tabulated sizes, current size and the
minimum size of the iteration-based control (if active); the last series of steps extends to the stop time. -/
structure LowerBound (lo : K) (s : TimeStep K) : Prop where
  pos   : 0 < lo
  cfl   : s.maxCFL ≤ 0
  dtMin : s.dtMin < s.dtMax → lo ≤ s.dtMin
  ent   : ∀ (i : Nat) (seg : List K × K), s.pos ≤ i → s.mySteps[i]? = some seg → ∀ x ∈ seg.1, lo ≤ x
  table : ∀ seg, s.mySteps[s.pos]? = some seg → s.lstep < seg.1.length
  cover : ∀ seg, s.mySteps[s.mySteps.length - 1]? = some seg → s.stopTime ≤ seg.2
  dt    : lo ≤ s.dt ∨ s.pos < s.mySteps.length ∨ s.stopTime ≤ s.t

/-- What happens between two calls: the solver reports the iteration count and the CFL number of the step. -/
def report (s : TimeStep K) (it : Int) (cfl : K) : TimeStep K := { s with iter := it, CFL := cfl }

/-- States reached from `s0` by an arbitrary history of a time loop: the first step, further steps (after reporting any
iteration count and any CFL number), and any number of cut-backs of the current step. -/
inductive Hist (s0 : TimeStep K) : TimeStep K → Prop
  | first (s : TimeStep K) : s0.increment = (s, true) → Hist s0 s
  | step (s s' : TimeStep K) (it : Int) (cfl : K) : Hist s0 s → (report s it cfl).increment = (s', true) → Hist s0 s'
  | cut (s s' : TimeStep K) : Hist s0 s → s.cutback = (s', true) → Hist s0 s'

/-- `Run s ts s'`: a sequence of successful steps without cut-back, leading from `s` to `s'` through the times `ts`. -/
inductive Run : TimeStep K → List K → TimeStep K → Prop
  | done (s : TimeStep K) : Run s [] s
  | step (s s1 s' : TimeStep K) (it : Int) (cfl : K) (ts : List K) :
      (report s it cfl).increment = (s1, true) → Run s1 ts s' → Run s (s1.t :: ts) s'

/-- `Cuts s n s'`: `n` successful cut-backs in a row lead from `s` to `s'`. -/
inductive Cuts (s : TimeStep K) : Nat → TimeStep K → Prop
  | zero : Cuts s 0 s
  | succ (n : Nat) (s1 s' : TimeStep K) : Cuts s n s1 → s1.cutback = (s', true) → Cuts s (n+1) s'

/-- What a user observes of a time stepping when it continues from `s`, the steps reporting the given iteration counts and
CFL numbers: time, step size, previous step size, step number, and whether the step was started. -/
def observed (s : TimeStep K) : List (Int × K) → List (K × K × K × Int × Bool)
  | [] => []
  | (it, cfl) :: r =>
    let s' := s.increment.1
    (s'.t, s'.dt, s'.dtn, s'.step, s.increment.2) :: if s.increment.2 then observed (report s' it cfl) r else []

/-- The state after parsing an input file with a table of series of steps (TimeStep.C:62-180): at the start time, before
the first step, the stop time being the end of the last series. -/
structure Parsed (s : TimeStep K) : Prop where
  step : s.step = 0
  lstep : s.lstep = 0
  pos : s.pos = 0
  t : s.t = s.starTime
  dtn : s.dtn = 0
  cfl : s.CFL = 0
  dt : ∀ seg rest, s.mySteps = seg :: rest → s.dt = seg.1.headD 0

end IFEM.Spec
