/-!
# The time stepping driver

Models Apps/Utils/SIMSolver.h (`SIMSolverStat::solveProblem`, `SIMSolver::solveProblem`, `advanceStep`, `saveState`,
`handleDataOutput`, `restart`), `DataExporter::dumpTimeLevel` (src/Utility/DataExporter.C) and `HDF5Restart::dumpStep`,
`writeData`, `readData` (src/Utility/HDF5Restart.C).

Simplifications: the simulator is a parameter: its operations are functions of the time stepping data and its own state, and
saving does not change them; one process; a file is the list of what was written, in that order; the fields in the result
file are the state itself; in the restart file the time level of the result file comes first in its group; the controller
file is not polled.
-/
namespace IFEM.Drv

/-- What the restart file has under a name: a group (with the empty name), the time level of the result file (a decimal
string in the code), or data of the simulator.  SIMSolver.h:251-254, HDF5Restart.C:58-61, 105-119 -/
inductive Val (δ : Type) where
  | group
  | level (n : Int)
  | data (d : δ)

/-- Restart file: time level, name, value, in the order written. -/
abbrev RFile (δ : Type) := List (Int × String × Val δ)

/-- A simulator with its time stepping data of type `τ`, state `σ` and serialized data `δ` (by name). The Booleans tell success. -/
structure Sim (τ σ δ : Type) where
  step : τ → Int
  multi : τ → Bool
  incr : τ → τ × Bool
  saveModel : σ → Bool
  adv : τ → σ → τ × σ × Bool
  solve : τ → σ → τ × σ × Bool
  save : τ → σ → Bool
  ser : τ → σ → Option (List (String × δ))
  deser : List (String × δ) → τ → σ → τ × σ × Bool

/-- `DataExporter`: stride, time level, last step.  DataExporter.h:83-84, 143-145 -/
structure Exp where
  ndump : Int
  level : Int
  last : Int

/-- `HDF5Restart`: stride, time level, last step.  HDF5Restart.C:31-36 -/
structure Rst where
  stride : Int
  level : Int
  last : Int

/-- What has been written: the steps saved (VTF), the time levels of the result file, and the restart file. -/
structure Disk (τ σ δ : Type) where
  saved : List (τ × σ) := []
  exported : List (Int × τ × σ) := []
  rst : RFile δ := []

/-- The driver. `bound`: all registered fields of the exporter have values. -/
structure St (τ σ δ : Type) where
  tp : τ
  s : σ
  exp : Option Exp
  bound : Bool
  adm : Option Rst
  disk : Disk τ σ δ

variable {τ σ δ : Type}

/-- The exporter skips this step.  DataExporter.C:98-99 -/
def Exp.skips (E : Exp) (step : Int) : Bool := decide (step > 0 ∧ step < max 0 E.last + E.ndump)

/-- `DataExporter::dumpTimeLevel` with a time step.  DataExporter.C:95-168 -/
def dump (sim : Sim τ σ δ) (st : St τ σ δ) : St τ σ δ × Bool :=
  match st.exp with
  | none => (st, true)
  | some E =>
    if E.skips (sim.step st.tp) then (st, true)
    else
      let st1 := { st with exp := some { E with level := E.level + 1, last := sim.step st.tp } }
      if st.bound then
        ({ st1 with disk := { st.disk with exported := st.disk.exported ++ [(E.level + 1, st.tp, st.s)] } }, true)
      else (st1, false)

/-- One item of `HDF5Restart::writeData`: what is already in the file is kept.  HDF5Restart.C:59-61, 105-119 -/
def put1 (file : RFile δ) (q : Int × String × Val δ) : RFile δ :=
  if file.any (fun p => p.1 == q.1 && p.2.1 == q.2.1) then file else file ++ [q]

/-- The items of one time level of the restart file.  SIMSolver.h:250-254, HDF5Restart.C:57-119 -/
def items (level : Int) (expLevel : Option Int) (d : List (String × δ)) : RFile δ :=
  (level, "", Val.group) :: (expLevel.toList.map (fun l => (level, "TimeLevel", Val.level l)) ++ d.map fun p => (level, p.1, Val.data p.2))

/-- The restart output of `saveState`.  SIMSolver.h:243-254, HDF5Restart.C:39-46 -/
def dumpRestart (sim : Sim τ σ δ) (st : St τ σ δ) : St τ σ δ :=
  match st.adm with
  | none => st
  | some A =>
    if sim.step st.tp < A.last + A.stride then st
    else match sim.ser st.tp st.s with
    | none => { st with adm := some { A with last := sim.step st.tp } }
    | some d => { st with
        adm := some { A with level := A.level + 1, last := sim.step st.tp }
        disk := { st.disk with rst := (items (A.level + 1) (st.exp.map (·.level)) d).foldl put1 st.disk.rst } }

/-- The result saving of `saveState`.  SIMSolver.h:235-254 -/
def saveResults (sim : Sim τ σ δ) (st : St τ σ δ) : St τ σ δ × Bool :=
  if !sim.save st.tp st.s then (st, false)
  else
    let r := dump sim { st with disk := { st.disk with saved := st.disk.saved ++ [(st.tp, st.s)] } }
    if r.2 then (dumpRestart sim r.1, true) else (r.1, false)

/-- `saveState`.  SIMSolver.h:228-255 -/
def saveState (sim : Sim τ σ δ) (newMesh saveRes : Bool) (st : St τ σ δ) : St τ σ δ × Bool :=
  if newMesh && !sim.saveModel st.s then (st, false)
  else if !saveRes then (st, true)
  else saveResults sim st

/-- The loop of `solveProblem`, for at most `n` turns; `saveDiv`: save also a diverged solution.  SIMSolver.h:152-160 -/
def loop (sim : Sim τ σ δ) (saveDiv : Bool) : Nat → St τ σ δ → Option (Int × St τ σ δ)
  | 0, _ => none
  | n+1, st =>
    let i := sim.incr st.tp
    if !i.2 then some (0, { st with tp := i.1 })
    else
      let a := sim.adv i.1 st.s
      if !a.2.2 then some (0, { st with tp := a.1, s := a.2.1 })
      else
        let r := sim.solve a.1 a.2.1
        let st1 := { st with tp := r.1, s := r.2.1 }
        if !r.2.2 then
          if saveDiv && !sim.save r.1 r.2.1 then some (4, st1)
          else if saveDiv then some (3, { st1 with disk := { st1.disk with saved := st1.disk.saved ++ [(r.1, r.2.1)] } })
          else some (3, st1)
        else
          let v := saveState sim false true st1
          if !v.2 then some (4, v.1)
          else loop sim saveDiv n v.1

/-- `SIMSolver::solveProblem`.  SIMSolver.h:140-163 -/
def solveProblem (sim : Sim τ σ δ) (saveDiv : Bool) (n : Nat) (st : St τ σ δ) : Option (Int × St τ σ δ) :=
  let v := saveState sim true (sim.multi st.tp) st
  if !v.2 then some (2, v.1) else loop sim saveDiv n v.1

/-- `handleDataOutput` with the time levels of a restart; no result file with spectral discretization.  SIMSolver.h:55-65, 170-193 -/
def handleDataOutput (spectral : Bool) (saveInterval restartInterval startExp startRst : Int) (tp : τ) (s : σ) (bound : Bool) (old : RFile δ) : St τ σ δ :=
  { tp := tp, s := s, exp := if spectral then none else some ⟨saveInterval, startExp - 1, -1⟩, bound := bound,
    adm := if restartInterval < 1 then none else some ⟨restartInterval, startRst - 1, 0⟩, disk := { rst := old } }

/-- The level to read: the last one for a negative number.  HDF5Restart.C:165-179 -/
def readLevel (file : RFile δ) (level : Int) : Int :=
  if level < 0 then file.foldl (fun l p => if p.1 > l then p.1 else l) level else level

/-- `HDF5Restart::readData`: the level read and its data; `none` = negative result, when there is no such group.  HDF5Restart.C:158-194 -/
def readData (file : RFile δ) (level : Int) : Option (Int × List (String × Val δ)) :=
  if file.any (fun p => p.1 == readLevel file level) then
    some (readLevel file level, (file.filter fun p => p.1 == readLevel file level).map Prod.snd)
  else none

/-- The time level of the result file, if in the data.  SIMSolver.h:284-290 -/
def timeLevel (data : List (String × Val δ)) : Option Int :=
  data.findSome? fun p => match p.2 with
    | .level n => if p.1 = "TimeLevel" then some n else none
    | _ => none

/-- The data of the simulator. -/
def simData (data : List (String × Val δ)) : List (String × δ) :=
  data.filterMap fun p => match p.2 with
    | .data d => some (p.1, d)
    | _ => none

/-- `SIMSolver::restart`: return value, time stepping data, state, `startExpLevel` and `startRstLevel`.  SIMSolver.h:264-299 -/
def restart (sim : Sim τ σ δ) (file : RFile δ) (restartStep : Int) (tp : τ) (s : σ) : Int × τ × σ × Int × Int :=
  match readData file (restartStep - 1) with
  | none => (-1, tp, s, 0, 0)
  | some q =>
    let r := sim.deser (simData q.2) tp s
    if r.2.2 then (q.1, r.1, r.2.1, (timeLevel q.2).getD q.1, q.1)
    else (-2, r.1, r.2.1, 0, 0)

/-- `SIMSolverStat::solveProblem`: code and what was written; `level0` is the level of the exporter before, if there is one, `lastLevel` those in
the files of the writers.  SIMSolver.h:84-107, DataExporter.C:106-118 -/
def solveStat (sim : Sim τ σ δ) (tp : τ) (s : σ) (exp : Option Exp) (bound : Bool) (lastLevels : List Int) : Int × Disk τ σ δ :=
  if !sim.saveModel s then (1, {})
  else
    let r := sim.solve tp s
    if !r.2.2 then (2, {})
    else if !sim.save r.1 r.2.1 then (4, {})
    else match exp with
    | none => (0, { saved := [(r.1, r.2.1)] })
    | some E =>
      let level := (if E.level < 0 then lastLevels.foldl (fun l k => if k < l ∨ l < 0 then k else l) E.level else E.level) + 1
      if bound then (0, { saved := [(r.1, r.2.1)], exported := [(level, r.1, r.2.1)] }) else (5, { saved := [(r.1, r.2.1)] })

end IFEM.Drv
