/-!
# The adaptive time stepping driver

Models Apps/Utils/SIMSolverTS.h (`solveProblem`, `serialize`), `SIMSolver::advanceStep`, `saveState` (Apps/Utils/SIMSolver.h),
and the basis part of the restart file: `SIMinput::saveBasis`, `restartBasis`, `restoreBasis` (src/SIM/SIMinput.C),
`HDF5Restart::dumpStep` (src/Utility/HDF5Restart.C).

Simplifications: the simulator is a parameter: its operations are functions of the time stepping data and its own state; saving and printing do not
change them; the result exporter is part of `save`; one process; the results of the mesh dumps during the simulation are not
looked at in the code and those dumps are left out; `reset`'s result is not looked at in the code; the restart file starts empty, so its time levels are the
positions in a list; `int` and `size_t` are unbounded.
-/
namespace IFEM.Ada

/-- The simulator, with time stepping data `τ`, state `σ` (including the mesh `μ` and an internally stored state). The Booleans tell success. -/
structure TSim (τ σ μ : Type) where
  step : τ → Int
  finished : τ → Bool
  before : τ → Bool
  incr : τ → τ × Bool
  reset : τ → Int → τ
  adv : τ → σ → τ × σ × Bool
  solve : τ → σ → τ × σ × Bool
  saveModel : σ → Bool
  save : τ → σ → Bool
  stagger : Bool → σ → σ
  keep : σ → σ
  restore : σ → σ
  stopped : σ → Bool
  adapt : σ → σ × Int
  initRef : σ → σ × Bool
  dumpMesh : σ → Bool
  mesh : σ → μ
  refined : σ → Bool

/-- The parameters of the driver (SIMSolverTS.h:284-294): `init` = initial refinement is wanted (`maxRef > preRef`), `saveInit` = the initial state is
saved (`preRef < 1`), `stride` = restart stride, if there is restart output. -/
structure Prm where
  nForward : Nat
  nPredict : Nat
  maxPred : Int
  init : Bool
  saveInit : Bool
  stride : Option Int

/-- What happens during the simulation: a time step is solved (from the given state), the geometry is saved, the results are saved, the mesh is adapted
(with the number of refined elements), the initial mesh is refined, the final mesh is dumped. -/
inductive Ev (τ σ : Type) where
  | solved (tp : τ) (s : σ) (ok : Bool)
  | model (s : σ) (ok : Bool)
  | saved (tp : τ) (s : σ) (ok : Bool)
  | adapted (n : Int)
  | initial (ok : Bool)
  | dumped (ok : Bool)

/-- The entry `::basis` of a time level of the restart file: none, the whole basis, or the time level which has it. -/
inductive Basis (μ : Type) where
  | none
  | full (m : μ)
  | level (n : Int)

/-- Driver state: time stepping data, simulator state, what has happened, `SIMinput::isSaved`, `SIMSolverTS::lastRLev`, `HDF5Restart::m_last`, and
the time levels of the restart file. -/
structure TS (τ σ μ : Type) where
  tp : τ
  s : σ
  log : List (Ev τ σ)
  isSaved : Bool
  lastRLev : Int
  last : Int
  file : List (τ × σ × Basis μ)

variable {τ σ μ : Type}

/-- `advanceStep`.  SIMSolver.h:144 -/
def advance (sim : TSim τ σ μ) (st : TS τ σ μ) : TS τ σ μ × Bool :=
  let i := sim.incr st.tp
  if !i.2 then ({ st with tp := i.1 }, false)
  else
    let a := sim.adv i.1 st.s
    ({ st with tp := a.1, s := a.2.1 }, a.2.2)

/-- `S1.solveStep(tp)`. -/
def solve1 (sim : TSim τ σ μ) (st : TS τ σ μ) : TS τ σ μ × Bool :=
  let r := sim.solve st.tp st.s
  ({ st with tp := r.1, s := r.2.1, log := st.log ++ [Ev.solved st.tp st.s r.2.2] }, r.2.2)

/-- `SIMSolverTS::serialize` and `SIMinput::saveBasis`: the new value of `lastRLev` and the entry for the basis.
SIMSolverTS.h:180-188, SIMinput.C:1842-1858 -/
def serialBasis (sim : TSim τ σ μ) (st : TS τ σ μ) : Int × Basis μ :=
  let lr := if st.lastRLev < 0 ∧ sim.refined st.s then (st.file.length : Int) else st.lastRLev
  (lr, if !st.isSaved && sim.refined st.s then Basis.full (sim.mesh st.s) else if lr ≥ 0 then Basis.level lr else Basis.none)

/-- Restart output.  SIMSolver.h:243-254, HDF5Restart.C:39-47 -/
def dumpRestart (sim : TSim τ σ μ) (P : Prm) (st : TS τ σ μ) : TS τ σ μ :=
  match P.stride with
  | none => st
  | some n =>
    if sim.step st.tp < st.last + n then st
    else
      let b := serialBasis sim st
      { st with last := sim.step st.tp, lastRLev := b.1, isSaved := st.isSaved || sim.refined st.s, file := st.file ++ [(st.tp, st.s, b.2)] }

/-- The saving of results in `saveState`.  SIMSolver.h:235-254 -/
def saveRes (sim : TSim τ σ μ) (P : Prm) (st : TS τ σ μ) : TS τ σ μ × Bool :=
  let st1 := { st with log := st.log ++ [Ev.saved st.tp st.s (sim.save st.tp st.s)] }
  if sim.save st.tp st.s then (dumpRestart sim P st1, true) else (st1, false)

/-- The saving of the geometry in `saveState`.  SIMSolver.h:231-232 -/
def saveGeo (sim : TSim τ σ μ) (st : TS τ σ μ) : TS τ σ μ × Bool :=
  ({ st with log := st.log ++ [Ev.model st.s (sim.saveModel st.s)] }, sim.saveModel st.s)

/-- `saveState`.  SIMSolver.h:228-255 -/
def saveState (sim : TSim τ σ μ) (P : Prm) (newMesh res : Bool) (st : TS τ σ μ) : TS τ σ μ × Bool :=
  let g := if newMesh then saveGeo sim st else (st, true)
  if !g.2 then (g.1, false)
  else if !res then (g.1, true)
  else saveRes sim P g.1

/-- The steps of a prediction.  SIMSolverTS.h:111-114 -/
def predict (sim : TSim τ σ μ) : Nat → TS τ σ μ → TS τ σ μ × Option Int
  | 0, st => (st, none)
  | n+1, st =>
    let a := advance sim st
    if !a.2 then (a.1, none)
    else
      let r := solve1 sim a.1
      if !r.2 then (r.1, some 3) else predict sim n r.1

/-- Mesh adaptation.  SIMSolverTS.h:126, SIMinput.C:1619 -/
def adaptMesh (sim : TSim τ σ μ) (st : TS τ σ μ) : TS τ σ μ × Int :=
  let r := sim.adapt st.s
  ({ st with s := r.1, log := st.log ++ [Ev.adapted r.2], isSaved := st.isSaved && r.2 == 0 }, r.2)

/-- Start of a prediction cycle.  SIMSolverTS.h:103-109 -/
def startCycle (sim : TSim τ σ μ) (tran : Int) (iPred : Nat) (st : TS τ σ μ) : TS τ σ μ :=
  if iPred > 0 then { st with tp := sim.reset st.tp tran, s := sim.keep st.s } else st

/-- The prediction cycles: state, return code if any, `lastRef` and `refElms`.  SIMSolverTS.h:101-130 -/
def cycles (sim : TSim τ σ μ) (P : Prm) (tran : Int) : Nat → Nat → Int → Int → TS τ σ μ → TS τ σ μ × Option Int × Int × Int
  | 0, _, lastRef, refElms, st => (st, none, lastRef, refElms)
  | n+1, iPred, lastRef, refElms, st =>
    if lastRef ≤ 0 then (st, none, lastRef, refElms)
    else
      let p := predict sim P.nPredict (startCycle sim tran iPred st)
      if p.2.isSome then (p.1, p.2, 0, refElms)
      else if P.maxPred > 0 ∧ sim.stopped p.1.s then (p.1, none, 0, refElms)
      else if sim.finished p.1.tp then (p.1, none, 0, refElms)
      else
        let a := adaptMesh sim p.1
        cycles sim P tran n (iPred + 1) a.2 (refElms + a.2) a.1

/-- The steps on the new mesh.  SIMSolverTS.h:167-171 -/
def forward (sim : TSim τ σ μ) (P : Prm) : Nat → Nat → TS τ σ μ → TS τ σ μ × Option Int
  | 0, _, st => (st, none)
  | n+1, j, st =>
    let a := advance sim st
    if !a.2 then (a.1, none)
    else
      let r := solve1 sim a.1
      if !r.2 then (r.1, some 3)
      else
        let v := saveState sim P (decide (j < 1)) true r.1
        if !v.2 then (v.1, some 2) else forward sim P n (j + 1) v.1

/-- Back to the last saved state.  SIMSolverTS.h:150-166 -/
def resume (sim : TSim τ σ μ) (P : Prm) (tran lastRef : Int) (st : TS τ σ μ) : TS τ σ μ :=
  let st1 := { st with tp := sim.reset st.tp tran }
  let st2 := if lastRef > 0 then (if P.stride.isSome then { st1 with lastRLev := st1.file.length } else st1)
             else { st1 with s := sim.restore st1.s }
  { st2 with s := sim.stagger true st2.s }

/-- Start of a turn of the adaptive loop.  SIMSolverTS.h:95-100 -/
def startTurn (sim : TSim τ σ μ) (P : Prm) (st : TS τ σ μ) : TS τ σ μ :=
  { st with s := if P.maxPred < 0 then sim.stagger false (sim.keep st.s) else sim.keep st.s }

/-- One turn of the adaptive loop.  SIMSolverTS.h:93-173 -/
def turn (sim : TSim τ σ μ) (P : Prm) (st : TS τ σ μ) : TS τ σ μ × Option Int :=
  let c := cycles sim P (sim.step st.tp) P.maxPred.natAbs 0 1 0 (startTurn sim P st)
  if c.2.1.isSome then (c.1, c.2.1)
  else if c.2.2.1 < 0 then (c.1, some 4)
  else if c.2.2.1 = 0 ∧ P.maxPred > 0 then
    let v := saveState sim P (decide (c.2.2.2 > 0)) true c.1
    (v.1, if v.2 then none else some 2)
  else forward sim P P.nForward 0 (resume sim P (sim.step st.tp) c.2.2.1 c.1)

/-- The adaptive loop, for at most `n` turns, with the final mesh dump.  SIMSolverTS.h:92-176 -/
def outer (sim : TSim τ σ μ) (P : Prm) : Nat → TS τ σ μ → Option (Int × TS τ σ μ)
  | 0, _ => none
  | n+1, st =>
    if sim.finished st.tp then
      some (if sim.dumpMesh st.s then 0 else 2, { st with log := st.log ++ [Ev.dumped (sim.dumpMesh st.s)] })
    else
      let t := turn sim P st
      match t.2 with
      | some c => some (c, t.1)
      | none => outer sim P n t.1

/-- The steps on the initial mesh, for at most `n` turns.  SIMSolverTS.h:82-86 -/
def preLoop (sim : TSim τ σ μ) (P : Prm) : Nat → TS τ σ μ → Option (TS τ σ μ × Option Int)
  | 0, _ => none
  | n+1, st =>
    if !sim.before st.tp then some (st, none)
    else
      let a := advance sim st
      if !a.2 then some (a.1, none)
      else
        let r := solve1 sim a.1
        if !r.2 then some (r.1, some 3)
        else
          let v := saveState sim P false true r.1
          if !v.2 then some (v.1, some 2) else preLoop sim P n v.1

/-- The initial refinement.  SIMSolverTS.h:64-73 -/
def initRefine (sim : TSim τ σ μ) (P : Prm) (st : TS τ σ μ) : TS τ σ μ × Bool :=
  if sim.step st.tp = 0 ∧ P.init then
    ({ st with s := (sim.initRef st.s).1, log := st.log ++ [Ev.initial (sim.initRef st.s).2] }, (sim.initRef st.s).2)
  else (st, true)

/-- `SIMSolverTS::solveProblem`, with at most `n` turns in each of the two loops.  SIMSolverTS.h:62-177 -/
def solveProblem (sim : TSim τ σ μ) (P : Prm) (n : Nat) (st : TS τ σ μ) : Option (Int × TS τ σ μ) :=
  let i := initRefine sim P st
  if !i.2 then some (4, i.1)
  else
    let v := saveState sim P true P.saveInit i.1
    if !v.2 then some (2, v.1)
    else match preLoop sim P n v.1 with
    | none => none
    | some (st1, some c) => some (c, st1)
    | some (st1, none) => outer sim P n st1

/-- A new driver. -/
def initTS (tp : τ) (s : σ) : TS τ σ μ := { tp := tp, s := s, log := [], isSaved := false, lastRLev := -1, last := 0, file := [] }

/-- `SIMinput::restoreBasis` on what is found at a time level, after the lookup of the level with the most recent basis: `none` = failure, `some none` = the
initial mesh.  A level number is not a basis.  SIMinput.C:1861-1889, 1904-1930 -/
def restoreBasis (file : List (τ × σ × Basis μ)) (level : Nat) : Basis μ → Option (Option μ)
  | .none => some none
  | .full m => some (some m)
  | .level n =>
    if 0 ≤ n ∧ n ≤ level then
      match file[n.toNat]? with
      | some (_, _, .full m) => some (some m)
      | _ => none
    else none

/-- `SIMinput::restartBasis` for an existing time level: level 0 means no basis.  SIMinput.C:1892-1934 -/
def restartBasis (file : List (τ × σ × Basis μ)) (level : Nat) : Option (Option μ) :=
  if level = 0 then some none
  else match file[level]? with
    | none => none
    | some (_, _, b) => restoreBasis file level b

end IFEM.Ada
