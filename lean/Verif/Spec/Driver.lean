import Verif.Model.Driver
/-!
# Specification: runs of a time stepping driver, and restarts
-/
namespace IFEM.Drv
variable {τ σ δ : Type}

/-- The time step from `x` to `y` is carried out successfully: incremented, advanced and solved. -/
structure Step (sim : Sim τ σ δ) (x y : τ × σ) : Prop where
  incr : (sim.incr x.1).2 = true
  adv : (sim.adv (sim.incr x.1).1 x.2).2.2 = true
  solve : sim.solve (sim.adv (sim.incr x.1).1 x.2).1 (sim.adv (sim.incr x.1).1 x.2).2.1 = (y.1, y.2, true)

/-- There is no further time step after `x`. -/
def Stops (sim : Sim τ σ δ) (x : τ × σ) : Prop :=
  (sim.incr x.1).2 = false ∨ (sim.adv (sim.incr x.1).1 x.2).2.2 = false

/-- The time step after `x` fails to be solved, leaving `y`. -/
structure Fails (sim : Sim τ σ δ) (x y : τ × σ) : Prop where
  incr : (sim.incr x.1).2 = true
  adv : (sim.adv (sim.incr x.1).1 x.2).2.2 = true
  solve : sim.solve (sim.adv (sim.incr x.1).1 x.2).1 (sim.adv (sim.incr x.1).1 x.2).2.1 = (y.1, y.2, false)

/-- The states `xs` are consecutive time steps. -/
def Steps (sim : Sim τ σ δ) (xs : List (τ × σ)) : Prop :=
  ∀ (i : Nat) x y, xs[i]? = some x → xs[i+1]? = some y → Step sim x y

/-- The exit code of a run, all of whose steps are saved, with the last one `x`. -/
def Ends (sim : Sim τ σ δ) (x : τ × σ) (code : Int) : Prop :=
  (code = 0 ∧ Stops sim x) ∨ (code = 3 ∧ ∃ y, Fails sim x y)

/-- Can be saved and serialized with distinct data names, none of them reserved. -/
structure Savable (sim : Sim τ σ δ) (x : τ × σ) : Prop where
  save : sim.save x.1 x.2 = true
  ser : ∃ d, sim.ser x.1 x.2 = some d ∧ (d.map Prod.fst).Nodup ∧ ∀ p ∈ d, p.1 ≠ "" ∧ p.1 ≠ "TimeLevel"

/-- A complete run of the simulator: started at step 0, consecutive steps numbered by one, each of them savable, of a
multi-step simulation, until `code`. -/
structure Complete (sim : Sim τ σ δ) (xs : List (τ × σ)) (code : Int) : Prop where
  steps : Steps sim xs
  number : ∀ (i : Nat) x, xs[i]? = some x → sim.step x.1 = i
  multi : ∀ x ∈ xs, sim.multi x.1 = true
  model : ∀ x ∈ xs, sim.saveModel x.2 = true
  savable : ∀ x ∈ xs, Savable sim x
  last : ∃ x, xs.getLast? = some x ∧ Ends sim x code

/-- States which cannot be told apart by the driver, now and later. -/
structure Alike (sim : Sim τ σ δ) (R : τ × σ → τ × σ → Prop) : Prop where
  step : ∀ x y, R x y → sim.step y.1 = sim.step x.1
  multi : ∀ x y, R x y → sim.multi y.1 = sim.multi x.1
  model : ∀ x y, R x y → sim.saveModel y.2 = sim.saveModel x.2
  save : ∀ x y, R x y → sim.save y.1 y.2 = sim.save x.1 x.2
  ser : ∀ x y, R x y → sim.ser y.1 y.2 = sim.ser x.1 x.2
  next : ∀ x y x', R x y → Step sim x x' → ∃ y', Step sim y y' ∧ R x' y'
  ends : ∀ x y c, R x y → Ends sim x c → Ends sim y c

/-- The time levels of the result file for the states `xs`, saving every `nd` steps: level number and state. -/
def results (sim : Sim τ σ δ) (nd : Int) (xs : List (τ × σ)) : List (Int × τ × σ) :=
  (xs.filter fun x => decide (nd ∣ sim.step x.1)).map fun x => (sim.step x.1 / nd, x.1, x.2)

/-- One level of the restart file: a group, in it the time level of the result file and the data of the simulator. -/
def levelOf (level : Int) (expLevel : Option Int) (d : List (String × δ)) : RFile δ :=
  [(level, "", Val.group)] ++ (expLevel.map fun l => (level, "TimeLevel", Val.level l)).toList ++ d.map fun p => (level, p.1, Val.data p.2)

/-- The restart file for the states `xs`: one level for every `stride` steps (none unless positive), with the time level of the result
file (if there is one). -/
def restartFile (sim : Sim τ σ δ) (nd : Option Int) (stride : Int) (xs : List (τ × σ)) : RFile δ :=
  if stride < 1 then [] else
  (xs.filter fun x => decide (stride ∣ sim.step x.1 ∧ sim.step x.1 ≠ 0)).flatMap fun x =>
    levelOf (sim.step x.1 / stride - 1) (nd.map fun n => sim.step x.1 / n) ((sim.ser x.1 x.2).getD [])

end IFEM.Drv
