import Verif.Model.DriverTS
/-!
# What an adaptive simulation must do

The observable behaviour of a simulation is what happened, in order: the steps solved (with the time stepping data and the state they were solved from),
the meshes and results saved.
-/
namespace IFEM.Spec
open Ada
variable {τ σ μ ρ ω : Type}

/-- What the driver assumes about a simulator: `age s` is the number of time steps the solution has been advanced, `kept s` that of the internally stored
solution.  Solving advances by one step; storing, restoring and mesh adaptation do what they are for: after refinement the *stored* solution
has been transferred to the new mesh. -/
structure Ages (sim : TSim τ σ μ) (age kept : σ → Nat) : Prop where
  adv : ∀ tp s, (sim.adv tp s).2.2 = true ∧ age (sim.adv tp s).2.1 = age s ∧ kept (sim.adv tp s).2.1 = kept s ∧
    sim.mesh (sim.adv tp s).2.1 = sim.mesh s ∧ sim.refined (sim.adv tp s).2.1 = sim.refined s
  solve : ∀ tp s, (sim.solve tp s).2.2 = true → age (sim.solve tp s).2.1 = age s + 1 ∧ kept (sim.solve tp s).2.1 = kept s ∧
    sim.mesh (sim.solve tp s).2.1 = sim.mesh s ∧ sim.refined (sim.solve tp s).2.1 = sim.refined s
  keep : ∀ s, age (sim.keep s) = age s ∧ kept (sim.keep s) = age s ∧ sim.mesh (sim.keep s) = sim.mesh s ∧ sim.refined (sim.keep s) = sim.refined s
  restore : ∀ s, age (sim.restore s) = kept s ∧ sim.mesh (sim.restore s) = sim.mesh s ∧ sim.refined (sim.restore s) = sim.refined s
  stagger : ∀ b s, age (sim.stagger b s) = age s ∧ kept (sim.stagger b s) = kept s ∧ sim.mesh (sim.stagger b s) = sim.mesh s ∧
    sim.refined (sim.stagger b s) = sim.refined s
  same : ∀ s, (sim.adapt s).2 = 0 → age (sim.adapt s).1 = age s ∧ kept (sim.adapt s).1 = kept s ∧ sim.mesh (sim.adapt s).1 = sim.mesh s ∧
    sim.refined (sim.adapt s).1 = sim.refined s
  transfer : ∀ s, (sim.adapt s).2 > 0 → age (sim.adapt s).1 = kept s ∧ sim.refined (sim.adapt s).1 = true
  init : ∀ s, (sim.initRef s).2 = true → age (sim.initRef s).1 = age s

/-- A clock that can be set back: `T k` is the time at step `k`, `D k` the data of step `k` (step sizes).  `good m k tp`: the clock is at step `k`, and step `m` has been
reached before; `weak m k tp`: the same, after a refused increment (only the time is known).  Incrementing moves on by one step or the simulation has finished;
setting the clock back to a step which has been reached really sets it back. -/
structure Clock (sim : TSim τ σ μ) (time : τ → ρ) (size : τ → ω) (T : Nat → ρ) (D : Nat → ω) (good weak : Nat → Nat → τ → Prop) : Prop where
  good_obs : ∀ m k tp, good m k tp → size tp = D k ∧ weak m k tp
  weak_obs : ∀ m k tp, weak m k tp → sim.step tp = k ∧ time tp = T k ∧ k ≤ m
  incr_ok : ∀ m k tp, good m k tp → (sim.incr tp).2 = true → good (max m (k + 1)) (k + 1) (sim.incr tp).1
  incr_no : ∀ m k tp, good m k tp → (sim.incr tp).2 = false → weak m k (sim.incr tp).1 ∧ sim.finished (sim.incr tp).1 = true
  reset : ∀ m k tp j, weak m k tp → j ≤ m → good m j (sim.reset tp j)
  adv : ∀ m k tp s, good m k tp → good m k (sim.adv tp s).1
  solve : ∀ m k tp s, good m k tp → good m k (sim.solve tp s).1

/-- A step is solved at the time and with the step data of the step after the one the solution is at, and results are saved with the step number and time of
the solution. -/
def Timely (sim : TSim τ σ μ) (time : τ → ρ) (size : τ → ω) (T : Nat → ρ) (D : Nat → ω) (age : σ → Nat) : Ev τ σ → Prop
  | .solved tp s _ => sim.step tp = age s + 1 ∧ time tp = T (age s + 1) ∧ size tp = D (age s + 1)
  | .saved tp s _ => sim.step tp = age s ∧ time tp = T (age s)
  | _ => True

/-- The step number of saved results. -/
def savedStep (sim : TSim τ σ μ) : Ev τ σ → Option Int
  | .saved tp _ _ => some (sim.step tp)
  | _ => none

/-- The step numbers of the saved results, in the order of saving. -/
def savedSteps (sim : TSim τ σ μ) (log : List (Ev τ σ)) : List Int := log.filterMap (savedStep sim)

/-- The mesh of a saved geometry. -/
def modelMesh (sim : TSim τ σ μ) : Ev τ σ → Option μ
  | .model s _ => some (sim.mesh s)
  | _ => none

/-- The last mesh saved. -/
def shownMesh (sim : TSim τ σ μ) (log : List (Ev τ σ)) : Option μ := (log.filterMap (modelMesh sim)).getLast?

/-- The error code of something that went wrong. -/
def errorCode : Ev τ σ → Option Int
  | .solved _ _ ok => if ok then none else some 3
  | .model _ ok => if ok then none else some 2
  | .saved _ _ ok => if ok then none else some 2
  | .adapted n => if n < 0 then some 4 else none
  | .initial ok => if ok then none else some 4
  | .dumped ok => if ok then none else some 2

end IFEM.Spec
