import Verif.Props.DriverRun
import Verif.Props.TimeStep
/-!
# C75: restart of simulations with the time stepping of the library, examples and counterexamples
-/
namespace IFEM.Props
open Drv IFEM.Spec IFEM.TimeStep
variable {K : Type} [Field K] [LinearOrder K] [IsStrictOrderedRing K] {σ : Type}

/-- A solver which looks at the time, step size, previous step size and step number only; solving a step reports an iteration count and a CFL number. -/
structure Solver (K σ : Type) where
  model : σ → Bool
  adv : K → K → K → Int → σ → σ × Bool
  solve : K → K → K → Int → σ → σ × Bool × Int × K
  save : K → K → K → Int → σ → Bool

/-- The simulator of the driver, with the model of `TimeStep` (C25-C27) and lossless serialization. `multiSteps`: TimeStep.C:184-188 -/
def timeSim (S : Solver K σ) : Sim (TimeStep K) σ (Saved K ⊕ σ) where
  step tp := tp.step
  multi tp := decide (tp.starTime + (1 + epsT) * tp.dt < tp.stopTime)
  incr tp := tp.increment
  saveModel := S.model
  adv tp s := (tp, S.adv tp.t tp.dt tp.dtn tp.step s)
  solve tp s := (report tp (S.solve tp.t tp.dt tp.dtn tp.step s).2.2.1 (S.solve tp.t tp.dt tp.dtn tp.step s).2.2.2,
    (S.solve tp.t tp.dt tp.dtn tp.step s).1, (S.solve tp.t tp.dt tp.dtn tp.step s).2.1)
  save tp s := S.save tp.t tp.dt tp.dtn tp.step s
  ser tp s := some [("TimeStep", Sum.inl tp.serialize), ("Solver", Sum.inr s)]
  deser d tp s := match d with
    | [("TimeStep", Sum.inl a), ("Solver", Sum.inr u)] => ((tp.deSerialize a).1, u, (tp.deSerialize a).2)
    | _ => (tp, s, false)

/-- What a user sees of a state: time, step size, previous step size, step number, solution. -/
def seenState (x : TimeStep K × σ) : K × K × K × Int × σ := (x.1.t, x.1.dt, x.1.dtn, x.1.step, x.2)

/-- States that differ in their iteration counts only, without step table and iteration-based control. -/
def SameRun (x y : TimeStep K × σ) : Prop :=
  y.2 = x.2 ∧ (∃ i n, y.1 = relabel i n x.1.first x.1.CFL x.1) ∧ x.1.mySteps = [] ∧ 0 < x.1.f1 ∧ (¬ x.1.dtMin < x.1.dtMax ∨ 0 < x.1.maxCFL)

theorem same_incr {x y : TimeStep K × σ} (h : SameRun x y) :
    (∃ i n, y.1.increment.1 = relabel i n x.1.increment.1.first x.1.increment.1.CFL x.1.increment.1) ∧ y.1.increment.2 = x.1.increment.2 ∧
    x.1.increment.1.mySteps = [] ∧ 0 < x.1.increment.1.f1 ∧ (¬ x.1.increment.1.dtMin < x.1.increment.1.dtMax ∨ 0 < x.1.increment.1.maxCFL) := by
  obtain ⟨-, ⟨i, n, hy⟩, h3, h4, h5⟩ := h
  obtain ⟨n', hn⟩ := increment_relabel x.1 i n x.1.first x.1.CFL h4 h5 (Or.inr rfl)
  obtain ⟨c1, c2, c3, c4, -, c6⟩ := increment_const x.1 h4 h5
  obtain ⟨a1, a2, a3, a4, a5, a6, e⟩ := increment_notable x.1 h3
  have e1 : x.1.increment.1.first = x.1.first := by rw [e]
  have e2 : x.1.increment.1.CFL = x.1.CFL := by rw [e]
  rw [hy, hn, e1, e2]
  refine ⟨⟨i, n', rfl⟩, rfl, c6 h3, by rw [c3]; exact h4, ?_⟩
  rw [c1, c2]
  exact h5.imp id c4

theorem alike_same (S : Solver K σ) : Alike (timeSim S) SameRun := by
  have hstep : ∀ x y x', SameRun x y → Step (timeSim S) x x' → ∃ y', Step (timeSim S) y y' ∧ SameRun x' y' := by
    intro x y x' h hs
    obtain ⟨⟨i, n, e1⟩, e2, e3, e4, e5⟩ := same_incr h
    obtain ⟨a1, a2, a3⟩ := hs
    have hu := h.1
    have b1 : (timeSim S).incr y.1 = ((relabel i n x.1.increment.1.first x.1.increment.1.CFL x.1.increment.1), x.1.increment.2) := Prod.ext e1 e2
    have b0 : (timeSim S).incr x.1 = (x.1.increment.1, x.1.increment.2) := rfl
    rw [b0] at a1 a2 a3
    refine ⟨(report (relabel i n x.1.increment.1.first x.1.increment.1.CFL x.1.increment.1) x'.1.iter x'.1.CFL, x'.2), ⟨?_, ?_, ?_⟩, ?_⟩
    · rw [b1]; exact a1
    · rw [b1, hu]; exact a2
    · rw [b1, hu]
      have hx := a3
      simp only [timeSim, Prod.mk.injEq] at hx ⊢
      obtain ⟨g1, g2, g3⟩ := hx
      refine ⟨?_, g2, g3⟩
      rw [← g1]
      rfl
    · have hx := a3
      simp only [timeSim, Prod.mk.injEq] at hx
      obtain ⟨g1, g2, g3⟩ := hx
      refine ⟨rfl, ⟨x'.1.iter, n, ?_⟩, ?_, ?_, ?_⟩
      · rw [← g1]; rfl
      · rw [← g1]; exact e3
      · rw [← g1]; exact e4
      · rw [← g1]; exact e5
  refine ⟨?_, ?_, ?_, ?_, ?_, hstep, ?_⟩
  · rintro x y ⟨h1, ⟨i, n, h2⟩, -⟩
    rw [h2]; rfl
  · rintro x y ⟨h1, ⟨i, n, h2⟩, -⟩
    rw [h2]; rfl
  · rintro x y ⟨h1, -⟩
    rw [h1]
  · rintro x y ⟨h1, ⟨i, n, h2⟩, -⟩
    rw [h1, h2]; rfl
  · rintro x y ⟨h1, ⟨i, n, h2⟩, -⟩
    rw [h1, h2]; rfl
  · intro x y c h he
    obtain ⟨⟨i, n, e1⟩, e2, e3, e4, e5⟩ := same_incr h
    have hu := h.1
    have b1 : (timeSim S).incr y.1 = ((relabel i n x.1.increment.1.first x.1.increment.1.CFL x.1.increment.1), x.1.increment.2) := Prod.ext e1 e2
    have b0 : (timeSim S).incr x.1 = (x.1.increment.1, x.1.increment.2) := rfl
    rcases he with ⟨rfl, hs⟩ | ⟨rfl, x', hx'⟩
    · left
      refine ⟨rfl, ?_⟩
      unfold Stops at hs ⊢
      rw [b0] at hs
      rw [b1, hu]
      exact hs
    · right
      obtain ⟨a1, a2, a3⟩ := hx'
      rw [b0] at a1 a2 a3
      refine ⟨rfl, (report (relabel i n x.1.increment.1.first x.1.increment.1.CFL x.1.increment.1) x'.1.iter x'.1.CFL, x'.2), ⟨?_, ?_, ?_⟩⟩
      · rw [b1]; exact a1
      · rw [b1, hu]; exact a2
      · rw [b1, hu]
        simp only [timeSim, Prod.mk.injEq] at a3 ⊢
        obtain ⟨g1, g2, g3⟩ := a3
        refine ⟨?_, g2, g3⟩
        rw [← g1]
        rfl

/-- The states of a run without step table. -/
theorem run_notable (S : Solver K σ) (s0 : TimeStep K) (h : s0.mySteps = []) (had : ¬ s0.dtMin < s0.dtMax ∨ 0 < s0.maxCFL) (hf : 0 < s0.f1) :
    ∀ (ys : List (TimeStep K × σ)) (x : TimeStep K × σ), Steps (timeSim S) (x :: ys) →
      (∃ st it ni t dt dtn m c f, x.1 = { s0 with step := st, iter := it, niter := ni, t := t, dt := dt, dtn := dtn, maxCFL := m, CFL := c, first := f }) →
      (¬ x.1.dtMin < x.1.dtMax ∨ 0 < x.1.maxCFL) →
      ∀ y ∈ x :: ys, (∃ st it ni t dt dtn m c f, y.1 = { s0 with step := st, iter := it, niter := ni, t := t, dt := dt, dtn := dtn, maxCFL := m, CFL := c, first := f }) ∧
        (¬ y.1.dtMin < y.1.dtMax ∨ 0 < y.1.maxCFL) := by
  intro ys
  induction ys with
  | nil => intro x _ h1 h2 y hy; simp only [List.mem_singleton] at hy; subst hy; exact ⟨h1, h2⟩
  | cons x' ys ih =>
    intro x hs h1 h2 y hy
    rcases List.mem_cons.1 hy with rfl | hy
    · exact ⟨h1, h2⟩
    · refine ih x' (steps_tail hs) ?_ ?_ y hy
      all_goals
        obtain ⟨a1, a2, a3⟩ := hs 0 x x' rfl rfl
        simp only [timeSim, Prod.mk.injEq] at a3
        obtain ⟨g1, -, -⟩ := a3
        obtain ⟨st, it, ni, t, dt, dtn, m, c, f, hx⟩ := h1
        have hm : x.1.mySteps = [] := by rw [hx]; exact h
        have hf1 : x.1.f1 = s0.f1 := by rw [hx]
        rw [← g1]
      · obtain ⟨b1, b2, b3, b4, b5, b6, e⟩ := increment_notable x.1 hm
        unfold report
        rw [e, hx]
        exact ⟨_, _, _, _, _, _, _, _, _, rfl⟩
      · obtain ⟨c1, c2, c3, c4, -⟩ := increment_const x.1 (by rw [hf1]; exact hf) h2
        show ¬ x.1.increment.1.dtMin < x.1.increment.1.dtMax ∨ 0 < x.1.increment.1.maxCFL
        rw [c1, c2]
        exact h2.imp id c4

/-- **C75** with the time stepping of the library (no step table, no iteration-based step size control; C27 shows these cases to fail): a simulation interrupted
at any time after level `l` of its restart file was written and restarted from this level by a new process with the same input goes on as if it had
not been interrupted: the same exit code, times, step sizes, step numbers and solutions, the same restart file, and the same
levels of the result file. -/
theorem C75_timeStep (S : Solver K σ) (sd spectral : Bool) (nd stride : Nat) (code : Int) (hn : 1 ≤ nd) (hdv : spectral = false → nd ∣ stride) (hst : 1 ≤ stride)
    (hsd : sd = false ∨ code = 0) (s0 : TimeStep K) (u0 u : σ) (htab : s0.mySteps = []) (hf : 0 < s0.f1) (had : ¬ s0.dtMin < s0.dtMax ∨ 0 < s0.maxCFL)
    (ys : List (TimeStep K × σ)) (hc : Complete (timeSim S) ((s0, u0) :: ys) code) (l j : Nat) (hl : (l+1)*stride ≤ ys.length) (F : RFile (Saved K ⊕ σ))
    (hF : F = restartFile (timeSim S) (expInt spectral nd) stride ((s0, u0) :: ys)) (hj : (F.filter fun p => decide (p.1 ≤ (l : Int))).length ≤ j) (n : Nat) (hn' : ys.length < n) :
    ∃ tp' s' e st', restart (timeSim S) (F.take j) (l+1) s0 u = ((l : Int), tp', s', e, (l : Int)) ∧
      solveProblem (timeSim S) sd n (handleDataOutput spectral nd stride e l tp' s' true (F.take j)) = some (code, st') ∧
      st'.disk.saved.map seenState = (((s0, u0) :: ys).drop ((l+1)*stride)).map seenState ∧
      st'.disk.rst = F ∧
      (spectral = false → st'.disk.exported.map (fun p => (p.1, seenState p.2)) =
        (results (timeSim S) nd (((s0, u0) :: ys).drop ((l+1)*stride))).map fun p => (p.1, seenState p.2)) := by
  have hseen : ∀ x y : TimeStep K × σ, SameRun x y → seenState y = seenState x := by
    rintro x y ⟨h1, ⟨i, n, h2⟩, -⟩
    unfold seenState
    rw [h1, h2]; rfl
  have hrun := run_notable S s0 htab had hf ys (s0, u0) hc.steps ⟨_, _, _, _, _, _, _, _, _, rfl⟩ had
  obtain ⟨tp', s', e, st', h1, h2, h3, h4, h5⟩ := C75_restart (timeSim S) sd spectral nd stride code hn hdv hst hsd ((s0, u0) :: ys) hc SameRun (alike_same S) s0 u (by
    intro x hx d hd
    cases Option.some.inj hd
    obtain ⟨⟨st, it, ni, t, dt, dtn, m, c, f, hx1⟩, hx2⟩ := hrun x hx
    refine ⟨((s0.deSerialize x.1.serialize).1, x.2), ?_, rfl, ?_, ?_, ?_, hx2⟩
    · show ((s0.deSerialize x.1.serialize).1, x.2, (s0.deSerialize x.1.serialize).2) = _
      have : (s0.deSerialize x.1.serialize).2 = true := by
        unfold deSerialize reset
        dsimp only
        rw [htab]
      rw [this]
    · refine ⟨s0.iter, s0.niter, ?_⟩
      unfold deSerialize reset serialize relabel
      dsimp only
      rw [htab, hx1]
      dsimp only
      rw [htab]
    · rw [hx1]; exact htab
    · rw [hx1]; exact hf) l j (by simpa using Nat.lt_succ_of_le hl) F hF hj n (by simpa using Nat.succ_le_of_lt hn')
  refine ⟨tp', s', e, st', h1, h2, ?_, h4, ?_⟩
  · have : ∀ xs zs : List (TimeStep K × σ), List.Forall₂ SameRun xs zs → zs.map seenState = xs.map seenState := by
      intro xs zs hh
      induction hh with
      | nil => rfl
      | cons h _ ih => rw [List.map_cons, List.map_cons, ih, hseen _ _ h]
    exact this _ _ h3
  · intro hsp
    have : ∀ xs zs : List (Int × TimeStep K × σ), List.Forall₂ (fun p q => q.1 = p.1 ∧ SameRun p.2 q.2) xs zs → zs.map (fun p => (p.1, seenState p.2)) = xs.map fun p => (p.1, seenState p.2) := by
      intro xs zs hh
      induction hh with
      | nil => rfl
      | cons h _ ih => rw [List.map_cons, List.map_cons, ih, h.1, hseen _ _ h.2]
    exact this _ _ (h5 hsp)

/-! ### Examples -/

/-- The state after `x`. -/
def nextState {τ σ δ : Type} (sim : Sim τ σ δ) (x : τ × σ) : τ × σ :=
  let a := sim.adv (sim.incr x.1).1 x.2
  ((sim.solve a.1 a.2.1).1, (sim.solve a.1 a.2.1).2.1)

/-- The step after `x` succeeds. -/
def goesOn {τ σ δ : Type} (sim : Sim τ σ δ) (x : τ × σ) : Bool :=
  let a := sim.adv (sim.incr x.1).1 x.2
  (sim.incr x.1).2 && a.2.2 && (sim.solve a.1 a.2.1).2.2

/-- `x` and `n` more states. -/
def driverTrace {τ σ δ : Type} (sim : Sim τ σ δ) : Nat → τ × σ → List (τ × σ)
  | 0, x => [x]
  | n+1, x => x :: driverTrace sim n (nextState sim x)

theorem driver_trace_cons {τ σ δ : Type} (sim : Sim τ σ δ) (n : Nat) (x : τ × σ) : ∃ ys, driverTrace sim n x = x :: ys := by
  cases n <;> exact ⟨_, rfl⟩

theorem driver_trace_steps {τ σ δ : Type} (sim : Sim τ σ δ) (n : Nat) (x : τ × σ) (h : (driverTrace sim n x).dropLast.all (goesOn sim) = true) : Steps sim (driverTrace sim n x) := by
  induction n generalizing x with
  | zero => exact steps_one sim x
  | succ n ih =>
    obtain ⟨ys, hy⟩ := driver_trace_cons sim n (nextState sim x)
    have hi := ih (nextState sim x)
    rw [driverTrace] at h ⊢
    rw [hy] at h hi ⊢
    rw [List.dropLast_cons_of_ne_nil (by simp), List.all_cons, Bool.and_eq_true] at h
    refine steps_cons ?_ (hi h.2)
    have h1 := h.1
    unfold goesOn at h1
    simp only [Bool.and_eq_true] at h1
    exact ⟨h1.1.1, h1.1.2, by rw [← h1.2]; rfl⟩

/-- Counts the time. -/
def demoSolver : Solver Rat Rat := ⟨fun _ => true, fun _ _ _ _ s => (s, true), fun _ dt _ _ s => (s + dt, true, 3, 0), fun _ _ _ _ _ => true⟩

/-- Six steps of size one half, no table and no control of the step size. -/
def demoStep : TimeStep Rat := { tsDemo with mySteps := [], dt := 1/2, stopTime := 3, dtMin := 1, dtMax := 1 }

theorem demo_complete : Complete (timeSim demoSolver) (driverTrace (timeSim demoSolver) 6 (demoStep, 0)) 0 := by
  refine ⟨driver_trace_steps _ _ _ (by decide +kernel), ?_, ?_, fun _ _ => rfl, ?_, ?_⟩
  · have : ∀ i : Nat, i < 7 → (driverTrace (timeSim demoSolver) 6 (demoStep, 0))[i]?.map (fun x => x.1.step) = some (i : Int) := by decide +kernel
    intro i x hx
    have hi : i < 7 := by
      obtain ⟨h, -⟩ := List.getElem?_eq_some_iff.1 hx
      exact h
    have h1 := this i hi
    rw [hx] at h1
    exact Option.some.inj h1
  · have : (driverTrace (timeSim demoSolver) 6 (demoStep, 0)).all (fun x => (timeSim demoSolver).multi x.1) = true := by decide +kernel
    exact List.all_eq_true.1 this
  · intro x _
    exact ⟨rfl, _, rfl, (by simp), (by simp)⟩
  · refine ⟨_, rfl, Or.inl ⟨rfl, Or.inl ?_⟩⟩
    decide +kernel

/-- The hypotheses of `C75_timeStep` are met by this simulation; the restart file has two levels of three items and a group. -/
example : demoStep.mySteps = [] ∧ 0 < demoStep.f1 ∧ ¬ demoStep.dtMin < demoStep.dtMax ∧
    (restartFile (timeSim demoSolver) (some 1) 2 (driverTrace (timeSim demoSolver) 6 (demoStep, 0))).map (fun p => (p.1, p.2.1)) =
      [(0, ""), (0, "TimeLevel"), (0, "TimeStep"), (0, "Solver"), (1, ""), (1, "TimeLevel"), (1, "TimeStep"), (1, "Solver"),
       (2, ""), (2, "TimeLevel"), (2, "TimeStep"), (2, "Solver")] :=
  ⟨rfl, by decide +kernel, by decide +kernel, by decide +kernel⟩

/-- Time, step number and solution. -/
def shortState (x : TimeStep Rat × Rat) : List Rat := [x.1.t, x.1.step, x.2]

/-- Restart level, restored state, its levels; then exit code and result file of the restarted run. -/
def demoRestart (file : RFile (Saved Rat ⊕ Rat)) (l nd stride : Int) : (Int × List Rat × Int × Int) × Option (Int × List (Int × List Rat)) :=
  match restart (timeSim demoSolver) file l demoStep 7 with
  | (r, tp, s, e, l) => ((r, shortState (tp, s), e, l), (solveProblem (timeSim demoSolver) false 20 (handleDataOutput false nd stride e l tp s true file)).map fun q =>
          (q.1, q.2.disk.exported.map fun p => (p.1, shortState p.2)))

/-- Interrupted in the middle of writing its second restart level, and restarted from the first one. -/
example : demoRestart ((restartFile (timeSim demoSolver) (some 2) 2 (driverTrace (timeSim demoSolver) 6 (demoStep, 0))).take 6) 1 2 2 =
    ((0, [1, 2, 1], 1, 0), some (0, [(1, [1, 2, 1]), (2, [2, 4, 2]), (3, [3, 6, 3])])) := by decide +kernel

/-! ### Counterexamples -/

/-- The levels and step numbers in the result file of a run, with results every `nd` and restarts every `stride` steps. -/
def fullRun (nd stride : Int) : Option (List (Int × Int)) :=
  (solveProblem (timeSim demoSolver) false 20 (handleDataOutput false nd stride 0 0 demoStep 0 true [])).map fun q => q.2.disk.exported.map fun p => (p.1, p.2.1.step)

/-- The same when restarted from level `l`. -/
def restartedRun (nd stride l : Int) : Option (List (Int × Int)) :=
  (solveProblem (timeSim demoSolver) false 20 (handleDataOutput false nd stride 0 0 demoStep 0 true [])).bind fun q =>
    match restart (timeSim demoSolver) q.2.disk.rst (l+1) demoStep 7 with
    | (_, tp, s, e, l) => (solveProblem (timeSim demoSolver) false 20 (handleDataOutput false nd stride e l tp s true q.2.disk.rst)).map fun q =>
        q.2.disk.exported.map fun p => (p.1, p.2.1.step)

/-- **F123.** When a restart is made from a step which is not among those written to the result file, the result file gets the wrong steps: with results
every second and restart data every third step, level 1 (step 2) is overwritten by step 3, level 2 (step 4) by step 5;
with results every fourth step, the initial level is overwritten by step 4. -/
theorem C75_levels_counterexample :
    fullRun 2 3 = some [(0, 0), (1, 2), (2, 4), (3, 6)] ∧ restartedRun 2 3 0 = some [(1, 3), (2, 5)] ∧
    fullRun 4 3 = some [(0, 0), (1, 4)] ∧ restartedRun 4 3 0 = some [(0, 4)] := by decide +kernel

/-- **F124.** A simulation started anew, with the initial solution 100, in the presence of the restart file of an earlier one: the file
is not changed, and a restart from its last level goes on with the earlier solution 3 (instead of 103). -/
theorem C75_stale_counterexample :
    (solveProblem (timeSim demoSolver) false 20 (handleDataOutput false 1 2 0 0 demoStep 100 true
        (restartFile (timeSim demoSolver) (some 1) 2 (driverTrace (timeSim demoSolver) 6 (demoStep, 0))))).map (fun q =>
      (q.1, q.2.disk.rst.length, q.2.disk.saved.getLast?.map shortState, (demoRestart q.2.disk.rst 0 1 2).1.2.1)) =
    some (0, 12, some [3, 6, 103], [3, 6, 3]) := by decide +kernel

/-- **F132.** With two writers, one of them on an empty file, the level of a stationary result depends on the order of the writers. -/
theorem C75_writers_counterexample :
    (solveStat (timeSim demoSolver) demoStep 0 (some ⟨1, -1, -1⟩) true [-1, 5]).2.exported.map (fun p => p.1) = [6] ∧
    (solveStat (timeSim demoSolver) demoStep 0 (some ⟨1, -1, -1⟩) true [5, -1]).2.exported.map (fun p => p.1) = [0] := by decide +kernel

/-- The restarts refused: no such level, and level three of six exists. -/
example : (restart (timeSim demoSolver) (restartFile (timeSim demoSolver) (some 1) 2 (driverTrace (timeSim demoSolver) 6 (demoStep, 0))) 8 demoStep 7).1 = -1 ∧
    (restart (timeSim demoSolver) (restartFile (timeSim demoSolver) (some 1) 2 (driverTrace (timeSim demoSolver) 6 (demoStep, 0))) 3 demoStep 7).1 = 2 ∧
    (restart { timeSim demoSolver with deser := fun _ tp s => (tp, s, false) }
      (restartFile (timeSim demoSolver) (some 1) 2 (driverTrace (timeSim demoSolver) 6 (demoStep, 0))) 3 demoStep 7).1 = -2 ∧
    (solveStat (timeSim demoSolver) demoStep 0 (some ⟨1, -1, -1⟩) true [7, 5, 6]).2.exported.map (fun p => p.1) = [6] := by decide +kernel

end IFEM.Props
