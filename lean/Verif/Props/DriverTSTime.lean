import Verif.Props.DriverTS
import Verif.Props.TimeStep
import Verif.Lemmas.TimeClock
/-!
# C76: adaptive simulations with the time stepping of the library, examples and counterexamples
-/
namespace IFEM.Props
open Ada IFEM.Spec IFEM.TimeStep
variable {K : Type} [Field K] [LinearOrder K] [IsStrictOrderedRing K] {σ μ : Type}

/-- The simulator uses the time stepping of the library, and changes nothing but what it reports there. -/
structure Timed (sim : TSim (TimeStep K) σ μ) : Prop where
  step : ∀ tp, sim.step tp = tp.step
  finished : ∀ tp, sim.finished tp = tp.finished
  incr : ∀ tp, sim.incr tp = tp.increment
  reset : ∀ tp j, sim.reset tp j = (tp.reset j).1
  adv : ∀ tp s, ∃ i n f c, (sim.adv tp s).1 = relabel i n f c tp
  solve : ∀ tp s, ∃ i n f c, (sim.solve tp s).1 = relabel i n f c tp

theorem atStep_relabel (s0 : TimeStep K) (m k : Nat) (tp : TimeStep K) (h : atStep s0 m k tp) (i n : Int) (f : Char) (c : K) :
    atStep s0 m k (relabel i n f c tp) := by
  obtain ⟨h1, h2, i', n', f', c', rfl⟩ := h
  exact ⟨h1, h2, i, n, f, c, rfl⟩

/-- **C76** (step table). A time stepping with a table of series of steps, starting at time zero, without CFL- or iteration-based control and step limit, can be set back to
each step it has reached: it then repeats exactly the times and step sizes of the uninterrupted sequence. -/
theorem C76_clock_table (sim : TSim (TimeStep K) σ μ) (hsim : Timed sim) (s0 : TimeStep K) (seg : List K × K) (segs : List (List K × K))
    (hp : Parsed s0) (hm : s0.mySteps = seg :: segs) (hstart : s0.starTime = 0) (hstop : s0.stopTime = (segs.getLastD seg).2)
    (hl : Legal s0) (hcfl : s0.maxCFL ≤ 0) (had : ¬ s0.dtMin < s0.dtMax) (hmx : s0.maxStep ≤ 0) :
    Clock sim (fun tp => tp.t) (fun tp => (tp.dt, tp.dtn)) (fun k => (canon s0 k).t) (fun k => ((canon s0 k).dt, (canon s0 k).dtn))
      (atStep s0) (atTime s0) := by
  have ht : Tabular s0 := ⟨hcfl, had⟩
  have hs : Stocked s0 := by
    refine ⟨fun sg h => ?_, fun i sg hi h => ?_⟩
    · rw [hp.lstep]
      have := (hl.ent _ sg (Nat.le_refl _) h).1
      exact List.length_pos_iff.2 this
    · exact List.length_pos_iff.2 (hl.ent _ sg hi h).1
  have hf : 0 < s0.f1 := lt_of_lt_of_le one_pos hl.f1
  refine ⟨?_, ?_, ?_, ?_, ?_, ?_, ?_⟩
  · intro m k tp hg
    refine ⟨?_, atStep_time s0 ht hp.step m k tp hg⟩
    obtain ⟨-, -, i, n, f, c, rfl⟩ := hg
    rfl
  · intro m k tp hw
    exact ⟨by rw [hsim.step]; exact hw.step, hw.time, hw.le⟩
  · intro m k tp hg hok
    rw [hsim.incr] at hok ⊢
    exact (atStep_incr s0 ht hs hf hp.step hmx m k tp hg).1 hok
  · intro m k tp hg hno
    rw [hsim.incr] at hno ⊢
    rw [hsim.finished]
    exact (atStep_incr s0 ht hs hf hp.step hmx m k tp hg).2 hno
  · intro m k tp j hw hj
    rw [hsim.reset]
    exact reset_canon s0 ht hs hf hp seg segs hm hstart hstop m k tp hw j hj
  · intro m k tp s hg
    obtain ⟨i, n, f, c, he⟩ := hsim.adv tp s
    rw [he]; exact atStep_relabel s0 m k tp hg i n f c
  · intro m k tp s hg
    obtain ⟨i, n, f, c, he⟩ := hsim.solve tp s
    rw [he]; exact atStep_relabel s0 m k tp hg i n f c

omit [IsStrictOrderedRing K] in
/-- Where the simulation starts. -/
theorem atStep_start (s0 : TimeStep K) : atStep s0 0 0 s0 :=
  ⟨fun j hj => by omega, Nat.le_refl _, s0.iter, s0.niter, s0.first, s0.CFL, rfl⟩

/-- The uninterrupted sequence as a run of the specification of time stepping. -/
theorem run_canon (s0 : TimeStep K) (ht : Tabular s0) (hf : 0 < s0.f1) (m : Nat) (hv : Valid s0 m) (a j : Nat) (haj : a + j ≤ m) :
    ∃ ts, Run (canon s0 a) ts (canon s0 (a + j)) ∧ ts.length = j := by
  induction j generalizing a with
  | zero => exact ⟨[], Run.done _, rfl⟩
  | succ j ih =>
    obtain ⟨ts, h1, h2⟩ := ih (a + 1) (by omega)
    have hr : report (canon s0 a) (canon s0 a).iter (canon s0 a).CFL = canon s0 a := rfl
    refine ⟨(canon s0 (a + 1)).t :: ts, ?_, by simp [h2]⟩
    have e : a + (j + 1) = a + 1 + j := by omega
    rw [e]
    refine Run.step _ _ _ (canon s0 a).iter (canon s0 a).CFL _ ?_ h1
    rw [hr]
    exact Prod.ext rfl (hv a (by omega))

/-- **C76** (with the time stepping of the library). A simulation with a step table ends after a number of turns that depends on the table only; each step `k` is solved at the time and
with the step sizes of the uninterrupted sequence, starting from the solution of step `k - 1`, and all results are saved with the step number and time of the solution. -/
theorem C76_table (sim : TSim (TimeStep K) σ μ) (hsim : Timed sim) (P : Prm) {age kept : σ → Nat} (hA : Ages sim age kept)
    (s0 : TimeStep K) (seg : List K × K) (segs : List (List K × K))
    (hp : Parsed s0) (hm : s0.mySteps = seg :: segs) (hstart : s0.starTime = 0) (hstop : s0.stopTime = (segs.getLastD seg).2)
    (hl : Legal s0) (hcfl : s0.maxCFL ≤ 0) (had : ¬ s0.dtMin < s0.dtMax) (hmx : s0.maxStep ≤ 0) (lo : K) (hb : LowerBound lo s0)
    (hpr : 1 ≤ P.nPredict) (hfw : 1 ≤ P.nForward) (N : Nat) (hN : s0.stopTime + lo * s0.mySteps.length + lo < lo * (N + 1)) (s : σ) (ha : age s = 0) :
    ∃ c r, solveProblem sim P (N + 2) (initTS s0 s) = some (c, r) ∧ ∀ e ∈ r.log, match e with
      | .solved tp s _ => tp.step = age s + 1 ∧ tp.t = (canon s0 (age s + 1)).t ∧ tp.dt = (canon s0 (age s + 1)).dt ∧ tp.dtn = (canon s0 (age s + 1)).dtn
      | .saved tp s _ => tp.step = age s ∧ tp.t = (canon s0 (age s)).t
      | _ => True := by
  have hC := C76_clock_table sim hsim s0 seg segs hp hm hstart hstop hl hcfl had hmx
  have hbound : ∀ m k tp, atStep s0 m k tp → k ≤ N := by
    rintro m k tp ⟨hv, hk, -⟩
    obtain ⟨ts, h1, h2⟩ := run_canon s0 ⟨hcfl, had⟩ (lt_of_lt_of_le one_pos hl.f1) m hv 0 k (by omega)
    have ht0 : s0.t = 0 := by rw [hp.t, hstart]
    have := C25_terminates s0 _ lo ts hl hb (by rw [ht0]; exact hl.stop.le) (by rw [hp.pos]; omega) h1
    rw [h2, ht0, hp.pos] at this
    by_contra hlt
    have hk2 : ((N : K) + 1) ≤ k := by exact_mod_cast (by omega : N + 1 ≤ k)
    have := mul_le_mul_of_nonneg_left hk2 hb.pos.le
    push_cast at *
    linarith
  obtain ⟨⟨c, r⟩, hr⟩ := C76_terminates sim P hA hC s0 s (atStep_start s0) ha N hbound hpr hfw (N + 2) (Nat.le_refl _)
  refine ⟨c, r, hr, fun e he => ?_⟩
  have h := C76_times sim P hA hC s0 s (atStep_start s0) ha (N + 2) c r hr e he
  cases e with
  | solved tp s ok =>
    obtain ⟨h1, h2, h3⟩ := h
    rw [hsim.step] at h1
    exact ⟨h1, h2, (Prod.mk.inj h3).1, (Prod.mk.inj h3).2⟩
  | saved tp s ok =>
    obtain ⟨h1, h2⟩ := h
    rw [hsim.step] at h1
    exact ⟨h1, h2⟩
  | _ => trivial

/-! ## Witnesses and counterexamples -/

/-- A simulator whose refinements follow a script. -/
structure Scripted where
  age : Nat
  kept : Nat
  mesh : Nat
  script : List Int
  deriving DecidableEq

/-- Mesh adaptation by the script: the stored solution is transferred to the new mesh. -/
def Scripted.adapt (s : Scripted) : Scripted × Int :=
  match s.script with
  | [] => (s, 0)
  | r :: rs => if r > 0 then ({ s with age := s.kept, mesh := s.mesh + 1, script := rs }, r) else ({ s with script := rs }, r)

/-- The simulator; `adv` tells whether advancing the solution works. -/
def scripted (adv : Bool) : TSim (TimeStep Rat) Scripted Nat where
  step tp := tp.step
  finished tp := tp.finished
  before _ := false
  incr tp := tp.increment
  reset tp j := (tp.reset j).1
  adv tp s := (tp, s, adv)
  solve tp s := (report tp 3 0, { s with age := s.age + 1 }, true)
  saveModel _ := true
  save _ _ := true
  stagger _ s := s
  keep s := { s with kept := s.age }
  restore s := { s with age := s.kept }
  stopped _ := false
  adapt := Scripted.adapt
  initRef s := (s, true)
  dumpMesh _ := true
  mesh s := s.mesh
  refined s := decide (0 < s.mesh)

theorem scripted_timed (b : Bool) : Timed (scripted b) :=
  ⟨fun _ => rfl, fun _ => rfl, fun _ => rfl, fun _ _ => rfl, fun tp _ => ⟨tp.iter, tp.niter, tp.first, tp.CFL, rfl⟩,
    fun tp _ => ⟨3, tp.niter, tp.first, 0, rfl⟩⟩

theorem scripted_ages : Ages (scripted true) Scripted.age Scripted.kept := by
  refine ⟨fun _ _ => ⟨rfl, rfl, rfl, rfl, rfl⟩, fun _ _ _ => ⟨rfl, rfl, rfl, rfl⟩, fun _ => ⟨rfl, rfl, rfl, rfl⟩, fun _ => ⟨rfl, rfl, rfl⟩,
    fun _ _ => ⟨rfl, rfl, rfl, rfl⟩, fun s h => ?_, fun s h => ?_, fun _ _ => rfl⟩
  · change (Scripted.adapt s).2 = 0 at h
    show (Scripted.adapt s).1.age = s.age ∧ (Scripted.adapt s).1.kept = s.kept ∧ (Scripted.adapt s).1.mesh = s.mesh ∧
      decide (0 < (Scripted.adapt s).1.mesh) = decide (0 < s.mesh)
    unfold Scripted.adapt at h ⊢
    split at h
    · exact ⟨rfl, rfl, rfl, rfl⟩
    · split at h
      · rename_i h1; dsimp only at h; omega
      · rename_i h1; simp [h1]
  · change (Scripted.adapt s).2 > 0 at h
    show (Scripted.adapt s).1.age = s.kept ∧ decide (0 < (Scripted.adapt s).1.mesh) = true
    unfold Scripted.adapt at h ⊢
    split at h
    · exact absurd h (by simp)
    · split at h
      · rename_i h1; simp [h1]
      · rename_i h1; exact absurd h h1

/-- The saved results of a simulation: step number, time, age of the solution, mesh. -/
def savedResults (log : List (Ev (TimeStep Rat) Scripted)) : List (Int × Rat × Nat × Nat) :=
  log.filterMap fun e => match e with
    | .saved tp s _ => some (tp.step, tp.t, s.age, s.mesh)
    | _ => none

/-- The results of a simulation with a script. -/
def scriptRun (adv : Bool) (P : Prm) (s0 : TimeStep Rat) (script : List Int) : Option (Int × List (Int × Rat × Nat × Nat)) :=
  (solveProblem (scripted adv) P 20 (initTS s0 ⟨0, 0, 0, script⟩)).map fun r => (r.1, savedResults r.2.log)

/-- The mesh found for each time level of the restart file, and the mesh of its solution. -/
def scriptBasis (P : Prm) (script : List Int) : Option (List (Option (Option Nat) × Nat)) :=
  (solveProblem (scripted true) P 20 (initTS tsDemo ⟨0, 0, 0, script⟩)).map fun r =>
    (List.range r.2.file.length).map fun i => (restartBasis r.2.file i, ((r.2.file[i]?).map fun e => e.2.1.mesh).getD 0)

/-- The default parameters, with restart output. -/
def defaultPrm : Prm := { nForward := 1, nPredict := 1, maxPred := 1, init := true, saveInit := true, stride := some 1 }

/-- Refinement in the first and the third step: time and solution are set back, and the results are those of the steps 1/2, 1, 2, 3. -/
example : scriptRun true defaultPrm tsDemo [2, 0, 1] =
    some (0, [(0, 0, 0, 0), (1, 1/2, 1, 1), (2, 1, 2, 1), (3, 2, 3, 2), (4, 3, 4, 2)]) := by decide +kernel

/-- Two prediction steps and two forward steps, in at most three cycles without staggering. -/
example : scriptRun true { defaultPrm with nPredict := 2, nForward := 2, maxPred := -3 } tsDemo [1, 1, 0, 1] =
    some (0, [(0, 0, 0, 0), (1, 1/2, 1, 2), (2, 1, 2, 2), (3, 2, 3, 2), (4, 3, 4, 2)]) := by decide +kernel

/-- The hypotheses of the theorems hold for the demonstration. -/
example : ∃ c r, solveProblem (scripted true) defaultPrm 11 (initTS tsDemo ⟨0, 0, 0, [2, 0, 1]⟩) = some (c, r) ∧ r.log ≠ [] := by
  obtain ⟨c, r, h1, h2⟩ := C76_table (scripted true) (scripted_timed true) defaultPrm scripted_ages tsDemo ([1/2], 1) [([1], 3)] tsDemo_parsed rfl rfl rfl
    tsDemo_legal (by decide +kernel) (by decide +kernel) (by decide) (1/2) tsDemo_lb (by decide) (by decide) 9 (by decide +kernel) ⟨0, 0, 0, [2, 0, 1]⟩ rfl
  refine ⟨c, r, h1, ?_⟩
  have h3 : (solveProblem (scripted true) defaultPrm 11 (initTS tsDemo ⟨0, 0, 0, [2, 0, 1]⟩)).map (fun r => r.2.log.isEmpty) = some false := by decide +kernel
  intro h
  rw [h1, Option.map_some, h] at h3
  cases h3

/-- The restart levels after the first one lead to the meshes of their solutions. -/
example : scriptBasis defaultPrm [2, 0, 1] = some [(some none, 1), (some (some 1), 1), (some (some 2), 2), (some (some 2), 2)] := by decide +kernel

/-- **C76** (known defect). Without a step table (the usual input) the time is not set back with the step number: the results of the steps on the new mesh are saved
with times that are too late; the simulation over `[0, 3]` with step size `1/2` stops after five steps instead of six. -/
theorem C76_counterexample_no_table : scriptRun true defaultPrm { tsDemo with mySteps := [] } [1] =
      some (0, [(0, 0, 0, 0), (1, 1, 1, 1), (2, 3/2, 2, 1), (3, 2, 3, 1), (4, 5/2, 4, 1), (5, 3, 5, 1)]) ∧
    scriptRun true defaultPrm { tsDemo with mySteps := [] } [] =
      some (0, [(0, 0, 0, 0), (1, 1/2, 1, 0), (2, 1, 2, 0), (3, 3/2, 3, 0), (4, 2, 4, 0), (5, 5/2, 5, 0), (6, 3, 6, 0)]) := by
  constructor <;> decide +kernel

/-- **C76** (known defect). If the step limit is reached within the prediction steps, the last results are saved under the number of the next step. -/
theorem C76_counterexample_max_step : scriptRun true { defaultPrm with nPredict := 3 } { tsDemo with maxStep := 2 } [] =
    some (0, [(0, 0, 0, 0), (3, 1, 2, 0)]) := by decide +kernel

/-- **C76** (known defect). A failure to advance the solution is ignored: no step is ever solved, the initial solution is saved as the result of each step, and the return code is zero. -/
theorem C76_counterexample_advance : scriptRun false defaultPrm tsDemo [] =
    some (0, [(0, 0, 0, 0), (1, 1/2, 0, 0), (2, 1, 0, 0), (3, 2, 0, 0), (4, 3, 0, 0)]) := by decide +kernel

/-- **C76** (known defect). Restarting from the first time level is on the initial mesh, also if the solution is on a refined mesh; and with two prediction cycles, a mesh
accepted in the second cycle is forgotten: the third level leads to the mesh before the last refinement. -/
theorem C76_counterexample_basis : scriptBasis { defaultPrm with maxPred := 2 } [1, 0, 1, 0] =
    some [(some none, 1), (some (some 2), 2), (some (some 1), 2), (some (some 1), 2)] := by decide +kernel

/-- **C76** (known defect). Without prediction cycles (`max_prediction` zero) restarting fails from all time levels but the first. -/
theorem C76_counterexample_no_cycles : scriptBasis { defaultPrm with maxPred := 0 } [] = some [(some none, 0), (none, 0), (none, 0), (none, 0)] := by
  decide +kernel

/-- The simulation without prediction steps really starts the endless loop. -/
example : scriptRun true { defaultPrm with nPredict := 0 } tsDemo [] = none := by decide +kernel

end IFEM.Props
