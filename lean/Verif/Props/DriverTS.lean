import Verif.Lemmas.DriverTSRun
import Verif.Lemmas.DriverTSBasis
/-!
# C76: the adaptive time stepping driver

An adaptive simulation solves ahead, refines the mesh, sets time and solution back and solves again.  Whatever the simulator decides in its refinements: every step is solved
at its own time and with its own step size, from the solution of the step before; results are saved under the step number and time of the
solution, in order and on the mesh that was saved last; the return code tells what went wrong; the simulation ends; and each restart level leads to the mesh of its solution.
-/
namespace IFEM.Props
open Ada IFEM.Spec
variable {τ σ μ ρ ω : Type}

/-- **C76** (times). Every step is solved from the solution of the step before, at the time and with the step data of the new step; all results are saved with the step number
and time of the solution. -/
theorem C76_times (sim : TSim τ σ μ) (P : Prm) {age kept : σ → Nat} {time : τ → ρ} {size : τ → ω} {T : Nat → ρ} {D : Nat → ω} {good weak : Nat → Nat → τ → Prop}
    (hA : Ages sim age kept) (hC : Clock sim time size T D good weak) {k m : Nat} (tp : τ) (s : σ) (hg : good m k tp) (ha : age s = k)
    (n : Nat) (c : Int) (r : TS τ σ μ) (hr : solveProblem sim P n (initTS tp s) = some (c, r)) :
    ∀ e ∈ r.log, Timely sim time size T D age e := by
  obtain ⟨q, y, h⟩ := (⟨sim, P, time, size, T, D, age, kept, good, weak, k, hA, hC⟩ : Env τ σ μ ρ ω).run_inv n tp s hg ha c r hr
  exact h.ok

/-- **C76** (order). The step numbers of the saved results never decrease, starting from the initial step, and at most `max 1 predict_steps - 1` steps are left out in between. -/
theorem C76_order (sim : TSim τ σ μ) (P : Prm) {age kept : σ → Nat} {time : τ → ρ} {size : τ → ω} {T : Nat → ρ} {D : Nat → ω} {good weak : Nat → Nat → τ → Prop}
    (hA : Ages sim age kept) (hC : Clock sim time size T D good weak) {k m : Nat} (tp : τ) (s : σ) (hg : good m k tp) (ha : age s = k)
    (n : Nat) (c : Int) (r : TS τ σ μ) (hr : solveProblem sim P n (initTS tp s) = some (c, r)) :
    ((k : Int) :: savedSteps sim r.log).IsChain (fun a b : Int => a ≤ b ∧ b ≤ a + max 1 P.nPredict) := by
  obtain ⟨q, y, h⟩ := (⟨sim, P, time, size, T, D, age, kept, good, weak, k, hA, hC⟩ : Env τ σ μ ρ ω).run_inv n tp s hg ha c r hr
  exact h.chain

/-- **C76** (geometry). All results are on the mesh that was saved last (if there is at least one forward step). -/
theorem C76_geometry (sim : TSim τ σ μ) (P : Prm) {age kept : σ → Nat} {time : τ → ρ} {size : τ → ω} {T : Nat → ρ} {D : Nat → ω} {good weak : Nat → Nat → τ → Prop}
    (hA : Ages sim age kept) (hC : Clock sim time size T D good weak) {k m : Nat} (tp : τ) (s : σ) (hg : good m k tp) (ha : age s = k)
    (hf : 1 ≤ P.nForward) (n : Nat) (c : Int) (r : TS τ σ μ) (hr : solveProblem sim P n (initTS tp s) = some (c, r)) :
    ∀ l1 tp' s' ok l2, r.log = l1 ++ Ev.saved tp' s' ok :: l2 → shownMesh sim l1 = some (sim.mesh s') := by
  obtain ⟨q, y, h⟩ := (⟨sim, P, time, size, T, D, age, kept, good, weak, k, hA, hC⟩ : Env τ σ μ ρ ω).run_inv n tp s hg ha c r hr
  exact h.geo hf

/-- **C76** (codes). The return code is zero if nothing went wrong and the time stepping has finished. Otherwise the simulation ends with the first thing that goes wrong,
and returns its code. -/
theorem C76_codes (sim : TSim τ σ μ) (P : Prm) (tp : τ) (s : σ) (n : Nat) (c : Int) (r : TS τ σ μ)
    (hr : solveProblem sim P n (initTS tp s) = some (c, r)) :
    (c = 0 ∧ (∀ e ∈ r.log, errorCode e = none) ∧ sim.finished r.tp = true) ∨
    ∃ l e, r.log = l ++ [e] ∧ errorCode e = some c ∧ ∀ e' ∈ l, errorCode e' = none :=
  run_codes sim P n tp s c r hr

/-- **C76** (end). If at most `N` time steps are possible and there are prediction and forward steps, the simulation ends. -/
theorem C76_terminates (sim : TSim τ σ μ) (P : Prm) {age kept : σ → Nat} {time : τ → ρ} {size : τ → ω} {T : Nat → ρ} {D : Nat → ω} {good weak : Nat → Nat → τ → Prop}
    (hA : Ages sim age kept) (hC : Clock sim time size T D good weak) {k m : Nat} (tp : τ) (s : σ) (hg : good m k tp) (ha : age s = k)
    (N : Nat) (hN : ∀ m k tp, good m k tp → k ≤ N) (hp : 1 ≤ P.nPredict) (hf : 1 ≤ P.nForward) (n : Nat) (hn : N + 2 ≤ n) :
    ∃ r, solveProblem sim P n (initTS tp s) = some r :=
  (⟨sim, P, time, size, T, D, age, kept, good, weak, k, hA, hC⟩ : Env τ σ μ ρ ω).run_ends hN hp hf n hn tp s hg ha

/-- **C76** (restart). With one prediction cycle per refinement, each time level of the restart file, except the first one, leads to the mesh its solution is on. -/
theorem C76_restart_basis (sim : TSim τ σ μ) (P : Prm) {age kept : σ → Nat} (hA : Ages sim age kept) (hP : P.maxPred = 1 ∨ P.maxPred = -1)
    (hS : P.stride.isSome = true) (tp : τ) (s : σ) (n : Nat) (c : Int) (r : TS τ σ μ) (hr : solveProblem sim P n (initTS tp s) = some (c, r))
    (lv : Nat) (h0 : 0 < lv) (tp' : τ) (s' : σ) (b : Basis μ) (hl : r.file[lv]? = some (tp', s', b)) :
    restartBasis r.file lv = some (if sim.refined s' then some (sim.mesh s') else none) := by
  have h := run_basis sim P hA (by rcases hP with h | h <;> rw [h] <;> rfl) hS n tp s c r hr lv tp' s' b hl
  unfold restartBasis
  rw [if_neg (by omega), hl]
  dsimp only
  cases b with
  | none =>
    have h' : sim.refined s' = false := h
    rw [h']; rfl
  | full m =>
    obtain ⟨h1, h2⟩ := h
    rw [h1, h2]; rfl
  | level q =>
    obtain ⟨h1, h2, h3, tp2, s2, h4⟩ := h
    unfold restoreBasis
    dsimp only
    rw [if_pos ⟨h2, h3⟩, h4, h1]
    rfl

/-- **C76** (known defect). Without prediction steps, a simulation on a mesh which needs no refinement never ends. -/
theorem C76_counterexample_no_steps (sim : TSim τ σ μ) (P : Prm) (h0 : P.nPredict = 0) (h1 : 0 < P.maxPred) (tp : τ) (hf : sim.finished tp = false)
    (ha : ∀ s, (sim.adapt s).2 = 0) (hs : ∀ tp s, sim.save tp s = true) (n : Nat) (st : TS τ σ μ) (ht : st.tp = tp) : outer sim P n st = none := by
  induction n generalizing st with
  | zero => rfl
  | succ n ih =>
    unfold outer
    dsimp only
    rw [if_neg (by rw [ht, hf]; simp)]
    have hcyc : ∃ st1, cycles sim P (sim.step st.tp) P.maxPred.natAbs 0 1 0 (startTurn sim P st) = (st1, none, 0, 0) ∧ st1.tp = tp := by
      obtain ⟨q, hq⟩ : ∃ q, P.maxPred.natAbs = q + 1 := ⟨P.maxPred.natAbs - 1, by omega⟩
      have hp : predict sim P.nPredict (startCycle sim (sim.step st.tp) 0 (startTurn sim P st)) = (startTurn sim P st, none) := by rw [h0]; rfl
      rw [hq]
      unfold cycles
      dsimp only
      rw [if_neg (by omega), hp]
      dsimp only
      rw [if_neg (by simp)]
      by_cases c2 : P.maxPred > 0 ∧ sim.stopped (startTurn sim P st).s = true
      · rw [if_pos c2]; exact ⟨_, rfl, ht⟩
      rw [if_neg c2, if_neg (by show ¬ sim.finished st.tp = true; rw [ht, hf]; simp)]
      have hz : (adaptMesh sim (startTurn sim P st)).2 = 0 := ha _
      rw [hz]
      refine ⟨(adaptMesh sim (startTurn sim P st)).1, ?_, ht⟩
      cases q with
      | zero => rfl
      | succ q =>
        unfold cycles
        rw [if_pos (by omega)]
        rfl
    obtain ⟨st1, hc, ht1⟩ := hcyc
    have hturn : (turn sim P st).2 = none ∧ (turn sim P st).1.tp = tp := by
      unfold turn
      dsimp only
      rw [hc]
      dsimp only
      rw [if_neg (by simp), if_neg (by omega), if_pos ⟨rfl, h1⟩]
      have hsv : saveState sim P false true st1 = saveRes sim P st1 := rfl
      have hd : (decide ((0 : Int) > 0)) = false := by decide
      rw [hd, hsv]
      have h2 : (saveRes sim P st1).2 = true := by
        unfold saveRes
        dsimp only
        rw [if_pos (hs _ _)]
      rw [h2]
      exact ⟨rfl, by rw [(saveRes_frame sim P st1).1]; exact ht1⟩
    rw [hturn.1]
    exact ih _ hturn.2

end IFEM.Props
