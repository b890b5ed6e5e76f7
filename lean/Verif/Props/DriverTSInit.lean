import Verif.Props.DriverTSTime
/-!
# C76: the initial refinement
-/
namespace IFEM.Spec
open Ada
variable {τ σ : Type}

/-- An initial refinement, with its success. -/
def initialEv : Ev τ σ → Option Bool
  | .initial ok => some ok
  | _ => none

end IFEM.Spec

namespace IFEM.Props
open Ada IFEM.Spec
variable {τ σ μ : Type}

/-- The initial refinements in the log. -/
def initials (log : List (Ev τ σ)) : List Bool := log.filterMap initialEv

theorem initials_snoc (log : List (Ev τ σ)) (e : Ev τ σ) (h : initialEv e = none) : initials (log ++ [e]) = initials log := by
  unfold initials
  rw [List.filterMap_append]
  simp [h]

theorem advance_initials (sim : TSim τ σ μ) (st : TS τ σ μ) : initials (advance sim st).1.log = initials st.log := by
  unfold advance; dsimp only; split <;> rfl

theorem solve1_initials (sim : TSim τ σ μ) (st : TS τ σ μ) : initials (solve1 sim st).1.log = initials st.log := initials_snoc _ _ rfl

theorem saveState_initials (sim : TSim τ σ μ) (P : Prm) (a b : Bool) (st : TS τ σ μ) : initials (saveState sim P a b st).1.log = initials st.log := by
  have hd : ∀ st : TS τ σ μ, (dumpRestart sim P st).log = st.log := by
    intro st; unfold dumpRestart
    split
    · rfl
    · split <;> rfl
  have hr : ∀ st : TS τ σ μ, initials (saveRes sim P st).1.log = initials st.log := by
    intro st; unfold saveRes; dsimp only
    split
    · rw [hd]; exact initials_snoc _ _ rfl
    · exact initials_snoc _ _ rfl
  have hg : ∀ st : TS τ σ μ, initials (saveGeo sim st).1.log = initials st.log := fun st => initials_snoc _ _ rfl
  unfold saveState
  cases a
  · simp only [Bool.false_eq_true, if_false, Bool.not_true]
    split
    · rfl
    · exact hr st
  · simp only [if_true]
    split
    · exact hg st
    · split
      · exact hg st
      · exact (hr _).trans (hg st)

theorem predict_initials (sim : TSim τ σ μ) (n : Nat) (st : TS τ σ μ) : initials (predict sim n st).1.log = initials st.log := by
  induction n generalizing st with
  | zero => rfl
  | succ n ih =>
    unfold predict; dsimp only
    split
    · exact advance_initials sim st
    · split
      · exact (solve1_initials sim _).trans (advance_initials sim st)
      · exact (ih _).trans ((solve1_initials sim _).trans (advance_initials sim st))

theorem cycles_initials (sim : TSim τ σ μ) (P : Prm) (tran : Int) (n i : Nat) (lr re : Int) (st : TS τ σ μ) :
    initials (cycles sim P tran n i lr re st).1.log = initials st.log := by
  induction n generalizing i lr re st with
  | zero => rfl
  | succ n ih =>
    have hp : initials (predict sim P.nPredict (startCycle sim tran i st)).1.log = initials st.log := by
      rw [predict_initials]; unfold startCycle; split <;> rfl
    unfold cycles; dsimp only
    split
    · rfl
    split
    · exact hp
    split
    · exact hp
    split
    · exact hp
    · rw [ih, ← hp]
      exact initials_snoc _ _ rfl

theorem forward_initials (sim : TSim τ σ μ) (P : Prm) (n j : Nat) (st : TS τ σ μ) : initials (forward sim P n j st).1.log = initials st.log := by
  induction n generalizing j st with
  | zero => rfl
  | succ n ih =>
    have h1 := (solve1_initials sim (advance sim st).1).trans (advance_initials sim st)
    unfold forward; dsimp only
    split
    · exact advance_initials sim st
    split
    · exact h1
    split
    · exact (saveState_initials sim P _ _ _).trans h1
    · exact (ih _ _).trans ((saveState_initials sim P _ _ _).trans h1)

theorem resume_log' (sim : TSim τ σ μ) (P : Prm) (tran lr : Int) (st : TS τ σ μ) : (resume sim P tran lr st).log = st.log := by
  unfold resume; dsimp only
  split
  · split <;> rfl
  · rfl

theorem turn_initials (sim : TSim τ σ μ) (P : Prm) (st : TS τ σ μ) : initials (turn sim P st).1.log = initials st.log := by
  have hc : initials (cycles sim P (sim.step st.tp) P.maxPred.natAbs 0 1 0 (startTurn sim P st)).1.log = initials st.log := cycles_initials sim P _ _ _ _ _ _
  unfold turn; dsimp only
  split
  · exact hc
  split
  · exact hc
  split
  · exact (saveState_initials sim P _ _ _).trans hc
  · rw [forward_initials, resume_log']; exact hc

theorem outer_initials (sim : TSim τ σ μ) (P : Prm) (n : Nat) (st : TS τ σ μ) (c : Int) (r : TS τ σ μ) (h : outer sim P n st = some (c, r)) :
    initials r.log = initials st.log := by
  induction n generalizing st with
  | zero => cases h
  | succ n ih =>
    unfold outer at h; dsimp only at h
    split at h
    · cases h; exact initials_snoc _ _ rfl
    · split at h
      · cases h; exact turn_initials sim P st
      · exact (ih _ h).trans (turn_initials sim P st)

theorem preLoop_initials (sim : TSim τ σ μ) (P : Prm) (n : Nat) (st : TS τ σ μ) (r : TS τ σ μ × Option Int) (h : preLoop sim P n st = some r) :
    initials r.1.log = initials st.log := by
  induction n generalizing st with
  | zero => cases h
  | succ n ih =>
    have h1 := (solve1_initials sim (advance sim st).1).trans (advance_initials sim st)
    unfold preLoop at h; dsimp only at h
    split at h
    · cases h; rfl
    split at h
    · cases h; exact advance_initials sim st
    split at h
    · cases h; exact h1
    split at h
    · cases h; exact (saveState_initials sim P _ _ _).trans h1
    · exact (ih _ h).trans ((saveState_initials sim P _ _ _).trans h1)

/-- **C76** (initial refinement). The initial refinement is done exactly once, before anything else, if it is wanted and the simulation starts at step zero (not after a restart);
if it fails, nothing else is done. -/
theorem C76_initial (sim : TSim τ σ μ) (P : Prm) (tp : τ) (s : σ) (n : Nat) (c : Int) (r : TS τ σ μ) (hr : solveProblem sim P n (initTS tp s) = some (c, r)) :
    r.log.filterMap initialEv = (if sim.step tp = 0 ∧ P.init = true then [(sim.initRef s).2] else []) ∧
    (sim.step tp = 0 → P.init = true → (sim.initRef s).2 = false → r.log = [.initial false] ∧ c = 4) := by
  have hi : initials (initRefine sim P (initTS tp s)).1.log = (if sim.step tp = 0 ∧ P.init = true then [(sim.initRef s).2] else []) := by
    unfold initRefine
    by_cases h : sim.step tp = 0 ∧ P.init = true
    · rw [if_pos h]
      have h' : sim.step (initTS tp s : TS τ σ μ).tp = 0 ∧ P.init = true := h
      rw [if_pos h']; rfl
    · rw [if_neg h]
      have h' : ¬ (sim.step (initTS tp s : TS τ σ μ).tp = 0 ∧ P.init = true) := h
      rw [if_neg h']; rfl
  constructor
  · show initials r.log = _
    rw [← hi]
    unfold solveProblem at hr; dsimp only at hr
    split at hr
    · cases hr; rfl
    split at hr
    · cases hr; exact saveState_initials sim P _ _ _
    split at hr
    · cases hr
    · rename_i hp; cases hr; exact (preLoop_initials sim P n _ _ hp).trans (saveState_initials sim P _ _ _)
    · rename_i hp; exact (outer_initials sim P n _ _ _ hr).trans ((preLoop_initials sim P n _ _ hp).trans (saveState_initials sim P _ _ _))
  · intro h1 h2 h3
    have h' : sim.step (initTS tp s : TS τ σ μ).tp = 0 ∧ P.init = true := ⟨h1, h2⟩
    unfold solveProblem initRefine at hr; dsimp only at hr
    rw [if_pos h'] at hr
    have h3' : (sim.initRef (initTS tp s : TS τ σ μ).s).2 = false := h3
    rw [if_pos (by simp [h3'])] at hr
    cases hr
    refine ⟨?_, rfl⟩
    show [] ++ [Ev.initial (sim.initRef s).2] = [.initial false]
    rw [h3]; rfl

/-- In the demonstration the mesh is refined initially, but not when started at a later step. -/
example : (solveProblem (scripted true) defaultPrm 20 (initTS tsDemo ⟨0, 0, 0, [2, 0, 1]⟩)).map (fun r => r.2.log.filterMap initialEv) = some [true] ∧
    (solveProblem (scripted true) defaultPrm 20 (initTS { tsDemo with step := 1 } ⟨1, 1, 0, []⟩)).map (fun r => r.2.log.filterMap initialEv) = some [] := by
  constructor <;> decide +kernel

end IFEM.Props
