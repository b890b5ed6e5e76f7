import Verif.Lemmas.DriverTS
/-!
# The adaptive driver: return codes and the basis in the restart file
-/
namespace IFEM.Ada
open Spec
variable {τ σ μ ρ ω : Type} (sim : TSim τ σ μ) (P : Prm)

/-- Nothing went wrong. -/
def Clean (log : List (Ev τ σ)) : Prop := ∀ e ∈ log, errorCode e = none

/-- The last thing went wrong, with this code. -/
def Wrong (c : Int) (log : List (Ev τ σ)) : Prop := ∃ l e, log = l ++ [e] ∧ errorCode e = some c ∧ Clean l

/-- The code tells what went wrong. -/
def Tells (r : TS τ σ μ × Option Int) : Prop := (r.2 = none → Clean r.1.log) ∧ ∀ c, r.2 = some c → Wrong c r.1.log

theorem Clean.snoc {log : List (Ev τ σ)} (h : Clean log) {e : Ev τ σ} (he : errorCode e = none) : Clean (log ++ [e]) := by
  intro e' he'
  rcases List.mem_append.1 he' with h1 | h1
  · exact h e' h1
  · rw [List.mem_singleton.1 h1]; exact he

theorem advance_log (st : TS τ σ μ) : (advance sim st).1.log = st.log := by
  unfold advance
  dsimp only
  split <;> rfl

theorem solve1_codes (st : TS τ σ μ) (h : Clean st.log) :
    ((solve1 sim st).2 = true → Clean (solve1 sim st).1.log) ∧ ((solve1 sim st).2 = false → Wrong 3 (solve1 sim st).1.log) := by
  unfold solve1
  dsimp only
  exact ⟨fun hok => h.snoc (by simp [errorCode, hok]), fun hno => ⟨_, _, rfl, by simp [errorCode, hno], h⟩⟩

theorem saveState_codes (newMesh res : Bool) (st : TS τ σ μ) (h : Clean st.log) :
    ((saveState sim P newMesh res st).2 = true → Clean (saveState sim P newMesh res st).1.log) ∧
    ((saveState sim P newMesh res st).2 = false → Wrong 2 (saveState sim P newMesh res st).1.log) := by
  obtain ⟨g, hg⟩ : ∃ g, (if newMesh then saveGeo sim st else (st, true)) = g := ⟨_, rfl⟩
  have hg' : (g.2 = true → Clean g.1.log) ∧ (g.2 = false → Wrong 2 g.1.log) := by
    cases newMesh with
    | true =>
      rw [if_pos rfl] at hg
      subst hg
      unfold saveGeo
      dsimp only
      exact ⟨fun hok => h.snoc (by simp [errorCode, hok]), fun hno => ⟨_, _, rfl, by simp [errorCode, hno], h⟩⟩
    | false =>
      rw [if_neg (by simp)] at hg
      subst hg
      exact ⟨fun _ => h, fun hf => by simp at hf⟩
  unfold saveState
  rw [hg]
  dsimp only
  by_cases c1 : (!g.2) = true
  · rw [if_pos c1]
    exact ⟨fun hf => by simp at hf, fun _ => hg'.2 (by simpa using c1)⟩
  rw [if_neg c1]
  have h1 := hg'.1 (by simpa using c1)
  by_cases c2 : (!res) = true
  · rw [if_pos c2]
    exact ⟨fun _ => h1, fun hf => by simp at hf⟩
  rw [if_neg c2]
  obtain ⟨-, -, b3⟩ := saveRes_frame sim P g.1
  have b4 : (saveRes sim P g.1).2 = sim.save g.1.tp g.1.s := by
    unfold saveRes
    dsimp only
    split
    · rename_i h; rw [h]
    · rename_i h; simpa using h
  rw [b3, b4]
  exact ⟨fun hok => h1.snoc (by simp [errorCode, hok]), fun hno => ⟨_, _, rfl, by simp [errorCode, hno], h1⟩⟩

theorem predict_codes (n : Nat) (st : TS τ σ μ) (h : Clean st.log) : Tells (predict sim n st) := by
  induction n generalizing st with
  | zero => exact ⟨fun _ => h, fun c hc => by cases hc⟩
  | succ n ih =>
    unfold predict
    dsimp only
    have ha : Clean (advance sim st).1.log := by rw [advance_log]; exact h
    split
    · exact ⟨fun _ => ha, fun c hc => by cases hc⟩
    · obtain ⟨s1, s2⟩ := solve1_codes sim _ ha
      split
      · rename_i hs
        exact ⟨fun hf => (by cases hf), fun c hc => by cases Option.some.inj hc; exact s2 (by simpa using hs)⟩
      · rename_i hs
        exact ih _ (s1 (by simpa using hs))

theorem startCycle_log (tran : Int) (i : Nat) (st : TS τ σ μ) : (startCycle sim tran i st).log = st.log := by
  unfold startCycle; split <;> rfl

theorem cycles_codes (tran : Int) (n i : Nat) (lr re : Int) (st : TS τ σ μ) (h : (0 ≤ lr → Clean st.log) ∧ (lr < 0 → Wrong 4 st.log)) :
    let r := cycles sim P tran n i lr re st
    (r.2.1 = none → (0 ≤ r.2.2.1 → Clean r.1.log) ∧ (r.2.2.1 < 0 → Wrong 4 r.1.log)) ∧ ∀ c, r.2.1 = some c → Wrong c r.1.log := by
  induction n generalizing i lr re st with
  | zero => exact ⟨fun _ => h, fun c hc => by cases hc⟩
  | succ n ih =>
    intro r
    by_cases c0 : lr ≤ 0
    · have hr : r = (st, none, lr, re) := by
        show cycles sim P tran (n + 1) i lr re st = _
        unfold cycles
        rw [if_pos c0]
      rw [hr]
      exact ⟨fun _ => h, fun c hc => by cases hc⟩
    obtain ⟨p, hp⟩ : ∃ p, predict sim P.nPredict (startCycle sim tran i st) = p := ⟨_, rfl⟩
    have hpc := predict_codes sim P.nPredict (startCycle sim tran i st) (by rw [startCycle_log]; exact h.1 (by omega))
    rw [hp] at hpc
    by_cases c1 : p.2.isSome = true
    · have hr : r = (p.1, p.2, 0, re) := by
        show cycles sim P tran (n + 1) i lr re st = _
        unfold cycles
        dsimp only
        rw [if_neg c0, hp, if_pos c1]
      rw [hr]
      refine ⟨fun hn => ?_, hpc.2⟩
      dsimp only at hn
      rw [hn] at c1; cases c1
    have hn : p.2 = none := by
      cases hq : p.2 with
      | none => rfl
      | some e => rw [hq] at c1; exact absurd rfl c1
    have hcl := hpc.1 hn
    by_cases c2 : P.maxPred > 0 ∧ sim.stopped p.1.s = true
    · have hr : r = (p.1, none, 0, re) := by
        show cycles sim P tran (n + 1) i lr re st = _
        unfold cycles
        dsimp only
        rw [if_neg c0, hp, if_neg c1, if_pos c2]
      rw [hr]
      exact ⟨fun _ => ⟨fun _ => hcl, fun hf => by simp at hf⟩, fun c hc => by cases hc⟩
    by_cases c3 : sim.finished p.1.tp = true
    · have hr : r = (p.1, none, 0, re) := by
        show cycles sim P tran (n + 1) i lr re st = _
        unfold cycles
        dsimp only
        rw [if_neg c0, hp, if_neg c1, if_neg c2, if_pos c3]
      rw [hr]
      exact ⟨fun _ => ⟨fun _ => hcl, fun hf => by simp at hf⟩, fun c hc => by cases hc⟩
    have hr : r = cycles sim P tran n (i + 1) (adaptMesh sim p.1).2 (re + (adaptMesh sim p.1).2) (adaptMesh sim p.1).1 := by
      show cycles sim P tran (n + 1) i lr re st = _
      conv_lhs => unfold cycles
      dsimp only
      rw [if_neg c0, hp, if_neg c1, if_neg c2, if_neg c3]
    rw [hr]
    apply ih
    unfold adaptMesh
    dsimp only
    exact ⟨fun h0 => hcl.snoc (by simp [errorCode]; omega), fun h0 => ⟨_, _, rfl, by simp [errorCode, h0], hcl⟩⟩

theorem forward_codes (n j : Nat) (st : TS τ σ μ) (h : Clean st.log) : Tells (forward sim P n j st) := by
  induction n generalizing st j with
  | zero => exact ⟨fun _ => h, fun c hc => by cases hc⟩
  | succ n ih =>
    unfold forward
    dsimp only
    have ha : Clean (advance sim st).1.log := by rw [advance_log]; exact h
    split
    · exact ⟨fun _ => ha, fun c hc => by cases hc⟩
    · obtain ⟨s1, s2⟩ := solve1_codes sim _ ha
      split
      · rename_i hs
        exact ⟨fun hf => (by cases hf), fun c hc => by cases Option.some.inj hc; exact s2 (by simpa using hs)⟩
      · rename_i hs
        obtain ⟨v1, v2⟩ := saveState_codes sim P (decide (j < 1)) true _ (s1 (by simpa using hs))
        split
        · rename_i hv
          exact ⟨fun hf => (by cases hf), fun c hc => by cases Option.some.inj hc; exact v2 (by simpa using hv)⟩
        · rename_i hv
          exact ih _ _ (v1 (by simpa using hv))

theorem resume_log (tran lr : Int) (st : TS τ σ μ) : (resume sim P tran lr st).log = st.log := by
  unfold resume
  dsimp only
  split
  · split <;> rfl
  · rfl

theorem turn_codes (st : TS τ σ μ) (h : Clean st.log) : Tells (turn sim P st) := by
  have hc := cycles_codes sim P (sim.step st.tp) P.maxPred.natAbs 0 1 0 (startTurn sim P st) ⟨fun _ => h, fun hf => by omega⟩
  dsimp only at hc
  obtain ⟨c, hcc⟩ : ∃ c, cycles sim P (sim.step st.tp) P.maxPred.natAbs 0 1 0 (startTurn sim P st) = c := ⟨_, rfl⟩
  rw [hcc] at hc
  unfold turn
  dsimp only
  rw [hcc]
  by_cases c1 : c.2.1.isSome = true
  · rw [if_pos c1]
    refine ⟨fun hn => ?_, hc.2⟩
    dsimp only at hn
    rw [hn] at c1; cases c1
  rw [if_neg c1]
  have hn : c.2.1 = none := by
    cases hq : c.2.1 with
    | none => rfl
    | some e => rw [hq] at c1; exact absurd rfl c1
  obtain ⟨h1, h2⟩ := hc.1 hn
  by_cases c2 : c.2.2.1 < 0
  · rw [if_pos c2]
    exact ⟨fun hf => by simp at hf, fun c hc => by cases Option.some.inj hc; exact h2 c2⟩
  rw [if_neg c2]
  have h3 := h1 (by omega)
  by_cases c3 : c.2.2.1 = 0 ∧ P.maxPred > 0
  · rw [if_pos c3]
    obtain ⟨v1, v2⟩ := saveState_codes sim P (decide (c.2.2.2 > 0)) true c.1 h3
    by_cases hv : (saveState sim P (decide (c.2.2.2 > 0)) true c.1).2 = true
    · refine ⟨fun _ => v1 hv, fun c' hc' => ?_⟩
      dsimp only at hc'
      rw [if_pos hv] at hc'; cases hc'
    · refine ⟨fun hc' => ?_, fun c' hc' => ?_⟩
      · dsimp only at hc'
        rw [if_neg hv] at hc'; cases hc'
      · dsimp only at hc'
        rw [if_neg hv] at hc'
        cases Option.some.inj hc'
        exact v2 (by simpa using hv)
  rw [if_neg c3]
  exact forward_codes sim P _ _ _ (by rw [resume_log]; exact h3)

theorem outer_codes (n : Nat) (st : TS τ σ μ) (h : Clean st.log) (c : Int) (st' : TS τ σ μ) (hr : outer sim P n st = some (c, st')) :
    (c = 0 ∧ Clean st'.log ∧ sim.finished st'.tp = true) ∨ Wrong c st'.log := by
  induction n generalizing st with
  | zero => cases hr
  | succ n ih =>
    unfold outer at hr
    dsimp only at hr
    by_cases c0 : sim.finished st.tp = true
    · rw [if_pos c0] at hr
      cases hd : sim.dumpMesh st.s with
      | true =>
        rw [hd] at hr
        cases Option.some.inj hr
        exact Or.inl ⟨rfl, h.snoc rfl, c0⟩
      | false =>
        rw [hd] at hr
        cases Option.some.inj hr
        exact Or.inr ⟨_, _, rfl, rfl, h⟩
    rw [if_neg c0] at hr
    have ht := turn_codes sim P st h
    cases hq : (turn sim P st).2 with
    | some d =>
      rw [hq] at hr
      dsimp only at hr
      cases Option.some.inj hr
      exact Or.inr (ht.2 _ hq)
    | none =>
      rw [hq] at hr
      exact ih _ (ht.1 hq) hr

theorem preLoop_codes (n : Nat) (st : TS τ σ μ) (h : Clean st.log) (r : TS τ σ μ × Option Int) (hr : preLoop sim P n st = some r) : Tells r := by
  induction n generalizing st with
  | zero => cases hr
  | succ n ih =>
    unfold preLoop at hr
    dsimp only at hr
    have ha : Clean (advance sim st).1.log := by rw [advance_log]; exact h
    split at hr
    · cases Option.some.inj hr
      exact ⟨fun _ => h, fun c hc => by cases hc⟩
    split at hr
    · cases Option.some.inj hr
      exact ⟨fun _ => ha, fun c hc => by cases hc⟩
    obtain ⟨s1, s2⟩ := solve1_codes sim _ ha
    split at hr
    · rename_i hs
      cases Option.some.inj hr
      exact ⟨fun hf => (by cases hf), fun c hc => by cases Option.some.inj hc; exact s2 (by simpa using hs)⟩
    rename_i hs
    obtain ⟨v1, v2⟩ := saveState_codes sim P false true _ (s1 (by simpa using hs))
    split at hr
    · rename_i hv
      cases Option.some.inj hr
      exact ⟨fun hf => (by cases hf), fun c hc => by cases Option.some.inj hc; exact v2 (by simpa using hv)⟩
    rename_i hv
    exact ih _ (v1 (by simpa using hv)) hr

theorem run_codes (n : Nat) (tp : τ) (s : σ) (c : Int) (st' : TS τ σ μ) (hr : solveProblem sim P n (initTS tp s) = some (c, st')) :
    (c = 0 ∧ Clean st'.log ∧ sim.finished st'.tp = true) ∨ Wrong c st'.log := by
  have h0 : Clean (initTS tp s : TS τ σ μ).log := fun e he => by cases he
  have hi : ((initRefine sim P (initTS tp s : TS τ σ μ)).2 = true → Clean (initRefine sim P (initTS tp s : TS τ σ μ)).1.log) ∧
      ((initRefine sim P (initTS tp s : TS τ σ μ)).2 = false → Wrong 4 (initRefine sim P (initTS tp s : TS τ σ μ)).1.log) := by
    unfold initRefine
    split
    · dsimp only
      exact ⟨fun hok => h0.snoc (by simp [errorCode, hok]), fun hno => ⟨_, _, rfl, by simp [errorCode, hno], h0⟩⟩
    · exact ⟨fun _ => h0, fun hf => by simp at hf⟩
  unfold solveProblem at hr
  dsimp only at hr
  by_cases c0 : (!(initRefine sim P (initTS tp s : TS τ σ μ)).2) = true
  · rw [if_pos c0] at hr
    cases Option.some.inj hr
    exact Or.inr (hi.2 (by simpa using c0))
  rw [if_neg c0] at hr
  obtain ⟨v1, v2⟩ := saveState_codes sim P true P.saveInit _ (hi.1 (by simpa using c0))
  obtain ⟨v, hv⟩ : ∃ v, saveState sim P true P.saveInit (initRefine sim P (initTS tp s : TS τ σ μ)).1 = v := ⟨_, rfl⟩
  rw [hv] at hr v1 v2
  by_cases c1 : (!v.2) = true
  · rw [if_pos c1] at hr
    cases Option.some.inj hr
    exact Or.inr (v2 (by simpa using c1))
  rw [if_neg c1] at hr
  cases hp : preLoop sim P n v.1 with
  | none => rw [hp] at hr; cases hr
  | some r =>
    have ht := preLoop_codes sim P n v.1 (v1 (by simpa using c1)) r hp
    rw [hp] at hr
    obtain ⟨st1, o⟩ := r
    cases o with
    | some d =>
      dsimp only at hr
      cases Option.some.inj hr
      exact Or.inr (ht.2 _ rfl)
    | none => exact outer_codes sim P n st1 (ht.1 rfl) c st' hr

end IFEM.Ada
