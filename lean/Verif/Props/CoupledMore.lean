import Verif.Props.CoupledIter
import Mathlib.Algebra.Order.Ring.Rat
import Mathlib.Tactic.NormNum
import Mathlib.Tactic.FinCases
/-!
# C77: independence of the history, defined results, examples
-/
namespace IFEM.Props
open Cpl IFEM.Spec
variable {K σ : Type} {n : Nat} [Field K] [LinearOrder K]

/-- The state without relaxation data. -/
def visible (st : St K σ n) : σ × Nat × Bool × List (Ev K σ n) := (st.s, st.iter, st.first, st.log)

theorem visible_eq {st st' : St K σ n} (h : visible st = visible st') : st' = { st with rlx := st'.rlx } := by
  obtain ⟨s, q, i, f, l⟩ := st
  obtain ⟨s', q', i', f', l'⟩ := st'
  cases h
  rfl

theorem sweep_rlx (sim : Pair K σ n) (f : Bool) (k : Nat) (st : St K σ n) (q : Rlx K n) :
    sweep sim f k { st with rlx := q } = ({ (sweep sim f k st).1 with rlx := q }, (sweep sim f k st).2) := by
  have p : ∀ w (st : St K σ n), part sim w k { st with rlx := q } = ({ (part sim w k st).1 with rlx := q }, (part sim w k st).2) := fun _ _ => rfl
  unfold sweep
  dsimp only
  rw [p]
  dsimp only
  rw [p]
  dsimp only
  by_cases h1 : bad (part sim f k st).2 = true
  · rw [if_pos h1, if_pos h1]
  rw [if_neg h1, if_neg h1]
  by_cases h2 : bad (part sim (!f) k (part sim f k st).1).2 = true
  · rw [if_pos h2, if_pos h2]
  rw [if_neg h2, if_neg h2]
  generalize (if f = true then sim.check k (part sim (!f) k (part sim f k st).1).1.s (part sim f k st).2 (part sim (!f) k (part sim f k st).1).2
    else sim.check k (part sim (!f) k (part sim f k st).1).1.s (part sim (!f) k (part sim f k st).1).2 (part sim f k st).2) = c
  cases bad c <;> rfl

theorem sweep_keeps (sim : Pair K σ n) (f : Bool) (k : Nat) (st : St K σ n) : (sweep sim f k st).1.rlx = st.rlx := by
  have h := sweep_rlx sim f k st st.rlx
  have e : ({ st with rlx := st.rlx } : St K σ n) = st := rfl
  rw [e] at h
  exact congrArg (fun r => r.1.rlx) h

theorem loop_history (sim : Pair K σ n) (P : Prm K) (f : Bool) (m : Nat) (conv : ConvStatus) (st : St K σ n) (q : Rlx K n)
    (h : P.omega0 = 0 ∨ st.iter = 0 ∨ (q.omega = st.rlx.omega ∧ q.prevSol = st.rlx.prevSol ∧ (P.aitken = true → q.prevRes = st.rlx.prevRes))) :
    (loop sim P f m conv { st with rlx := q }).map (fun r => (visible r.1, r.2)) = (loop sim P f m conv st).map (fun r => (visible r.1, r.2)) := by
  induction m generalizing conv st q with
  | zero => rfl
  | succ m ih =>
    unfold loop
    by_cases hc : conv = .converged
    · rw [if_pos hc, if_pos hc]; rfl
    rw [if_neg hc, if_neg hc]
    dsimp only
    rw [sweep_rlx]
    have hit := sweep_keeps sim f st.iter st
    generalize sweep sim f st.iter st = r at hit
    obtain ⟨r1, r2⟩ := r
    dsimp only at hit ⊢
    cases r2 with
    | none => rfl
    | some c =>
      dsimp only
      unfold relax
      by_cases h0 : P.omega0 = 0
      · rw [if_pos h0, if_pos h0]
        exact ih c { r1 with iter := st.iter + 1 } q (Or.inl h0)
      rw [if_neg h0, if_neg h0]
      by_cases hk : 0 < st.iter
      · rw [if_pos hk, if_pos hk]
        rcases h with h | h | ⟨h1, h2, h3⟩
        · exact absurd h h0
        · omega
        dsimp only
        by_cases ha : P.aitken = true
        · simp only [ha, if_true]
          rw [h1, h2, h3 ha, hit]
        · have ha' : P.aitken = false := by simpa using ha
          simp only [ha', Bool.false_eq_true, if_false]
          rw [h1, h2, hit]
          exact ih c { r1 with s := _, rlx := _, iter := st.iter + 1, log := _ } _ (Or.inr (Or.inr ⟨rfl, rfl, fun h => absurd (ha'.symm.trans h) (by simp)⟩))
      · rw [if_neg hk, if_neg hk]
        dsimp only
        by_cases ha : P.aitken = true
        · simp only [ha, if_true]
        · have ha' : P.aitken = false := by simpa using ha
          simp only [ha', Bool.false_eq_true, if_false]
          exact ih c { r1 with rlx := ⟨P.omega0, sim.relaxVec r1.s, r1.rlx.prevRes⟩, iter := st.iter + 1 } _ (Or.inr (Or.inr ⟨rfl, rfl, fun h => absurd (ha'.symm.trans h) (by simp)⟩))

/-- **C77** (history). What a step does, and its outcome, does not depend on the relaxation data left behind by earlier steps. -/
theorem C77_history (sim : Pair K σ n) (P : Prm K) (f : Bool) (st : St K σ n) (q : Rlx K n) :
    (solveStep sim P f { st with rlx := q }).map (fun r => (visible r.1, r.2)) = (solveStep sim P f st).map (fun r => (visible r.1, r.2)) := by
  have h := loop_history sim P f (getMaxit P + 1).toNat .ok { st with iter := 0 } q (Or.inr (Or.inl rfl))
  unfold solveStep
  dsimp only at h ⊢
  generalize loop sim P f (getMaxit P + 1).toNat .ok { st with rlx := q, iter := 0 } = a at h
  generalize loop sim P f (getMaxit P + 1).toNat .ok { st with iter := 0 } = b at h
  cases a with
  | none => cases b with
    | none => rfl
    | some b => cases h
  | some a => cases b with
    | none => cases h
    | some b =>
      obtain ⟨a1, a2⟩ := a
      obtain ⟨b1, b2⟩ := b
      have h := Option.some.inj h
      obtain ⟨e1, e2⟩ := Prod.mk.inj h
      dsimp only at e1 e2
      subst e2
      rw [visible_eq e1]
      cases a2
      · rfl
      · rfl

/-- **C77** (defined). Without Aitken's factors, a step always has an outcome. -/
theorem C77_defined (sim : Pair K σ n) (P : Prm K) (h : P.aitken = false ∨ P.omega0 = 0) (f : Bool) (st : St K σ n) : ∃ r, solveStep sim P f st = some r := by
  have key : ∀ m conv (st : St K σ n), ∃ r, loop sim P f m conv st = some r := by
    intro m
    induction m with
    | zero => intro conv st; exact ⟨_, rfl⟩
    | succ m ih =>
      intro conv st
      unfold loop
      split
      · exact ⟨_, rfl⟩
      dsimp only
      split
      · exact ⟨_, rfl⟩
      have hr : ∀ st1 : St K σ n, ∃ st2, relax sim P st.iter st1 = some st2 := by
        intro st1
        unfold relax
        rcases h with h | h
        · split
          · exact ⟨_, rfl⟩
          · split
            · rw [h]; exact ⟨_, rfl⟩
            · exact ⟨_, rfl⟩
        · rw [if_pos h]; exact ⟨_, rfl⟩
      obtain ⟨st2, h2⟩ := hr (sweep sim f st.iter st).1
      rw [h2]
      exact ih _ _
  obtain ⟨⟨st1, ok⟩, hr⟩ := key (getMaxit P + 1).toNat .ok { st with iter := 0 }
  unfold solveStep
  rw [hr]
  cases ok <;> exact ⟨_, rfl⟩

/-! ### Examples: the coupling `x = a x + b`, where the first simulator computes `a x` and the second one adds `b` -/

/-- State of the example: value, value before the iteration, number of post-processings. -/
structure DemoPair where
  x : Rat
  old : Rat
  posts : Nat
  deriving DecidableEq

/-- The simulators: the second one has converged when the value has changed by at most `tol`; the first one fails in iteration `failAt`, the second one in iteration `failAt2`. -/
def affinePair (a b tol : Rat) (failAt failAt2 : Option Nat) : Pair Rat DemoPair 1 where
  solve1 k s := ({ s with x := a * s.x, old := s.x }, if failAt = some k then .diverged else .converged)
  solve2 k s := ({ s with x := s.x + b }, if failAt2 = some k then .failure else if |s.x + b - s.old| ≤ tol then .converged else .ok)
  check _ _ := checkConvergence
  residual s := fun _ => s.x - s.old
  relaxVec s := fun _ => s.x
  setRelaxed v s := { s with x := v 0, old := s.old + (v 0 - s.x) }
  post1 s := { s with posts := s.posts + 1 }
  post2 s := { s with posts := s.posts + 10 }

/-- The example is a fixed point iteration. -/
theorem affine_fixed (a b tol : Rat) (p q : Option Nat) : FixedPoint (affinePair a b tol p q) true (fun s => fun _ => s.x) (fun x => a • x + (fun _ => b)) := by
  refine ⟨fun k s => ⟨?_, ?_, ?_⟩, fun x s => ⟨?_, ?_⟩, fun s => ⟨rfl, rfl⟩⟩
  · funext i; simp [affinePair]
  · funext i; simp [affinePair]
  · funext i; simp [affinePair]
  · funext i; fin_cases i; rfl
  · funext i; simp only [affinePair]; ring

/-- Outcome of a step from `x0`: number of iterations, value, post-processings, result. -/
def demoPairRun (a b tol : Rat) (p q : Option Nat) (P : Prm Rat) (x0 : Rat) : Option (Nat × Rat × Nat × Bool) :=
  (solveStep (affinePair a b tol p q) P true { s := ⟨x0, 0, 0⟩, rlx := ⟨7, fun _ => 7, fun _ => 7⟩ }).map fun r => (r.1.iter, r.1.s.x, r.1.s.posts, r.2)

/-- The relaxation factors and values set. -/
def demoPairRelaxed (a b tol : Rat) (P : Prm Rat) (x0 : Rat) : Option (List (Nat × Rat × Rat)) :=
  (solveStep (affinePair a b tol none none) P true { s := ⟨x0, 0, 0⟩, rlx := ⟨7, fun _ => 7, fun _ => 7⟩ }).map fun r =>
    r.1.log.filterMap fun e => match e with
      | .relaxed k w _ x => some (k, w, x 0)
      | _ => none

/-- Converged without relaxation, with failures in the first and in the second simulator, and a relaxed iteration for a problem in which plain iterations diverge. -/
example : demoPairRun (1/2) 1 (1/4) none none ⟨10, false, 0, false⟩ 0 = some (3, 7/4, 11, true) ∧
    demoPairRun (1/2) 1 (1/4) (some 2) none ⟨10, false, 0, false⟩ 0 = some (2, 3/4, 0, false) ∧
    demoPairRun (1/2) 1 (1/4) none (some 1) ⟨10, false, 0, false⟩ 0 = some (1, 3/2, 0, false) ∧
    demoPairRun (-3) 4 (1/4) none none ⟨4, false, 1/2, false⟩ 0 = some (5, 4, 11, true) ∧
    demoPairRun (-3) 4 (1/4) none none ⟨10, false, 1/4, false⟩ 0 = some (3, 1, 11, true) := by
  refine ⟨?_, ?_, ?_, ?_, ?_⟩ <;> decide +kernel

/-- Aitken relaxation of a divergent problem: the third iteration is exact. -/
example : demoPairRelaxed (-3) 4 (1/4) ⟨3, false, 1/2, true⟩ 0 = some [(1, 1/8, 5/2), (2, 1/4, 1), (3, 1/4, 1)] := by decide +kernel

/-- The hypotheses of the Aitken theorem hold in this example. -/
example (st' : St Rat DemoPair 1) (h : solveStep (affinePair (-3) 4 (1/4) none none) ⟨3, false, 1/2, true⟩ true { s := ⟨0, 0, 0⟩, rlx := ⟨7, fun _ => 7, fun _ => 7⟩ } = some (st', true))
    (w : Rat) (s : DemoPair) (x : Fin 1 → Rat) (hm : Ev.relaxed 2 w s x ∈ st'.log) : x = fun _ => 1 :=
  ((C77_aitken _ ⟨3, false, 1/2, true⟩ rfl (by norm_num) true _ (-3) (fun _ => 4) (fun _ => 1) (by funext i; norm_num) (by norm_num) (by norm_num)
    (by norm_num [abs_of_pos]) (by norm_num [abs_of_pos]) (affine_fixed (-3) 4 (1/4) none none) _ st' true rfl (fun h => by have := congrFun h 0; norm_num at this) h 2 w s x hm).2 rfl).2

/-- **C77** (known defect). A step that has not converged after all iterations succeeds all the same; with a maximum of `max` there are `max + 1` iterations; with a negative
maximum nothing is solved, but the step succeeds. -/
theorem C77_counterexample_unconverged :
    demoPairRun 2 1 (1/4) none none ⟨3, false, 0, false⟩ 0 = some (4, 15, 11, true) ∧
    demoPairRun 2 1 (1/4) none none ⟨-1, false, 0, false⟩ 0 = some (0, 0, 11, true) := by constructor <;> decide +kernel

/-- **C77** (known defect). If the residual does not change from one iteration to the next (here: it is zero, but the other simulator has not converged), Aitken's factor is
zero divided by zero. -/
theorem C77_counterexample_aitken : demoPairRun (1/2) 0 (-1) none none ⟨3, false, 1, true⟩ 0 = none := by decide +kernel

/-- **C77** (known defect). The solution is relaxed also after the iterations have converged: the final value is not the converged one (here the second
iteration has the value 3/2, which satisfies the tolerance, and the value after the step is 5/4). -/
theorem C77_counterexample_relaxed : demoPairRun (1/2) 1 (1/2) none none ⟨5, false, 0, false⟩ 0 = some (2, 3/2, 11, true) ∧
    demoPairRun (1/2) 1 (1/2) none none ⟨5, false, 1/2, false⟩ 0 = some (2, 5/4, 11, true) := by constructor <;> decide +kernel

/-- **C77** (limit). The number of iterations of a step is at most one more than the maximum that was given; with the staggering switched off, a successful step is a single iteration. -/
theorem C77_limit [IsStrictOrderedRing K] (sim : Pair K σ n) (P : Prm K) (f : Bool) (st st' : St K σ n) (h0 : st.log = []) (h : solveStep sim P f st = some (st', true)) :
    (P.noStg = false → (st'.iter : Int) ≤ max 0 (P.maxIter + 1)) ∧
    (P.noStg = true → st'.iter = 1 ∧ st'.log.filterMap solvedKey = [(f, 0), (!f, 0)]) := by
  obtain ⟨m, l, s1, s2, -, -, hm, -, hk, -, -, -, hle, hend, hconv⟩ := C77_success sim P f st st' h0 h
  constructor
  · intro hn
    rw [hm]
    simpa [getMaxit, hn] using hle
  · intro hn
    simp only [getMaxit, hn, if_true] at hle hend
    have h1 : m = 1 := by
      rcases hend with ⟨s, hs⟩ | hend
      · have := hconv _ _ hs
        omega
      · omega
    subst h1
    exact ⟨hm, by rw [hk]; rfl⟩

end IFEM.Props
