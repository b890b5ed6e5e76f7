import Verif.Model.Coupled
/-!
# What a staggered step must do

Everything is said about the log of what happened: which simulator solved which iteration in which state with which result, what the convergence checks found, what was
relaxed, and the final post-processing.
-/
namespace IFEM.Spec
open Cpl
variable {K σ : Type} {n : Nat}

/-- Simulator and iteration number of the solutions. -/
def solvedKey : Ev K σ n → Option (Bool × Nat)
  | .solved w k _ _ => some (w, k)
  | _ => none

/-- Iteration number of the convergence checks. -/
def checkedKey : Ev K σ n → Option Nat
  | .checked k _ _ => some k
  | _ => none

/-- Iteration number of the relaxations. -/
def relaxedKey : Ev K σ n → Option Nat
  | .relaxed k _ _ _ => some k
  | _ => none

/-- Simulator of the post-processings. -/
def postKey : Ev K σ n → Option Bool
  | .post w _ => some w
  | _ => none

/-- A solution or check that did not go well: failure or divergence. -/
def badEv : Ev K σ n → Prop
  | .solved _ _ _ c => c = .failure ∨ c = .diverged
  | .checked _ _ c => c = .failure ∨ c = .diverged
  | _ => False

/-- The state before something happened. -/
def before : Ev K σ n → σ
  | .solved _ _ s _ => s
  | .checked _ s _ => s
  | .relaxed _ _ s _ => s
  | .post _ s => s

/-- The state after something happened. -/
def afterEv (sim : Pair K σ n) : Ev K σ n → σ
  | .solved true k s _ => (sim.solve1 k s).1
  | .solved false k s _ => (sim.solve2 k s).1
  | .checked _ s _ => s
  | .relaxed _ _ s x => sim.setRelaxed x s
  | .post true s => sim.post1 s
  | .post false s => sim.post2 s

/-- The log leads from one state to another, without gaps. -/
def Leads (sim : Pair K σ n) : σ → List (Ev K σ n) → σ → Prop
  | s, [], s' => s = s'
  | s, e :: l, s' => before e = s ∧ Leads sim (afterEv sim e) l s'

section
variable [Field K] [LinearOrder K]

/-- Aitken's factor `w` for the residual `r`, after the factor `wp` and residual `rp`: the one for which `w / wp` minimizes the extrapolated residual
`rp + w / wp * (r - rp)`; too small ones are replaced by `w0`. -/
def AitkenRule (w0 wp : K) (rp r : Fin n → K) (w : K) : Prop :=
  dotProduct (r - rp) (r - rp) ≠ 0 ∧
  ∃ q : K, dotProduct (rp + q • (r - rp)) (r - rp) = 0 ∧ ((|wp * q| < 1 / 1000000 ∧ w = w0) ∨ (1 / 1000000 ≤ |wp * q| ∧ w = wp * q))

/-- Relaxation factor, solution vector and residual after iteration `j`, according to the log; iteration zero is not relaxed. -/
def Current (sim : Pair K σ n) (P : Prm K) (log : List (Ev K σ n)) (j : Nat) (w : K) (x r : Fin n → K) : Prop :=
  (j = 0 ∧ ∃ s c, Ev.checked 0 s c ∈ log ∧ w = P.omega0 ∧ x = sim.relaxVec s ∧ r = sim.residual s) ∨
  (0 < j ∧ ∃ s, Ev.relaxed j w s x ∈ log ∧ r = sim.residual (sim.setRelaxed x s))

/-- What the log says is true: the results are those of the simulators; the checks are those of the results of both simulators; the relaxed vector
is a combination of the vector of the iteration before and the new one. -/
def Truth (sim : Pair K σ n) (P : Prm K) (log : List (Ev K σ n)) : Ev K σ n → Prop
  | .solved true k s c => c = (sim.solve1 k s).2
  | .solved false k s c => c = (sim.solve2 k s).2
  | .checked k s c => ∃ s1 c1 s2 c2, Ev.solved true k s1 c1 ∈ log ∧ Ev.solved false k s2 c2 ∈ log ∧ c = sim.check k s c1 c2
  | .relaxed k w s x => 0 < k ∧ (∃ c, Ev.checked k s c ∈ log) ∧ ∃ wp xp rp, Current sim P log (k-1) wp xp rp ∧
      x = (1 - w) • xp + w • sim.relaxVec s ∧ (if P.aitken then AitkenRule P.omega0 wp rp (sim.residual s) w else w = P.omega0)
  | .post _ _ => True

end
end IFEM.Spec
