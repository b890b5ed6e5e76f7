import Verif.Props.RungeKutta
import Verif.Props.TimeStep
import Mathlib.Analysis.SpecialFunctions.ExpDeriv
import Mathlib.Analysis.Analytic.Linear
import Mathlib.Analysis.Calculus.Deriv.Prod
/-!
# C58: error control of the embedded Runge-Kutta methods
-/
namespace IFEM.Props
open IFEM.Spec

section
variable {K E L : Type} [Field K] [LinearOrder K] [AddCommGroup E] [Module K E]

theorem Cuts.cons {s s1 s' : TimeStep K} {n : Nat} (h : s.cutback = (s1, true)) (hc : Cuts s1 n s') : Cuts s (n + 1) s' := by
  induction hc with
  | zero => exact .succ 0 s s1 .zero h
  | succ n a b _ hb ih => exact .succ (n + 1) a b ih hb

theorem cutback_step (s : TimeStep K) : s.cutback.1.step = s.step := by
  unfold TimeStep.cutback
  split
  · rfl
  · dsimp only
    split <;> rfl

variable (sim : RKSim K E L) (B F : K → E → E) (T : Tableau K) (bs : List K) (norm : E → K) (linear : Bool) (errTol : K) (prev : E)

theorem estimate_computed (tp : TimeStep K) (M : Option L) (h : Integrates sim B F linear tp.step M) :
    ∃ M' sol ks err, solveRK sim T linear tp M prev = some (M', sol, ks) ∧ rkeEstimate sim norm bs tp prev sol ks = some err ∧
      Computed B F T bs norm tp prev sol ks err ∧ (T.b ≠ [] → Integrates sim B F linear tp.step M') := by
  obtain ⟨M', ks, h1, h2, h3⟩ := C58_step sim B F T linear tp M prev h
  refine ⟨M', _, ks, _, h1, ?_, ⟨h2, rfl, rfl⟩, fun hb => ?_⟩
  · unfold rkeEstimate
    rw [h.bc, addStages_eq, h2.1]
    rfl
  · cases hl : linear with
    | false => exact ⟨h.bc, h.rate, fun hh => (by cases hh)⟩
    | true => subst hl; exact h3 rfl hb _

/-- What the loop returns. -/
theorem rkeLoop_some (hb : T.b ≠ []) (h1 : errTol < 1) : ∀ (fuel : Nat) (tp : TimeStep K) (M : Option L) (sol : E) (ks : List E) (est err : K)
    (q : TimeStep K × Option L × E × K), Integrates sim B F linear tp.step M → rkeEstimate sim norm bs tp prev sol ks = some err →
    Computed B F T bs norm tp prev sol ks err → (errTol < est ∨ est = err) →
    rkeLoop sim norm T bs linear errTol prev fuel tp M sol ks est = some q →
    ∃ n ks', Cuts tp n q.1 ∧ Computed B F T bs norm q.1 prev q.2.2.1 ks' q.2.2.2 ∧ q.2.2.2 ≤ errTol ∧ Integrates sim B F linear q.1.step q.2.1 := by
  intro fuel
  induction fuel with
  | zero => intro tp M sol ks est err q _ _ _ _ h; cases h
  | succ fuel ih =>
    intro tp M sol ks est err q hI he hc hest h
    unfold rkeLoop at h
    split at h
    · rw [he] at h
      simp only [Option.bind_some] at h
      split at h
      · split at h
        · rename_i hcut
          obtain ⟨M2, sol2, ks2, err2, s1, s2, s3, s4⟩ := estimate_computed sim B F T bs norm linear prev tp.cutback.1 M (by rw [cutback_step]; exact hI)
          rw [s1] at h
          simp only [Option.bind_some] at h
          rename_i hgt
          obtain ⟨n, ks', r1, r2⟩ := ih _ _ _ _ _ _ _ (s4 hb) s2 s3 (Or.inl hgt) h
          exact ⟨n + 1, ks', Cuts.cons (by rw [← hcut]) r1, r2⟩
        · cases h
      · exact ih _ _ _ _ _ _ _ hI he hc (Or.inr rfl) h
    · rename_i hle
      cases h
      rcases hest with hest | hest
      · exact absurd hest hle
      · subst hest
        exact ⟨0, ks, .zero, hc, le_of_not_gt hle, hI⟩

/-- **C58** (error control). If the tolerance is less than one, a step of an embedded method that succeeds has an estimated error of at most the
tolerance. The new solution is the Runge-Kutta step from the previous solution to the new time, the time step having been cut back some number of
times; the size of the next step is the size of this one times `(tolerance/estimate)^(1/(order+1))`. -/
theorem C58_error_control (root : K → Nat → K) (hb : T.b ≠ []) (h1 : errTol < 1) (fuel : Nat) (tp tp' : TimeStep K) (M M' : Option L) (sol : E)
    (hI : Integrates sim B F linear tp.step M)
    (h : rkeSolveStep sim norm root T bs linear errTol fuel tp M prev = some (tp', M', sol)) :
    ∃ n tpa ks err, Cuts tp n tpa ∧ Computed B F T bs norm tpa prev sol ks err ∧ err ≤ errTol ∧
      tp' = (if 0 < err then { tpa with dt := tpa.dt * root (errTol / err) (T.order + 1) } else tpa) ∧
      Integrates sim B F linear tpa.step M' := by
  unfold rkeSolveStep at h
  obtain ⟨M2, sol2, ks2, err2, s1, s2, s3, s4⟩ := estimate_computed sim B F T bs norm linear prev tp M hI
  rw [s1] at h
  simp only [Option.bind_some, Option.map_eq_some_iff] at h
  obtain ⟨q, hq, he⟩ := h
  obtain ⟨n, ks', r1, r2, r3, r4⟩ := rkeLoop_some sim B F T bs norm linear errTol prev hb h1 fuel tp M2 sol2 ks2 1 err2 q (s4 hb) s2 s3 (Or.inl h1) hq
  simp only [Prod.mk.injEq] at he
  obtain ⟨e1, e2, e3⟩ := he
  subst e2 e3
  exact ⟨n, q.1, ks', q.2.2.2, r1, r2, r3, e1.symm, r4⟩

/-- More turns of the loop do not change the result. -/
theorem rkeLoop_mono : ∀ (fuel : Nat) (tp : TimeStep K) (M : Option L) (sol : E) (ks : List E) (est : K) (q : TimeStep K × Option L × E × K),
    rkeLoop sim norm T bs linear errTol prev fuel tp M sol ks est = some q →
    rkeLoop sim norm T bs linear errTol prev (fuel + 1) tp M sol ks est = some q := by
  intro fuel
  induction fuel with
  | zero => intro tp M sol ks est q h; cases h
  | succ fuel ih =>
    intro tp M sol ks est q h
    unfold rkeLoop at h ⊢
    split
    · rename_i hgt
      rw [if_pos hgt] at h
      cases he : rkeEstimate sim norm bs tp prev sol ks with
      | none => rw [he] at h; cases h
      | some e =>
        rw [he] at h
        simp only [Option.bind_some] at h ⊢
        split
        · rename_i h2
          rw [if_pos h2] at h
          split
          · rename_i h3
            rw [if_pos h3] at h
            cases hs : solveRK sim T linear tp.cutback.1 M prev with
            | none => rw [hs] at h; cases h
            | some r =>
              rw [hs] at h
              simp only [Option.bind_some] at h ⊢
              exact ih _ _ _ _ _ _ h
          · rename_i h3; rw [if_neg h3] at h; cases h
        · rename_i h2; rw [if_neg h2] at h; exact ih _ _ _ _ _ _ h
    · rename_i hgt
      rw [if_neg hgt] at h
      exact h

/-- The loop ends after finitely many turns. -/
theorem rkeLoop_ends (hb : T.b ≠ []) (tp0 : TimeStep K) (N : Nat) (hN : ∀ n s', Cuts tp0 n s' → n ≤ N) : ∀ (fuel k : Nat) (tp : TimeStep K) (M : Option L)
    (sol : E) (ks : List E) (est err : K), Cuts tp0 k tp → Integrates sim B F linear tp.step M → rkeEstimate sim norm bs tp prev sol ks = some err →
    Computed B F T bs norm tp prev sol ks err → N + 2 ≤ fuel + k →
    (∃ q, rkeLoop sim norm T bs linear errTol prev fuel tp M sol ks est = some q) ∨
    ((∀ fuel', rkeLoop sim norm T bs linear errTol prev fuel' tp M sol ks est = none) ∧ ∃ n tpa sol' ks' err', Cuts tp0 n tpa ∧ tpa.cutback.2 = false ∧
      Computed B F T bs norm tpa prev sol' ks' err' ∧ errTol < err') := by
  intro fuel
  induction fuel with
  | zero =>
    intro k tp M sol ks est err hc _ _ _ hf
    have := hN k tp hc
    omega
  | succ fuel ih =>
    intro k tp M sol ks est err hc hI he hcomp hf
    have hk := hN k tp hc
    by_cases h1 : est > errTol
    · by_cases h2 : err > errTol
      · by_cases h3 : tp.cutback.2 = true
        · obtain ⟨M2, sol2, ks2, err2, s1, s2, s3, s4⟩ := estimate_computed sim B F T bs norm linear prev tp.cutback.1 M (by rw [cutback_step]; exact hI)
          have hc' : Cuts tp0 (k + 1) tp.cutback.1 := .succ k tp _ hc (by rw [← h3])
          have e : ∀ f, rkeLoop sim norm T bs linear errTol prev (f + 1) tp M sol ks est = rkeLoop sim norm T bs linear errTol prev f tp.cutback.1 M2 sol2 ks2 err := by
            intro f
            conv_lhs => unfold rkeLoop
            rw [if_pos h1, he]
            simp only [Option.bind_some]
            rw [if_pos h2, if_pos h3, s1]
            rfl
          rcases ih (k + 1) _ M2 sol2 ks2 err err2 hc' (s4 hb) s2 s3 (by omega) with hr | ⟨hr1, hr2⟩
          · exact Or.inl (by rw [e]; exact hr)
          · refine Or.inr ⟨fun f => ?_, hr2⟩
            cases f with
            | zero => rfl
            | succ f => rw [e]; exact hr1 f
        · refine Or.inr ⟨fun f => ?_, k, tp, sol, ks, err, hc, by simpa using h3, hcomp, h2⟩
          cases f with
          | zero => rfl
          | succ f =>
            unfold rkeLoop
            rw [if_pos h1, he]
            simp only [Option.bind_some]
            rw [if_pos h2, if_neg h3]
      · refine Or.inl ⟨(tp, M, sol, err), ?_⟩
        have : ∃ f, fuel = f + 1 := ⟨fuel - 1, by omega⟩
        obtain ⟨f, rfl⟩ := this
        unfold rkeLoop
        rw [if_pos h1, he]
        simp only [Option.bind_some]
        rw [if_neg h2]
        unfold rkeLoop
        rw [if_neg h2]
    · refine Or.inl ⟨(tp, M, sol, est), ?_⟩
      unfold rkeLoop
      rw [if_neg h1]

/-- **C58** (termination). With a positive minimum step size the step of an embedded method ends: after finitely many cut-backs it succeeds, or fails
because a step of the minimum size (or smaller) has an estimated error above the tolerance. -/
theorem C58_terminates [IsStrictOrderedRing K] [Archimedean K] (root : K → Nat → K) (hb : T.b ≠ []) (tp : TimeStep K) (M : Option L)
    (hl : Legal tp) (hmin : 0 < tp.dtMin) (hI : Integrates sim B F linear tp.step M) :
    ∃ N, (∃ r, ∀ fuel, N ≤ fuel → rkeSolveStep sim norm root T bs linear errTol fuel tp M prev = some r) ∨
      ((∀ fuel, rkeSolveStep sim norm root T bs linear errTol fuel tp M prev = none) ∧ ∃ n tpa sol' ks' err', Cuts tp n tpa ∧ tpa.dt ≤ tpa.dtMin ∧
        Computed B F T bs norm tpa prev sol' ks' err' ∧ errTol < err') := by
  obtain ⟨N, hN⟩ := C26_terminates tp hl hmin
  obtain ⟨M2, sol2, ks2, err2, s1, s2, s3, s4⟩ := estimate_computed sim B F T bs norm linear prev tp M hI
  have e : ∀ fuel, rkeSolveStep sim norm root T bs linear errTol fuel tp M prev =
      (rkeLoop sim norm T bs linear errTol prev fuel tp M2 sol2 ks2 1).map fun q =>
        (if q.2.2.2 > 0 then { q.1 with dt := q.1.dt * root (errTol / q.2.2.2) (T.order + 1) } else q.1, q.2.1, q.2.2.1) := by
    intro fuel
    unfold rkeSolveStep
    rw [s1]
    rfl
  refine ⟨N + 2, ?_⟩
  rcases rkeLoop_ends sim B F T bs norm linear errTol prev hb tp N hN (N + 2) 0 tp M2 sol2 ks2 1 err2 .zero (s4 hb) s2 s3 (by omega) with ⟨q, hq⟩ | ⟨h1, n, tpa, sol', ks', err', c1, c2, c3⟩
  · have hq' : ∀ fuel, N + 2 ≤ fuel → rkeLoop sim norm T bs linear errTol prev fuel tp M2 sol2 ks2 1 = some q := by
      intro fuel hf
      obtain ⟨d, rfl⟩ := Nat.exists_eq_add_of_le hf
      clear hf
      induction d with
      | zero => exact hq
      | succ d ih => exact rkeLoop_mono sim T bs norm linear errTol prev _ _ _ _ _ _ _ ih
    exact Or.inl ⟨_, fun fuel hf => by rw [e, hq' fuel hf]; rfl⟩
  · refine Or.inr ⟨fun fuel => by rw [e, h1]; rfl, n, tpa, sol', ks', err', c1, ?_, c3⟩
    have hleg : Legal tpa := by
      clear c2 c3 h1
      induction c1 with
      | zero => exact hl
      | succ n a b hab hb ih =>
        have := (C26_cutback a ih).2.2 (by rw [hb])
        have e : b = a.cutback.1 := by rw [hb]
        rw [e]; exact this.2.2.2.2.2.2
    exact ((C26_cutback tpa hleg).1).1 c2

/-- **C58** (counterexample). With a tolerance of one or more the estimate is never computed: the first step is accepted, however large the
estimated error. -/
theorem C58_counterexample_tolerance (root : K → Nat → K) (tp : TimeStep K) (M M' : Option L) (sol : E) (ks : List E) (h1 : 1 ≤ errTol)
    (hs : solveRK sim T linear tp M prev = some (M', sol, ks)) (fuel : Nat) :
    ∃ tp', rkeSolveStep sim norm root T bs linear errTol (fuel + 1) tp M prev = some (tp', M', sol) := by
  unfold rkeSolveStep rkeLoop
  rw [hs]
  simp only [Option.bind_some]
  rw [if_neg (not_lt.mpr h1)]
  exact ⟨_, rfl⟩

end

/-! ## Witnesses -/

/-- `u' = F(t,u)` with prescribed values `B`, and the unit matrix as coefficient matrix. -/
def odeSim {K E : Type} (B F : K → E → E) : RKSim K E Unit :=
  { bc := fun t u => some (B t u), mass := fun _ _ => some (), rate := fun _ t u => some (F t u) }

theorem odeSim_integrates {K E : Type} [Field K] [AddCommGroup E] [Module K E] (B F : K → E → E) (linear : Bool) : Integrates (odeSim B F) B F linear 1 none where
  bc _ _ := rfl
  rate _ _ := ⟨(), rfl, rfl⟩
  reuse _ := ⟨(), fun _ _ => rfl, Or.inl rfl⟩

/-- Four orders for `y' = y` without prescribed values. -/
example (m : TimeMethod) (hm : m = .euler ∨ m = .heun ∨ m = .rk3 ∨ m = .rk4) (tp : TimeStep ℝ) (h1 : tp.step = 1) :=
  C58_order m hm (odeSim (fun _ u => ContinuousLinearMap.id ℝ ℝ u + (fun _ => (0:ℝ)) u) fun _ u => u) (fun _ u => u) (ContinuousLinearMap.id ℝ ℝ) (fun _ => 0) 0 1 Real.exp
    analyticAt_snd analyticAt_const (Filter.Eventually.of_forall fun t => Real.hasDerivAt_exp t) (Filter.Eventually.of_forall fun t => by simp) (by simp)
    true tp none (by rw [h1]; exact odeSim_integrates _ _ _)

/-- The first component of `y = (t^2/2, t)` is integrated, the second one is prescribed. -/
example (m : TimeMethod) (p : Nat) (hm : (m = .heunEuler ∧ p = 1) ∨ (m = .bogackiShampine ∧ p = 2) ∨ (m = .fehlberg ∧ p = 4)) (tp : TimeStep ℝ) (h1 : tp.step = 1) :=
  C58_embedded_order m p hm (odeSim (fun t u => (ContinuousLinearMap.inl ℝ ℝ ℝ).comp (ContinuousLinearMap.fst ℝ ℝ ℝ) u + ((0:ℝ), t)) fun _ u => (u.2, (1:ℝ)))
    (fun _ u => (u.2, 1)) ((ContinuousLinearMap.inl ℝ ℝ ℝ).comp (ContinuousLinearMap.fst ℝ ℝ ℝ)) (fun t => (0, t)) 0 (0, 0) (fun t => (t ^ 2 / 2, t))
    (AnalyticAt.prod (AnalyticAt.comp (g := Prod.snd) (f := Prod.snd) analyticAt_snd analyticAt_snd) analyticAt_const)
    (AnalyticAt.prod analyticAt_const analyticAt_id)
    (Filter.Eventually.of_forall fun t => by
      have : HasDerivAt (fun t : ℝ => t ^ 2 / 2) t t := by
        have := ((hasDerivAt_id t).pow 2).div_const 2
        simpa using this
      simpa using HasDerivAt.prodMk this (hasDerivAt_const t (0:ℝ)))
    (Filter.Eventually.of_forall fun t => by simp) (by simp)
    true tp none (by rw [h1]; exact odeSim_integrates _ _ _)

/-- The first step of the demonstration, for `u' = u`. -/
def rkeDemo (tol : Rat) : Option (TimeStep Rat × Option Unit × Rat) :=
  rkeSolveStep (odeSim (fun _ u => u) fun _ u => u) (fun x : Rat => |x|) (fun x _ => x) (rkeTableau .heunEuler).1 (rkeTableau .heunEuler).2 false tol 5
    tsDemo.increment.1 none (1 : Rat)

/-- The step succeeds after cutting the step size from 1/2 back to 1/8; the hypotheses of the theorems hold. -/
example : (rkeDemo (1/10)).map (fun r => r.2.2) = some (9/8) ∧ (rkeDemo (1/10)).map (fun r => r.1.t) = some (1/8) := by decide +kernel
/-- The step fails if the tolerance is not met at the minimum step size 1/10. -/
example : (rkeDemo (1/1000)).map (fun r => r.2.2) = none := by decide +kernel
/-- Tolerance 1: the first step, with the estimate 1/8, is accepted. -/
example : (rkeDemo 1).map (fun r => r.2.2) = some (3/2) := by decide +kernel
example : Integrates (odeSim (fun (_ u : Rat) => u) fun _ u => u) (fun _ u => u) (fun _ u => u) false tsDemo.increment.1.step none ∧
    Legal tsDemo.increment.1 ∧ (0:Rat) < tsDemo.increment.1.dtMin ∧ (rkeTableau (K := Rat) .heunEuler).1.b ≠ [] := by
  refine ⟨?_, (C25_history tsDemo _ tsDemo_legal (Hist.first _ (Prod.ext rfl (by decide +kernel)))).1, by decide +kernel, by decide +kernel⟩
  rw [show tsDemo.increment.1.step = 1 by decide +kernel]
  exact odeSim_integrates _ _ _

/-- **C58** (names). The names of the input file select the method. -/
theorem C58_names : (["euler", "heun", "rk3", "rk4", "heuneuler", "bs", "fehlberg"].map TimeMethod.get) =
    [.euler, .heun, .rk3, .rk4, .heunEuler, .bogackiShampine, .fehlberg] ∧
    (["ab1", "ab2", "ab3", "ab4", "ab5", "am1", "am2", "am3", "am4", "be", "bdf2", "cn"].map TimeMethod.get) =
    [.ab1, .ab2, .ab3, .ab4, .ab5, .am1, .am2, .am3, .am4, .be, .bdf2, .theta] := by decide +kernel

end IFEM.Props
