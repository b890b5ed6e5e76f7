import Verif.Spec.Multistep
import Verif.Lemmas.RungeKutta
import Mathlib.Analysis.Analytic.Constructions
import Mathlib.Algebra.Polynomial.Derivative
import Mathlib.Algebra.Polynomial.Eval.Degree
import Mathlib.Algebra.CharZero.Defs
import Mathlib.Tactic.ComputeDegree
import Mathlib.Analysis.Calculus.Deriv.Shift
import Mathlib.Analysis.SpecialFunctions.ExpDeriv
import Mathlib.Algebra.CharZero.Infinite
import Mathlib.Tactic.FieldSimp
import Mathlib.Tactic.NormNum
import Mathlib.Tactic.IntervalCases
import Mathlib.Data.List.GetD
/-!
# C59: order of the linear multistep methods
-/
namespace IFEM.Props
open IFEM.Spec Polynomial

section
variable {K : Type} [Field K] [CharZero K]

/-- Moment conditions of the weights `w` at the points `x`. -/
def Moments (w : List K) (x : Nat → K) (q : Nat) : Prop := ∀ k < q, ∑ j ∈ Finset.range q, w.getD j 0 * x j ^ k = 1 / (k + 1)

theorem ab_moments (q : Nat) (h0 : 0 < q) (h5 : q ≤ 5) : Moments (K := K) (abCoefs.getD (q - 1) []) (fun j => (j : K) - (q - 1)) q := by
  intro k hk
  interval_cases q <;> interval_cases k <;> norm_num [Finset.sum_range_succ, abCoefs]

theorem am_moments (q : Nat) (h0 : 0 < q) (h5 : q ≤ 5) : Moments (K := K) (amCoefs.getD (q - 1) []) (fun j => (j : K) - (q - 1) + 1) q := by
  intro k hk
  interval_cases q <;> interval_cases k <;> norm_num [Finset.sum_range_succ, amCoefs]

/-- Weights with these moments integrate the derivative of polynomials exactly. -/
theorem exact_of_moments {w : List K} {x : Nat → K} {q : Nat} (h : Moments w x q) (Y : K[X]) (hd : Y.natDegree ≤ q) (t dt : K) :
    Y.eval (t + dt) - Y.eval t = dt * ∑ j ∈ Finset.range q, w.getD j 0 * (derivative Y).eval (t + x j * dt) := by
  -- it suffices to consider the polynomial in the scaled and shifted variable
  have key : ∀ Z : K[X], Z.natDegree ≤ q → Z.eval 1 - Z.eval 0 = ∑ j ∈ Finset.range q, w.getD j 0 * (derivative Z).eval (x j) := by
    intro Z hZ
    rw [eval_eq_sum_range' (n := q + 1) (by omega), eval_eq_sum_range' (n := q + 1) (by omega)]
    have hder : ∀ j, (derivative Z).eval (x j) = ∑ k ∈ Finset.range q, Z.coeff (k + 1) * (k + 1) * x j ^ k := by
      intro j
      by_cases hq : q = 0
      · subst hq
        have : Z = C (Z.coeff 0) := eq_C_of_natDegree_le_zero hZ
        rw [this]
        simp
      · rw [eval_eq_sum_range' (n := q) (by
          have := natDegree_derivative_le Z
          omega)]
        exact Finset.sum_congr rfl fun k _ => by rw [coeff_derivative]
    simp only [hder, Finset.mul_sum]
    rw [Finset.sum_comm, Finset.sum_range_succ', Finset.sum_range_succ']
    simp only [one_pow, mul_one, pow_zero, ne_eq, Nat.add_eq_zero_iff, one_ne_zero, and_false, not_false_eq_true, zero_pow, mul_zero, Finset.sum_const_zero, zero_add,
      add_sub_cancel_right]
    refine Finset.sum_congr rfl fun k hk => ?_
    have hm := h k (Finset.mem_range.mp hk)
    have e : ∑ j ∈ Finset.range q, w.getD j 0 * (Z.coeff (k + 1) * (k + 1) * x j ^ k) = Z.coeff (k + 1) * (k + 1) * ∑ j ∈ Finset.range q, w.getD j 0 * x j ^ k := by
      rw [Finset.mul_sum]
      exact Finset.sum_congr rfl fun j _ => by ring
    rw [e, hm]
    have : (k : K) + 1 ≠ 0 := by exact_mod_cast Nat.succ_ne_zero k
    field_simp
  have := key (Y.comp (C t + C dt * X)) (by
    refine le_trans natDegree_comp_le ?_
    have : (C t + C dt * X : K[X]).natDegree ≤ 1 := by compute_degree
    calc Y.natDegree * _ ≤ Y.natDegree * 1 := Nat.mul_le_mul_left _ this
      _ ≤ q := by omega)
  simp only [eval_comp, eval_add, eval_mul, eval_C, eval_X, mul_one, mul_zero, add_zero, derivative_comp] at this
  rw [this, Finset.mul_sum]
  refine Finset.sum_congr rfl fun j _ => ?_
  simp only [derivative_add, derivative_C, derivative_mul, derivative_X, zero_mul, zero_add, mul_one, eval_C]
  rw [mul_comm dt (x j)]
  ring

/-- **C59** (order). The Adams-Bashforth weights with `q` steps integrate every solution that is a polynomial of degree `q` in time exactly. -/
theorem C59_explicit_exact (q : Nat) (h0 : 0 < q) (h5 : q ≤ 5) (Y : K[X]) (hd : Y.natDegree ≤ q) (t0 dt : K) (n : Int) :
    Y.eval (t0 + (n + 1 : Int) * dt) = Y.eval (t0 + n * dt) + msIncrement (abCoefs.getD (q - 1) []) q dt (fun k => (derivative Y).eval (t0 + k * dt)) n := by
  have := exact_of_moments (ab_moments (K := K) q h0 h5) Y hd (t0 + n * dt) dt
  unfold msIncrement
  simp only [smul_eq_mul]
  have e : ∀ j : Nat, t0 + ((n - ((q : Int) - 1 - (j : Int)) : Int) : K) * dt = t0 + n * dt + ((j : K) - (q - 1)) * dt := by
    intro j; push_cast; ring
  simp only [e, ← this]
  have e2 : t0 + ((n + 1 : Int) : K) * dt = t0 + n * dt + dt := by push_cast; ring
  rw [e2]
  ring

/-- **C59** (order). The same holds for the Adams-Moulton weights with `q` values, the latest of which is the one at the new time. -/
theorem C59_implicit_exact (q : Nat) (h0 : 0 < q) (h5 : q ≤ 5) (Y : K[X]) (hd : Y.natDegree ≤ q) (t0 dt : K) (n : Int) :
    Y.eval (t0 + (n + 1 : Int) * dt) = Y.eval (t0 + n * dt) + msIncrement (amCoefs.getD (q - 1) []) q dt (fun k => (derivative Y).eval (t0 + k * dt)) (n + 1) := by
  have := exact_of_moments (am_moments (K := K) q h0 h5) Y hd (t0 + n * dt) dt
  unfold msIncrement
  simp only [smul_eq_mul]
  have e : ∀ j : Nat, t0 + ((n + 1 - ((q : Int) - 1 - (j : Int)) : Int) : K) * dt = t0 + n * dt + ((j : K) - (q - 1) + 1) * dt := by
    intro j; push_cast; ring
  simp only [e, ← this]
  have e2 : t0 + ((n + 1 : Int) : K) * dt = t0 + n * dt + dt := by push_cast; ring
  rw [e2]
  ring

end

section
open Asymptotics Topology Filter IFEM.Lemmas.RK
variable {E : Type} [NormedAddCommGroup E] [NormedSpace ℝ E]

theorem order_of_moments {w : List ℝ} {x : Nat → ℝ} {q : Nat} (h : Moments w x q) {y g : ℝ → E} {t0 : ℝ}
    (hy : ∀ᶠ t in 𝓝 t0, HasDerivAt y (g t) t) (hg : AnalyticAt ℝ g t0) :
    (fun h => y (t0 + h) - (y t0 + h • ∑ j ∈ Finset.range q, w.getD j 0 • g (t0 + x j * h))) =O[𝓝 0] fun h : ℝ => h ^ (q + 1) := by
  obtain ⟨p, hp⟩ := hg
  set c : Nat → E := fun k => p k fun _ => 1 with hc
  have hT : (fun d : ℝ => g (t0 + d) - ∑ k ∈ Finset.range q, d ^ k • c k) =O[𝓝 0] fun d : ℝ => d ^ q := by
    have := hp.isBigO_sub_partialSum_pow q
    refine (this.congr_left fun d => ?_).trans ?_
    · unfold FormalMultilinearSeries.partialSum
      congr 1
      refine Finset.sum_congr rfl fun k _ => ?_
      have := (p k).map_smul_univ (fun _ => d) (fun _ => (1:ℝ))
      simpa [hc] using this
    · refine IsBigO.of_bound 1 (Eventually.of_forall fun d => ?_)
      simp
  have hj : ∀ j, (fun h : ℝ => g (t0 + x j * h) - ∑ k ∈ Finset.range q, (x j * h) ^ k • c k) =O[𝓝 0] fun h : ℝ => h ^ q := by
    intro j
    have hx : Tendsto (fun h : ℝ => x j * h) (𝓝 0) (𝓝 0) := by
      have : Continuous fun h : ℝ => x j * h := by fun_prop
      simpa using this.tendsto 0
    refine (hT.comp_tendsto hx).trans ?_
    refine IsBigO.of_bound (|x j| ^ q) (Eventually.of_forall fun d => ?_)
    simp [mul_pow]
  have hsh : Tendsto (fun h : ℝ => t0 + h) (𝓝 0) (𝓝 t0) := by
    have : Continuous fun h : ℝ => t0 + h := by fun_prop
    simpa using this.tendsto 0
  have hY : (fun d : ℝ => y (t0 + d) - (y t0 + ∑ k ∈ Finset.range q, (d ^ (k + 1) / (k + 1)) • c k)) =O[𝓝 0] fun d : ℝ => d ^ (q + 1) := by
    refine integrate (e' := fun d => g (t0 + d) - ∑ k ∈ Finset.range q, d ^ k • c k) ?_ (by simp) hT
    refine (hsh.eventually hy).mono fun d hd => ?_
    have e1 : HasDerivAt (fun d : ℝ => y (t0 + d)) (g (t0 + d)) d := HasDerivAt.comp_const_add t0 d hd
    have e2 : HasDerivAt (fun d : ℝ => ∑ k ∈ Finset.range q, (d ^ (k + 1) / (k + 1)) • c k) (∑ k ∈ Finset.range q, d ^ k • c k) d := by
      refine HasDerivAt.fun_sum fun k _ => ?_
      have : HasDerivAt (fun d : ℝ => d ^ (k + 1) / ((k : ℝ) + 1)) (d ^ k) d := by
        have h1 := (hasDerivAt_pow (k + 1) d).div_const ((k : ℝ) + 1)
        have hk : (k : ℝ) + 1 ≠ 0 := by positivity
        have e : (((k + 1 : Nat) : ℝ) * d ^ (k + 1 - 1)) / ((k : ℝ) + 1) = d ^ k := by
          rw [Nat.add_sub_cancel]; push_cast; field_simp
        rw [e] at h1
        exact h1
      exact this.smul_const (c k)
    exact e1.sub (e2.const_add (y t0))
  have hS : (fun h : ℝ => h • ∑ j ∈ Finset.range q, w.getD j 0 • (g (t0 + x j * h) - ∑ k ∈ Finset.range q, (x j * h) ^ k • c k)) =O[𝓝 0] fun h : ℝ => h ^ (q + 1) := by
    have h1 : (fun h : ℝ => ∑ j ∈ Finset.range q, w.getD j 0 • (g (t0 + x j * h) - ∑ k ∈ Finset.range q, (x j * h) ^ k • c k)) =O[𝓝 0] fun h : ℝ => h ^ q :=
      IsBigO.fun_sum fun j _ => (hj j).const_smul_left _
    have := (isBigO_refl (fun t : ℝ => t) (𝓝 0)).smul h1
    refine this.congr_right fun t => ?_
    rw [smul_eq_mul, pow_succ, mul_comm]
  refine (hY.sub hS).congr_left fun d => ?_
  have e : d • ∑ j ∈ Finset.range q, w.getD j 0 • ∑ k ∈ Finset.range q, (x j * d) ^ k • c k = ∑ k ∈ Finset.range q, (d ^ (k + 1) / (k + 1)) • c k := by
    have e1 : ∀ j ∈ Finset.range q, w.getD j 0 • ∑ k ∈ Finset.range q, (x j * d) ^ k • c k = ∑ k ∈ Finset.range q, (d ^ k * (w.getD j 0 * x j ^ k)) • c k := by
      intro j _
      rw [Finset.smul_sum]
      refine Finset.sum_congr rfl fun k _ => ?_
      rw [smul_smul, mul_pow]
      congr 1
      ring
    rw [Finset.sum_congr rfl e1, Finset.sum_comm, Finset.smul_sum]
    refine Finset.sum_congr rfl fun k hk => ?_
    rw [← Finset.sum_smul, ← Finset.mul_sum, h k (Finset.mem_range.mp hk), smul_smul]
    congr 1
    ring
  simp only [smul_sub, Finset.sum_sub_distrib]
  rw [e]
  abel

/-- **C59** (order). The local error of an Adams-Bashforth step with `q` exact previous values is of order `h^(q+1)`, for every solution with an analytic
rate of change `g`. -/
theorem C59_explicit_order (q : Nat) (h0 : 0 < q) (h5 : q ≤ 5) (y g : ℝ → E) (t0 : ℝ) (hy : ∀ᶠ t in 𝓝 t0, HasDerivAt y (g t) t) (hg : AnalyticAt ℝ g t0) :
    (fun h => y (t0 + h) - (y t0 + msIncrement (abCoefs.getD (q - 1) []) q h (fun k => g (t0 + k * h)) 0)) =O[𝓝 0] fun h : ℝ => h ^ (q + 1) := by
  refine (order_of_moments (ab_moments (K := ℝ) q h0 h5) hy hg).congr_left fun h => ?_
  unfold msIncrement
  congr 4
  funext j
  congr 3
  push_cast
  ring

/-- **C59** (order). The same holds for an Adams-Moulton step, the rate of change of the exact solution being used at the new time. -/
theorem C59_implicit_order (q : Nat) (h0 : 0 < q) (h5 : q ≤ 5) (y g : ℝ → E) (t0 : ℝ) (hy : ∀ᶠ t in 𝓝 t0, HasDerivAt y (g t) t) (hg : AnalyticAt ℝ g t0) :
    (fun h => y (t0 + h) - (y t0 + msIncrement (amCoefs.getD (q - 1) []) q h (fun k => g (t0 + k * h)) 1)) =O[𝓝 0] fun h : ℝ => h ^ (q + 1) := by
  refine (order_of_moments (am_moments (K := ℝ) q h0 h5) hy hg).congr_left fun h => ?_
  unfold msIncrement
  congr 4
  funext j
  congr 3
  push_cast
  ring

/-- The hypotheses hold for the exponential function. -/
example (q : Nat) (h0 : 0 < q) (h5 : q ≤ 5) := C59_explicit_order q h0 h5 Real.exp Real.exp 0 (Eventually.of_forall Real.hasDerivAt_exp) (analyticAt_rexp)
example (q : Nat) (h0 : 0 < q) (h5 : q ≤ 5) := C59_implicit_order q h0 h5 Real.exp Real.exp 0 (Eventually.of_forall Real.hasDerivAt_exp) (analyticAt_rexp)
/-- The hypotheses of the exactness theorem hold for `t^5`. -/
example := C59_explicit_exact (K := Rat) 5 (by decide) le_rfl (X ^ 5) (by simp) 0 (1/10) 7

/-- **C59** (order). The constructors and `TimeIntegration::Order` agree on the order of the methods. -/
theorem C59_orders : ([.ab1, .ab2, .ab3, .ab4, .ab5].map abOrder = [1, 2, 3, 4, 5] ∧ [.ab1, .ab2, .ab3, .ab4, .ab5].map TimeMethod.order = [1, 2, 3, 4, 5]) ∧
    [.am1, .am2, .am3, .am4].map amOrder = [1, 2, 3, 4] ∧ [.am1, .am2, .am3, .am4].map TimeMethod.order = [1, 2, 3, 4] := by decide

end
end IFEM.Props
