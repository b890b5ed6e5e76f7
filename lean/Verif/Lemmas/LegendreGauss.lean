import Verif.Lemmas.LegendreRoots
import Mathlib.Analysis.SpecialFunctions.Integrals.Basic
import Mathlib.LinearAlgebra.Matrix.NonsingularInverse

/-!
# Exactness of the rules of Gauss and Lobatto
-/
namespace IFEM.Legendre
open Polynomial IFEM.Spec MeasureTheory

/-- The integral from -1 to 1. -/
noncomputable def J (f : ℝ[X]) : ℝ := ∫ s in (-1 : ℝ)..1, f.eval s

theorem poly_int (f : ℝ[X]) (a b : ℝ) : IntervalIntegrable (fun s => f.eval s) volume a b := f.continuous.intervalIntegrable _ _

theorem J_add (f g : ℝ[X]) : J (f + g) = J f + J g := by
  unfold J
  rw [← intervalIntegral.integral_add (poly_int f _ _) (poly_int g _ _)]
  simp only [eval_add]

theorem J_mul (c : ℝ) (f : ℝ[X]) : J (C c * f) = c * J f := by
  unfold J
  rw [← intervalIntegral.integral_const_mul]
  simp only [eval_mul, eval_C]

theorem J_sub (f g : ℝ[X]) : J (f - g) = J f - J g := by
  have := J_mul (-1) g
  rw [sub_eq_add_neg, J_add, show -g = C (-1) * g by simp, this]; ring

theorem J_zero : J 0 = 0 := by unfold J; simp

theorem J_sum {ι : Type*} (s : Finset ι) (f : ι → ℝ[X]) : J (∑ i ∈ s, f i) = ∑ i ∈ s, J (f i) := by
  classical
  induction s using Finset.induction_on with
  | empty => simp [J_zero]
  | insert a s ha ih => rw [Finset.sum_insert ha, Finset.sum_insert ha, J_add, ih]

theorem J_der (f : ℝ[X]) : J (derivative f) = f.eval 1 - f.eval (-1) := by
  unfold J
  exact intervalIntegral.integral_eq_sub_of_hasDerivAt (fun x _ => f.hasDerivAt x) (poly_int _ _ _)

theorem J_one : J (legendre 0) = 2 := by unfold J; rw [leg_zero]; simp; norm_num

theorem leg_orth (m n : Nat) (h : m ≠ n) : J (legendre m * legendre n) = 0 := by
  have hm := leg_ode m
  have hn := leg_ode n
  set q := (X^2 - 1) * (legendre m * derivative (legendre n) - legendre n * derivative (legendre m)) with hq
  have hd : derivative q = C ((n:ℝ)*((n:ℝ)+1) - (m:ℝ)*((m:ℝ)+1)) * (legendre m * legendre n) := by
    have e : q = legendre m * ((X^2 - 1) * derivative (legendre n)) - legendre n * ((X^2 - 1) * derivative (legendre m)) := by rw [hq]; ring
    rw [e, derivative_sub, derivative_mul (f := legendre m), derivative_mul (f := legendre n), hm, hn]
    simp only [map_mul, map_add, map_sub, map_natCast, map_one]
    ring
  have h1 := J_der q
  rw [hd, J_mul, hq] at h1
  simp only [eval_mul, eval_sub, eval_pow, eval_X, eval_one] at h1
  norm_num at h1
  rcases h1 with h1 | h1
  · exfalso
    have : ((n:ℝ) - m) * ((n:ℝ) + m + 1) = 0 := by linear_combination h1
    rcases mul_eq_zero.1 this with h2 | h2
    · exact h (by exact_mod_cast (sub_eq_zero.1 h2).symm)
    · have : (0:ℝ) < (n:ℝ) + m + 1 := by positivity
      linarith
  · exact h1

/-- Polynomials of degree less than `n` are combinations of the first `n` Legendre polynomials. -/
theorem leg_span (n : Nat) (f : ℝ[X]) (hf : ∀ k, n ≤ k → f.coeff k = 0) : ∃ c : Nat → ℝ, f = ∑ k ∈ Finset.range n, C (c k) * legendre k := by
  induction n generalizing f with
  | zero => exact ⟨fun _ => 0, by ext k; simp [hf k]⟩
  | succ n ih =>
    obtain ⟨d, p⟩ := leg_natDegree n
    obtain ⟨c, hc⟩ := ih (f - C (f.coeff n / (legendre n).coeff n) * legendre n) (by
      intro k hk
      rw [coeff_sub, coeff_C_mul]
      rcases Nat.lt_or_ge n k with h | h
      · rw [hf k (by omega), coeff_eq_zero_of_natDegree_lt (show (legendre n).natDegree < k by omega)]; simp
      · obtain rfl : k = n := by omega
        field_simp
        ring)
    refine ⟨fun k => if k = n then f.coeff n / (legendre n).coeff n else c k, ?_⟩
    rw [Finset.sum_range_succ]
    simp only [if_true]
    rw [Finset.sum_congr rfl (fun k hk => by rw [if_neg (by rw [Finset.mem_range] at hk; omega)]), ← hc]
    ring

theorem leg_orth_low (n : Nat) (f : ℝ[X]) (hf : ∀ k, n ≤ k → f.coeff k = 0) (m : Nat) (hm : n ≤ m) : J (f * legendre m) = 0 := by
  obtain ⟨c, rfl⟩ := leg_span n f hf
  rw [Finset.sum_mul, J_sum]
  refine Finset.sum_eq_zero fun k hk => ?_
  rw [Finset.mem_range] at hk
  rw [mul_assoc, J_mul, leg_orth k m (by omega), mul_zero]

theorem J_leg (k : Nat) : J (legendre k) = if k = 0 then 2 else 0 := by
  split
  · subst k; exact J_one
  · have := leg_orth k 0 (by assumption)
    rwa [leg_zero, mul_one] at this

/-- From the values of the kernel in the points to sums over the points. -/
theorem discrete {n : Nat} (x w h : Fin n → ℝ) (hk : ∀ i j, (∑ k : Fin n, h k * ((legendre k).eval (x i) * (legendre k).eval (x j))) * w j = if i = j then 1 else 0)
    (h0 : ∀ k : Fin n, (k : Nat) = 0 → h k = 1/2) (k : Fin n) :
    ∑ i, w i * (legendre k).eval (x i) = J (legendre k) := by
  let M : Matrix (Fin n) (Fin n) ℝ := Matrix.of fun i k => (legendre k).eval (x i)
  let N : Matrix (Fin n) (Fin n) ℝ := Matrix.of fun k j => h k * (legendre k).eval (x j) * w j
  have h1 : M * N = 1 := by
    ext i j
    rw [Matrix.mul_apply, Matrix.one_apply, ← hk i j, Finset.sum_mul]
    refine Finset.sum_congr rfl fun k _ => ?_
    simp only [M, N, Matrix.of_apply]; ring
  have h2 : N * M = 1 := mul_eq_one_comm.1 h1
  have hz : 0 < n := k.pos
  have h3 := congrFun (congrFun h2 ⟨0, hz⟩) k
  rw [Matrix.mul_apply, Matrix.one_apply] at h3
  simp only [M, N, Matrix.of_apply, leg_zero, eval_one, h0 ⟨0, hz⟩ rfl] at h3
  rw [J_leg]
  have e : ∑ i, w i * (legendre k).eval (x i) = 2 * ∑ i, 1/2 * 1 * w i * (legendre k).eval (x i) := by
    rw [Finset.mul_sum]
    exact Finset.sum_congr rfl fun i _ => by ring
  rw [e, h3]
  by_cases hc : (k : Nat) = 0
  · rw [if_pos (Fin.ext hc.symm), if_pos hc]; ring
  · rw [if_neg (fun he => hc (by rw [← he])), if_neg hc]; ring

/-- From the basis to all polynomials of low degree. -/
theorem low_exact {n : Nat} (x w : Fin n → ℝ) (hb : ∀ k : Fin n, ∑ i, w i * (legendre k).eval (x i) = J (legendre k)) (f : ℝ[X])
    (hf : ∀ k, n ≤ k → f.coeff k = 0) : ∑ i, w i * f.eval (x i) = J f := by
  obtain ⟨c, rfl⟩ := leg_span n f hf
  rw [J_sum]
  simp only [eval_finsetSum, eval_mul, eval_C, Finset.mul_sum]
  rw [Finset.sum_comm]
  refine Finset.sum_congr rfl fun k hk => ?_
  rw [Finset.mem_range] at hk
  rw [J_mul, ← hb ⟨k, hk⟩, Finset.mul_sum]
  exact Finset.sum_congr rfl fun i _ => by ring

/-- From low degree to high degree: `q` vanishes in the points and is orthogonal to the polynomials of degree less than `m`. -/
theorem high_exact {n m d : Nat} (x w : Fin n → ℝ) (hb : ∀ f : ℝ[X], (∀ k, n ≤ k → f.coeff k = 0) → ∑ i, w i * f.eval (x i) = J f)
    (q : ℝ[X]) (hq : q ≠ 0) (hqd : q.natDegree = n) (hx : ∀ i, q.eval (x i) = 0) (ho : ∀ f : ℝ[X], (∀ k, m ≤ k → f.coeff k = 0) → J (f * q) = 0)
    (hd : d < n + m) (f : ℝ[X]) (hf : f.natDegree ≤ d) : ∑ i, w i * f.eval (x i) = J f := by
  have e := EuclideanDomain.div_add_mod f q
  have e1 : (f % q).degree < q.degree := EuclideanDomain.mod_lt f hq
  have e2 : ∀ k, n ≤ k → (f % q).coeff k = 0 := fun k hk => coeff_eq_zero_of_degree_lt (lt_of_lt_of_le e1 (by rw [degree_eq_natDegree hq, hqd]; exact_mod_cast hk))
  have e3 : ∀ k, m ≤ k → (f / q).coeff k = 0 := by
    intro k hk
    by_cases h0 : f / q = 0
    · rw [h0, coeff_zero]
    · have hle : q.degree ≤ f.degree := by
        by_contra hc
        exact h0 (Polynomial.div_eq_zero_iff hq |>.2 (not_le.1 hc))
      have h1 := degree_add_div hq hle
      have hf0 : f ≠ 0 := fun h => h0 (by rw [h]; simp)
      rw [degree_eq_natDegree hq, degree_eq_natDegree h0, degree_eq_natDegree hf0, hqd] at h1
      have h2 : n + (f / q).natDegree = f.natDegree := by exact_mod_cast h1
      exact coeff_eq_zero_of_natDegree_lt (by omega)
  have hJ : J f = J (f % q) := by
    conv_lhs => rw [← e]
    rw [J_add, mul_comm, ho _ e3, zero_add]
  rw [hJ, ← hb _ e2]
  refine Finset.sum_congr rfl fun i _ => ?_
  conv_lhs => rw [← e]
  rw [eval_add, eval_mul, hx i, zero_mul, zero_add]

end IFEM.Legendre
