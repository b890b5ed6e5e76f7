import Verif.Lemmas.LegendrePoly
import Mathlib.Analysis.Complex.Polynomial.Basic
import Mathlib.LinearAlgebra.Matrix.ToLinearEquiv
import Mathlib.FieldTheory.Separable
import Mathlib.Tactic.Positivity

/-!
# Roots of the Legendre polynomials
-/
namespace IFEM.Legendre
open Polynomial IFEM.Spec

section
variable {K : Type*} [Field K] [Algebra ℝ K]

theorem aeval_rec (n : Nat) (x : K) : ((n : K) + 2) * aeval x (legendre (n+2)) =
    (2*(n : K) + 3) * (x * aeval x (legendre (n+1))) - ((n : K) + 1) * aeval x (legendre n) := by
  have := congrArg (aeval x) (leg_rec n)
  simpa only [map_mul, map_add, map_sub, map_natCast, map_one, map_ofNat, aeval_X] using this

/-- The formula of Christoffel and Darboux. -/
theorem christoffel (n : Nat) (x y : K) : (∑ k ∈ Finset.range (n+1), (2*(k : K) + 1) * (aeval x (legendre k) * aeval y (legendre k))) * (x - y) =
    ((n : K) + 1) * (aeval x (legendre (n+1)) * aeval y (legendre n) - aeval x (legendre n) * aeval y (legendre (n+1))) := by
  induction n with
  | zero => simp [leg_zero, leg_one]
  | succ n ih =>
    rw [Finset.sum_range_succ, add_mul, ih]
    have hx := aeval_rec n x
    have hy := aeval_rec n y
    push_cast
    linear_combination (aeval x (legendre (n+1))) * hy - (aeval y (legendre (n+1))) * hx
end

/-- The same for equal arguments. -/
theorem christoffel' (n : Nat) : (∑ k ∈ Finset.range (n+1), (2*(k : ℝ[X]) + 1) * (legendre k)^2) =
    ((n : ℝ[X]) + 1) * (derivative (legendre (n+1)) * legendre n - legendre (n+1) * derivative (legendre n)) := by
  induction n with
  | zero => simp [leg_zero, leg_one]
  | succ n ih =>
    rw [Finset.sum_range_succ, ih]
    have h := leg_rec n
    have hd : ((n : ℝ[X]) + 2) * derivative (legendre (n+2)) =
        (2*(n : ℝ[X]) + 3) * (legendre (n+1) + X * derivative (legendre (n+1))) - ((n : ℝ[X]) + 1) * derivative (legendre n) := by
      have h' : C ((n : ℝ) + 2) * legendre (n+2) = C (2*(n : ℝ) + 3) * (X * legendre (n+1)) - C ((n : ℝ) + 1) * legendre n := by
        simpa only [map_mul, map_add, map_natCast, map_one, map_ofNat] using h
      have := congrArg derivative h'
      rw [derivative_C_mul, derivative_sub, derivative_C_mul, derivative_C_mul, derivative_mul, derivative_X] at this
      simpa only [map_mul, map_add, map_natCast, map_one, map_ofNat, one_mul] using this
    push_cast
    linear_combination (-legendre (n+1)) * hd + (derivative (legendre (n+1))) * h

theorem kernel_pos (n : Nat) (x : ℝ) : 1 ≤ ∑ k ∈ Finset.range (n+1), (2*(k : ℝ) + 1) * ((legendre k).eval x)^2 := by
  rw [Finset.sum_range_succ']
  have : 0 ≤ ∑ k ∈ Finset.range n, (2*((k+1 : ℕ) : ℝ) + 1) * ((legendre (k+1)).eval x)^2 := Finset.sum_nonneg fun k _ => by positivity
  simp only [Nat.cast_zero, leg_zero, eval_one]
  linarith

theorem root_simple (n : Nat) (x : ℝ) (h : (legendre (n+1)).eval x = 0) :
    ((n : ℝ) + 1) * ((derivative (legendre (n+1))).eval x * (legendre n).eval x) = ∑ k ∈ Finset.range (n+1), (2*(k : ℝ) + 1) * ((legendre k).eval x)^2 := by
  have := congrArg (eval x) (christoffel' n)
  simp only [eval_finsetSum, eval_mul, eval_add, eval_sub, eval_pow, eval_natCast, eval_ofNat, eval_one, h] at this
  rw [this]; ring

theorem leg_natDegree (n : Nat) : (legendre n).natDegree ≤ n ∧ 0 < (legendre n).coeff n := by
  induction n using Nat.strong_induction_on with
  | _ n ih =>
    rcases n with _ | _ | n
    · rw [leg_zero]; simp
    · rw [leg_one]; simp
    · obtain ⟨d0, c0⟩ := ih n (by omega)
      obtain ⟨d1, c1⟩ := ih (n+1) (by omega)
      have hne : ((n : ℝ) + 2) ≠ 0 := by positivity
      have h : C ((n : ℝ) + 2) * legendre (n+2) = C (2*(n : ℝ) + 3) * (X * legendre (n+1)) - C ((n : ℝ) + 1) * legendre n := by
        simpa only [map_mul, map_add, map_natCast, map_one, map_ofNat] using leg_rec n
      constructor
      · have e : (legendre (n+2)).natDegree = (C ((n : ℝ) + 2) * legendre (n+2)).natDegree := (natDegree_C_mul hne).symm
        rw [e, h]
        refine (natDegree_sub_le _ _).trans (max_le ((natDegree_C_mul_le _ _).trans ?_) ((natDegree_C_mul_le _ _).trans (by omega)))
        exact natDegree_mul_le.trans (by rw [natDegree_X]; omega)
      · have := congrArg (fun p => coeff p (n+2)) h
        simp only [coeff_C_mul, coeff_sub, coeff_X_mul] at this
        rw [coeff_eq_zero_of_natDegree_lt (show (legendre n).natDegree < n+2 by omega), mul_zero, sub_zero] at this
        have p1 : 0 < ((n:ℝ)+2) * (legendre (n+2)).coeff (n+2) := by rw [this]; positivity
        exact (mul_pos_iff_of_pos_left (by positivity)).1 p1

theorem leg_ne_zero (n : Nat) : legendre n ≠ 0 := fun h => by
  have := (leg_natDegree n).2
  rw [h] at this; simp at this

theorem leg_degree (n : Nat) : (legendre n).natDegree = n :=
  le_antisymm (leg_natDegree n).1 (le_natDegree_of_ne_zero (leg_natDegree n).2.ne')

theorem leg_ge_one (x : ℝ) (hx : 1 ≤ x) (n : Nat) : 1 ≤ (legendre n).eval x ∧ (legendre n).eval x ≤ (legendre (n+1)).eval x := by
  induction n with
  | zero => simp [leg_zero, leg_one, hx]
  | succ n ih =>
    obtain ⟨h1, h2⟩ := ih
    refine ⟨h1.trans h2, ?_⟩
    have h := aeval_rec n x
    simp only [coe_aeval_eq_eval] at h
    have h3 : ((n:ℝ)+2) * ((legendre (n+2)).eval x - (legendre (n+1)).eval x) =
        (2*(n:ℝ)+3)*((x-1)*(legendre (n+1)).eval x) + ((n:ℝ)+1)*((legendre (n+1)).eval x - (legendre n).eval x) := by
      linear_combination h
    have h4 : 0 ≤ ((n:ℝ)+2) * ((legendre (n+2)).eval x - (legendre (n+1)).eval x) := by
      rw [h3]
      have : 0 ≤ (x-1)*(legendre (n+1)).eval x := mul_nonneg (by linarith) (by linarith)
      have : 0 ≤ (legendre (n+1)).eval x - (legendre n).eval x := by linarith
      positivity
    have := (mul_nonneg_iff_of_pos_left (by positivity)).1 h4
    linarith

theorem leg_neg (x : ℝ) (n : Nat) : (legendre n).eval (-x) = (-1)^n * (legendre n).eval x := by
  induction n using Nat.strong_induction_on with
  | _ n ih =>
    rcases n with _ | _ | n
    · simp [leg_zero]
    · simp [leg_one]
    · have h1 := aeval_rec n x
      have h2 := aeval_rec n (-x)
      simp only [coe_aeval_eq_eval] at h1 h2
      rw [ih n (by omega), ih (n+1) (by omega)] at h2
      have hne : ((n : ℝ) + 2) ≠ 0 := by positivity
      refine mul_left_cancel₀ hne ?_
      rw [h2]
      linear_combination -((-1:ℝ)^n) * h1

theorem leg_at_one (n : Nat) : (legendre n).eval 1 = 1 := by
  induction n using Nat.strong_induction_on with
  | _ n ih =>
    rcases n with _ | _ | n
    · simp [leg_zero]
    · simp [leg_one]
    · have h1 := aeval_rec n (1:ℝ)
      simp only [coe_aeval_eq_eval] at h1
      rw [ih n (by omega), ih (n+1) (by omega)] at h1
      have hne : ((n : ℝ) + 2) ≠ 0 := by positivity
      refine mul_left_cancel₀ hne ?_
      rw [h1]; ring

theorem leg_at_neg_one (n : Nat) : (legendre n).eval (-1) = (-1)^n := by rw [leg_neg, leg_at_one, mul_one]

theorem der_at (x : ℝ) (hx : x^2 = 1) (n : Nat) : (derivative (legendre (n+1))).eval x = x^n * (((n:ℝ)+1)*((n:ℝ)+2)/2) := by
  have hL : ∀ k, (legendre k).eval x = x^k := by
    intro k
    rcases (mul_self_eq_one_iff.1 (by rw [← sq]; exact hx) : x = 1 ∨ x = -1) with h | h
    · rw [h, leg_at_one, one_pow]
    · rw [h, leg_at_neg_one]
  induction n with
  | zero => simp [leg_one]
  | succ n ih =>
    have h := congrArg (eval x) (leg_der (n+1))
    simp only [eval_add, eval_mul, eval_X, eval_natCast, eval_one, hL, ih] at h
    rw [h]
    push_cast
    ring

theorem root_inside (n : Nat) (x : ℝ) (h : (legendre n).eval x = 0) : -1 < x ∧ x < 1 := by
  constructor
  · by_contra hc
    have := (leg_ge_one (-x) (by linarith) n).1
    rw [leg_neg, h, mul_zero] at this
    linarith
  · by_contra hc
    have := (leg_ge_one x (by linarith) n).1
    linarith

theorem root_real (n : Nat) (z : ℂ) (h : aeval z (legendre (n+1)) = 0) : z.im = 0 := by
  have hc : aeval (starRingEnd ℂ z) (legendre (n+1)) = 0 := by rw [aeval_conj, h, map_zero]
  have hk := christoffel n z (starRingEnd ℂ z)
  rw [h, hc, zero_mul, mul_zero, sub_zero, mul_zero] at hk
  have hs : (∑ k ∈ Finset.range (n+1), (2*(k : ℂ) + 1) * (aeval z (legendre k) * aeval (starRingEnd ℂ z) (legendre k))) =
      ((∑ k ∈ Finset.range (n+1), (2*(k : ℝ) + 1) * Complex.normSq (aeval z (legendre k)) : ℝ) : ℂ) := by
    push_cast
    refine Finset.sum_congr rfl fun k _ => ?_
    rw [aeval_conj, Complex.mul_conj]
  have hp : 0 < ∑ k ∈ Finset.range (n+1), (2*(k : ℝ) + 1) * Complex.normSq (aeval z (legendre k)) := by
    rw [Finset.sum_range_succ']
    have : 0 ≤ ∑ k ∈ Finset.range n, (2*((k+1 : ℕ) : ℝ) + 1) * Complex.normSq (aeval z (legendre (k+1))) :=
      Finset.sum_nonneg fun k _ => mul_nonneg (by positivity) (Complex.normSq_nonneg _)
    simp only [Nat.cast_zero, leg_zero, map_one]
    linarith
  rw [hs] at hk
  rcases mul_eq_zero.1 hk with h0 | h0
  · exact absurd (Complex.ofReal_eq_zero.1 h0) hp.ne'
  · have := congrArg Complex.im h0
    simp at this
    linarith

/-- The complex roots are simple. -/
theorem roots_nodup (n : Nat) : ((legendre (n+1)).map (algebraMap ℝ ℂ)).roots.Nodup ∧
    Multiset.card ((legendre (n+1)).map (algebraMap ℝ ℂ)).roots = n+1 := by
  have hne : (legendre (n+1)).map (algebraMap ℝ ℂ) ≠ 0 := (Polynomial.map_ne_zero_iff (algebraMap ℝ ℂ).injective).2 (leg_ne_zero _)
  constructor
  · rw [Multiset.nodup_iff_count_le_one]
    intro z
    rw [count_roots]
    by_contra hc
    have hroot := one_lt_rootMultiplicity_iff_isRoot (p := (legendre (n+1)).map (algebraMap ℝ ℂ)) (t := z) hne |>.1 (by omega)
    obtain ⟨h1, h2⟩ := hroot
    have e0 : aeval z (legendre (n+1)) = 0 := by rw [aeval_def, ← eval_map]; exact h1
    have him := root_real n z e0
    obtain ⟨x, rfl⟩ : ∃ x : ℝ, z = (x : ℂ) := ⟨z.re, Complex.ext rfl (by simpa using him)⟩
    have r1 : (legendre (n+1)).eval x = 0 := by
      have : ((legendre (n+1)).map (algebraMap ℝ ℂ)).eval (algebraMap ℝ ℂ x) = 0 := h1
      rw [eval_map_algebraMap, aeval_algebraMap_apply] at this
      simpa using this
    have r2 : (derivative (legendre (n+1))).eval x = 0 := by
      have : (derivative ((legendre (n+1)).map (algebraMap ℝ ℂ))).eval (algebraMap ℝ ℂ x) = 0 := h2
      rw [derivative_map, eval_map_algebraMap, aeval_algebraMap_apply] at this
      simpa using this
    have := root_simple n x r1
    rw [r2] at this
    have := kernel_pos n x
    linarith
  · rw [IsAlgClosed.card_roots_eq_natDegree, natDegree_map, leg_degree]

end IFEM.Legendre
