import Verif.Spec.Legendre
import Mathlib.Algebra.Polynomial.RingDivision
import Mathlib.Tactic.LinearCombination
import Mathlib.Tactic.FieldSimp

/-!
# Recurrence relations of the Legendre polynomials
-/
namespace IFEM.Legendre
open Polynomial IFEM.Spec

/-- The `n`-th derivative of `(x^2-1)^n`. -/
noncomputable def yy (n : Nat) : ℝ[X] := derivative^[n] ((X^2 - 1)^n)
/-- `n` times the derivative of order `n-1`. -/
noncomputable def zz (n : Nat) : ℝ[X] := (n : ℝ[X]) * derivative^[n-1] ((X^2 - 1)^n)

theorem der_zz (n : Nat) : derivative (zz n) = (n : ℝ[X]) * yy n := by
  unfold zz yy
  rcases n with _ | n
  · simp
  · rw [derivative_natCast_mul, Nat.add_sub_cancel, ← Function.iterate_succ_apply' derivative n]

theorem zz_one (n : Nat) : (zz n).eval 1 = 0 := by
  unfold zz
  rcases n with _ | n
  · simp
  · have h : (X - C (1:ℝ))^(n+1) ∣ (X^2 - 1 : ℝ[X])^(n+1) := pow_dvd_pow_of_dvd ⟨X + 1, by rw [C_1]; ring⟩ _
    have := pow_sub_dvd_iterate_derivative_of_pow_dvd n h
    rw [Nat.add_sub_cancel_left, pow_one] at this
    rw [eval_mul, Nat.add_sub_cancel, dvd_iff_isRoot.1 this, mul_zero]

theorem yy_succ (n : Nat) : yy (n+1) = 2 * ((n : ℝ[X]) + 1) * (X * yy n + zz n) := by
  unfold yy zz
  rw [Function.iterate_succ_apply, derivative_pow]
  have e : C (((n+1 : ℕ)) : ℝ) * (X^2 - 1)^(n+1-1) * derivative (X^2 - 1 : ℝ[X]) = C (2*((n:ℝ)+1)) * ((X^2 - 1)^n * X) := by
    simp only [derivative_sub, derivative_X_pow, derivative_one, Nat.add_sub_cancel]
    simp only [map_mul, map_add, map_natCast, map_one, map_ofNat, Nat.cast_add, Nat.cast_one, Nat.cast_ofNat]
    ring
  rw [e, iterate_derivative_C_mul, iterate_derivative_mul_X]
  simp only [map_mul, map_add, map_natCast, map_one, map_ofNat, nsmul_eq_mul]
  ring

theorem yy_ode (n : Nat) : (X^2 - 1) * derivative (derivative (yy n)) + 2 * X * derivative (yy n) = (n : ℝ[X]) * ((n : ℝ[X])+1) * yy n := by
  have h : (X^2 - 1) * derivative ((X^2 - 1 : ℝ[X])^n) = C (2 * (n : ℝ)) * ((X^2-1)^n * X) := by
    rw [derivative_pow]
    simp only [derivative_sub, derivative_X_pow, derivative_one]
    rcases n with _ | n
    · simp
    · simp only [map_mul, map_add, map_natCast, map_one, map_ofNat, Nat.cast_add, Nat.cast_one, Nat.cast_ofNat, Nat.add_sub_cancel]
      ring
  set w := (X^2 - 1 : ℝ[X])^n with hw
  have e : (X^2 - 1) * derivative w = (derivative w * X) * X - derivative w := by ring
  rw [e] at h
  have h2 := congrArg (fun p => derivative^[n+1] p) h
  rw [iterate_derivative_sub, iterate_derivative_mul_X, iterate_derivative_derivative_mul_X, Nat.add_sub_cancel, iterate_derivative_derivative_mul_X, iterate_derivative_C_mul,
    iterate_derivative_mul_X, Nat.add_sub_cancel, ← Function.iterate_succ_apply] at h2
  have y1 : derivative (yy n) = derivative^[n+1] w := by unfold yy; rw [← hw, Function.iterate_succ_apply']
  have y2 : derivative (derivative (yy n)) = derivative^[n+1+1] w := by rw [y1, Function.iterate_succ_apply' _ (n+1)]
  rw [y2, y1]
  unfold yy
  rw [← hw]
  simp only [map_mul, map_natCast, map_ofNat, nsmul_eq_mul, Nat.cast_add, Nat.cast_one, Nat.succ_eq_add_one] at h2
  linear_combination h2

theorem yy_zz (n : Nat) : (X^2 - 1) * derivative (yy n) = ((n : ℝ[X]) + 1) * zz n := by
  have h : derivative ((X^2 - 1) * derivative (yy n) - ((n : ℝ[X]) + 1) * zz n) = 0 := by
    have e : ((n : ℝ[X]) + 1) * zz n = C ((n : ℝ) + 1) * zz n := by simp
    rw [derivative_sub, derivative_mul, e, derivative_C_mul, der_zz]
    have := yy_ode n
    simp only [derivative_sub, derivative_X_pow, derivative_one, map_add, map_natCast, map_one, map_ofNat, Nat.cast_ofNat]
    linear_combination this
  have hc := eq_C_of_derivative_eq_zero h
  have h1 := congrArg (eval 1) hc
  rw [eval_C] at h1
  simp only [eval_sub, eval_mul, eval_pow, eval_X, eval_one, zz_one] at h1
  rw [← h1] at hc
  norm_num at hc
  exact sub_eq_zero.1 hc

noncomputable def cc (n : Nat) : ℝ := 1 / (2^n * (n.factorial : ℝ))

theorem cc_succ (n : Nat) : cc (n+1) * (2 * ((n:ℝ) + 1)) = cc n := by
  unfold cc
  have := Nat.factorial_pos n
  rw [Nat.factorial_succ]
  push_cast
  field_simp
  ring

theorem leg_eq (n : Nat) : legendre n = C (cc n) * yy n := rfl

/-- The remaining part of the next polynomial. -/
noncomputable def zeta (n : Nat) : ℝ[X] := C (cc n) * zz n

theorem leg_zeta (n : Nat) : legendre (n+1) = X * legendre n + zeta n := by
  rw [leg_eq, leg_eq, yy_succ]
  unfold zeta
  rw [← cc_succ n]
  simp only [map_mul, map_add, map_natCast, map_one, map_ofNat]
  ring

theorem zeta_der (n : Nat) : (X^2 - 1) * derivative (legendre n) = ((n : ℝ[X]) + 1) * zeta n := by
  rw [leg_eq, derivative_C_mul]
  unfold zeta
  linear_combination C (cc n) * yy_zz n

theorem der_zeta (n : Nat) : derivative (zeta n) = (n : ℝ[X]) * legendre n := by
  unfold zeta
  rw [derivative_C_mul, der_zz, leg_eq]; ring

theorem leg_zero : legendre 0 = 1 := by unfold legendre; simp
theorem leg_one : legendre 1 = X := by rw [leg_zeta, leg_zero]; unfold zeta zz; simp

/-- (III) -/
theorem leg_three (n : Nat) : (X^2 - 1) * derivative (legendre n) = ((n : ℝ[X]) + 1) * (legendre (n+1) - X * legendre n) := by
  rw [zeta_der, leg_zeta]; ring

/-- (I) -/
theorem leg_der (n : Nat) : derivative (legendre (n+1)) = ((n : ℝ[X]) + 1) * legendre n + X * derivative (legendre n) := by
  rw [leg_zeta, derivative_add, derivative_mul, derivative_X, der_zeta]; ring

/-- (II) -/
theorem leg_der' (n : Nat) : X * derivative (legendre (n+1)) = ((n : ℝ[X]) + 1) * legendre (n+1) + derivative (legendre n) := by
  linear_combination X * leg_der n + leg_three n

/-- (IV) -/
theorem leg_four (n : Nat) : (X^2 - 1) * derivative (legendre (n+1)) = ((n : ℝ[X]) + 1) * (X * legendre (n+1) - legendre n) := by
  linear_combination X * leg_der' n - leg_der n

/-- The three-term recurrence. -/
theorem leg_rec (n : Nat) : ((n : ℝ[X]) + 2) * legendre (n+2) = (2*(n : ℝ[X]) + 3) * (X * legendre (n+1)) - ((n : ℝ[X]) + 1) * legendre n := by
  have h := leg_three (n+1)
  push_cast at h
  linear_combination leg_four n - h

theorem leg_ode (n : Nat) : derivative ((X^2 - 1) * derivative (legendre n)) = ((n : ℝ[X]) * ((n : ℝ[X])+1)) * legendre n := by
  rw [zeta_der]
  have e : ((n : ℝ[X]) + 1) * zeta n = C ((n : ℝ) + 1) * zeta n := by simp
  rw [e, derivative_C_mul, der_zeta]
  simp only [map_add, map_natCast, map_one]
  ring

end IFEM.Legendre
