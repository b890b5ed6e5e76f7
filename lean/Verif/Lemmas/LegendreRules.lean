import Verif.Lemmas.LegendreGauss
import Mathlib.LinearAlgebra.Lagrange

/-!
# The weights of the rules of Gauss and Lobatto, and differentiation in the Lobatto points
-/
namespace IFEM.Legendre
open Polynomial IFEM.Spec

theorem kernel_fin (n : Nat) (x y : ℝ) : (∑ k : Fin n, (2*((k : Nat) : ℝ) + 1)/2 * ((legendre k).eval x * (legendre k).eval y)) =
    (∑ k ∈ Finset.range n, (2*(k : ℝ) + 1) * ((legendre k).eval x * (legendre k).eval y))/2 := by
  rw [Finset.sum_range, Finset.sum_div]
  exact Finset.sum_congr rfl fun k _ => by ring

theorem gauss_weight (N : Nat) (x : ℝ) (h : (legendre (N+1)).eval x = 0) :
    (∑ k ∈ Finset.range (N+1), (2*(k : ℝ) + 1) * ((legendre k).eval x * (legendre k).eval x)) = (1 - x*x) * (derivative (legendre (N+1))).eval x ^ 2 := by
  have h1 := root_simple N x h
  have h2 := congrArg (eval x) (leg_four N)
  simp only [eval_mul, eval_sub, eval_pow, eval_X, eval_one, eval_add, eval_natCast, h] at h2
  have e : (∑ k ∈ Finset.range (N+1), (2*(k : ℝ) + 1) * ((legendre k).eval x * (legendre k).eval x)) =
      ∑ k ∈ Finset.range (N+1), (2*(k : ℝ) + 1) * ((legendre k).eval x)^2 := Finset.sum_congr rfl fun k _ => by ring
  rw [e, ← h1]
  linear_combination (derivative (legendre (N+1))).eval x * h2

theorem gauss_den_pos (N : Nat) (x : ℝ) (h : (legendre (N+1)).eval x = 0) : 0 < (1 - x*x) * (derivative (legendre (N+1))).eval x ^ 2 := by
  have h1 := gauss_weight N x h
  have h2 := kernel_pos N x
  rw [← h1]
  refine lt_of_lt_of_le one_pos (h2.trans (le_of_eq ?_))
  exact Finset.sum_congr rfl fun k _ => by ring

/-- The rule of Gauss. -/
theorem gauss_exact (N : Nat) (x : Fin (N+1) → ℝ) (hx : Function.Injective x) (hr : ∀ i, (legendre (N+1)).eval (x i) = 0) (f : ℝ[X]) (hf : f.natDegree ≤ 2*N+1) :
    ∑ i, 2/((1 - x i * x i) * (derivative (legendre (N+1))).eval (x i) ^ 2) * f.eval (x i) = J f := by
  refine high_exact (m := N+1) (d := 2*N+1) x (fun i => 2/((1 - x i * x i) * (derivative (legendre (N+1))).eval (x i) ^ 2)) (fun f hf => low_exact x _ (fun k => ?_) f hf)
    (legendre (N+1)) (leg_ne_zero _) (leg_degree _) hr (fun f hf => leg_orth_low _ f hf _ le_rfl) (by omega) f hf
  refine discrete x _ (fun k => (2*((k : Nat) : ℝ) + 1)/2) (fun i j => ?_) (fun k hk => by rw [hk]; norm_num) k
  rw [kernel_fin]
  split
  · rename_i hij
    subst hij
    rw [gauss_weight N _ (hr i)]
    have := gauss_den_pos N _ (hr i)
    rw [div_mul_div_comm, mul_comm 2, div_self]
    exact (mul_pos this two_pos).ne'
  · rename_i hij
    have := christoffel N (x i) (x j)
    simp only [coe_aeval_eq_eval, hr, zero_mul, mul_zero, sub_zero] at this
    rcases mul_eq_zero.1 this with h | h
    · rw [h]; simp
    · exact absurd (hx (sub_eq_zero.1 h)) hij

/-- `(x^2-1) P_N'`, which vanishes in the Lobatto points. -/
noncomputable def qq (N : Nat) : ℝ[X] := (X^2 - 1) * derivative (legendre N)

theorem qq_eq (M : Nat) : C (2*((M:ℝ)+1)+1) * qq (M+1) = C (((M:ℝ)+1)*((M:ℝ)+2)) * (legendre (M+2) - legendre M) := by
  unfold qq
  have h3 := leg_three (M+1)
  have h4 := leg_four M
  push_cast at h3
  simp only [map_mul, map_add, map_natCast, map_one, map_ofNat]
  linear_combination ((M : ℝ[X])+1) * h3 + ((M : ℝ[X])+2) * h4

theorem qq_degree (M : Nat) : (qq (M+1)).natDegree = M+2 := by
  have h := congrArg natDegree (qq_eq M)
  rw [natDegree_C_mul (by positivity), natDegree_C_mul (by positivity), natDegree_sub_eq_left_of_natDegree_lt (by rw [leg_degree, leg_degree]; omega), leg_degree] at h
  exact h

theorem qq_ne_zero (M : Nat) : qq (M+1) ≠ 0 := fun h => by
  have := qq_degree M
  rw [h] at this; simp at this

theorem qq_orth (M : Nat) (f : ℝ[X]) (hf : ∀ k, M ≤ k → f.coeff k = 0) : J (f * qq (M+1)) = 0 := by
  have h := congrArg (fun p => J (f * p)) (qq_eq M)
  rw [mul_left_comm, J_mul, mul_left_comm, J_mul, mul_sub, J_sub, leg_orth_low M f hf _ (by omega), leg_orth_low M f hf _ le_rfl, sub_zero, mul_zero] at h
  exact (mul_eq_zero.1 h).resolve_left (by positivity)

theorem qq_node (M : Nat) (x : ℝ) (h : (qq (M+1)).eval x = 0) : (legendre M).eval x = x * (legendre (M+1)).eval x := by
  unfold qq at h
  rw [leg_four] at h
  simp only [eval_mul, eval_sub, eval_X, eval_one, eval_add, eval_natCast] at h
  have h2 := (mul_eq_zero.1 h).resolve_left (by positivity)
  linarith

theorem lobatto_off (M : Nat) (x y : ℝ) (hx : (qq (M+1)).eval x = 0) (hy : (qq (M+1)).eval y = 0) (hxy : x ≠ y) :
    (∑ k ∈ Finset.range (M+1), (2*(k : ℝ) + 1) * ((legendre k).eval x * (legendre k).eval y)) + ((M:ℝ)+1) * ((legendre (M+1)).eval x * (legendre (M+1)).eval y) = 0 := by
  have h := christoffel M x y
  simp only [coe_aeval_eq_eval, qq_node M x hx, qq_node M y hy] at h
  refine mul_right_cancel₀ (sub_ne_zero.2 hxy) ?_
  rw [add_mul, h]
  ring

theorem lobatto_diag (M : Nat) (x : ℝ) (hx : (qq (M+1)).eval x = 0) :
    (∑ k ∈ Finset.range (M+1), (2*(k : ℝ) + 1) * ((legendre k).eval x * (legendre k).eval x)) + ((M:ℝ)+1) * ((legendre (M+1)).eval x * (legendre (M+1)).eval x) =
      ((M:ℝ)+1) * ((M:ℝ)+2) * (legendre (M+1)).eval x ^ 2 := by
  have h := congrArg (eval x) (christoffel' M)
  have h2 := congrArg (eval x) (leg_der' M)
  have h3 := qq_node M x hx
  simp only [eval_finsetSum, eval_mul, eval_add, eval_sub, eval_pow, eval_natCast, eval_ofNat, eval_one, eval_X] at h h2
  have e : (∑ k ∈ Finset.range (M+1), (2*(k : ℝ) + 1) * ((legendre k).eval x * (legendre k).eval x)) =
      ∑ k ∈ Finset.range (M+1), (2*(k : ℝ) + 1) * ((legendre k).eval x)^2 := Finset.sum_congr rfl fun k _ => by ring
  rw [e, h]
  linear_combination (((M:ℝ)+1) * (derivative (legendre (M+1))).eval x) * h3 + (((M:ℝ)+1) * (legendre (M+1)).eval x) * h2

theorem lobatto_ne (M : Nat) (x : ℝ) (hx : (qq (M+1)).eval x = 0) : (legendre (M+1)).eval x ≠ 0 := by
  intro h
  have h1 := lobatto_diag M x hx
  have h2 := kernel_pos M x
  rw [h] at h1
  have e : (∑ k ∈ Finset.range (M+1), (2*(k : ℝ) + 1) * ((legendre k).eval x * (legendre k).eval x)) =
      ∑ k ∈ Finset.range (M+1), (2*(k : ℝ) + 1) * ((legendre k).eval x)^2 := Finset.sum_congr rfl fun k _ => by ring
  rw [e] at h1
  norm_num at h1
  linarith

/-- The rule of Lobatto. -/
theorem lobatto_exact (M : Nat) (x : Fin (M+2) → ℝ) (hx : Function.Injective x) (hr : ∀ i, (qq (M+1)).eval (x i) = 0) (f : ℝ[X]) (hf : f.natDegree ≤ 2*M+1) :
    ∑ i, 2/(((M:ℝ)+1) * ((M:ℝ)+2) * (legendre (M+1)).eval (x i) ^ 2) * f.eval (x i) = J f := by
  refine high_exact (m := M) (d := 2*M+1) x (fun i => 2/(((M:ℝ)+1) * ((M:ℝ)+2) * (legendre (M+1)).eval (x i) ^ 2)) (fun f hf => low_exact x _ (fun k => ?_) f hf)
    (qq (M+1)) (qq_ne_zero _) (qq_degree _) hr (fun f hf => qq_orth M f hf) (by omega) f hf
  refine discrete x _ (fun k => if (k : Nat) = M+1 then ((M:ℝ)+1)/2 else (2*((k : Nat) : ℝ) + 1)/2) (fun i j => ?_) (fun k hk => by rw [if_neg (by omega), hk]; norm_num) k
  have hs : (∑ k : Fin (M+2), (if (k : Nat) = M+1 then ((M:ℝ)+1)/2 else (2*((k : Nat) : ℝ) + 1)/2) * ((legendre k).eval (x i) * (legendre k).eval (x j))) =
      ((∑ k ∈ Finset.range (M+1), (2*(k : ℝ) + 1) * ((legendre k).eval (x i) * (legendre k).eval (x j))) +
        ((M:ℝ)+1) * ((legendre (M+1)).eval (x i) * (legendre (M+1)).eval (x j)))/2 := by
    rw [Fin.sum_univ_castSucc]
    simp only [Fin.val_castSucc, Fin.val_last, if_true]
    rw [Finset.sum_congr rfl (fun k _ => by rw [if_neg (show ((k : Fin (M+1)) : Nat) ≠ M+1 by have := k.isLt; omega)]), kernel_fin]
    ring
  rw [hs]
  split
  · rename_i hij
    subst hij
    rw [lobatto_diag M _ (hr i)]
    have := lobatto_ne M _ (hr i)
    have : ((M:ℝ)+1) ≠ 0 := by positivity
    have : ((M:ℝ)+2) ≠ 0 := by positivity
    field_simp
  · rename_i hij
    rw [lobatto_off M _ _ (hr i) (hr j) (fun h => hij (hx h))]
    simp

theorem qq_der (N : Nat) : derivative (qq N) = ((N : ℝ[X]) * ((N : ℝ[X]) + 1)) * legendre N := leg_ode N

/-- Differentiation in the Lobatto points. -/
theorem lobatto_der (M : Nat) (x : Fin (M+2) → ℝ) (hx : Function.Injective x) (hr : ∀ i, (qq (M+1)).eval (x i) = 0) (f : ℝ[X]) (hf : f.natDegree ≤ M+1) (i : Fin (M+2)) :
    (derivative f).eval (x i) = ∑ j, (if i = j then (derivative (legendre (M+1))).eval (x j) / (2 * (legendre (M+1)).eval (x j))
      else (legendre (M+1)).eval (x i) / ((legendre (M+1)).eval (x j) * (x i - x j))) * f.eval (x j) := by
  have hdvd : ∀ j, ∃ g, qq (M+1) = (X - C (x j)) * g := fun j => dvd_iff_isRoot.2 (hr j)
  choose g hg using hdvd
  have hN : ((M:ℝ)+1)*((M:ℝ)+2) ≠ 0 := by positivity
  have hd1 : ∀ j, derivative (qq (M+1)) = g j + (X - C (x j)) * derivative (g j) := fun j => by
    rw [hg j, derivative_mul, derivative_sub, derivative_X, derivative_C]; ring
  have hd2 : ∀ j, derivative (derivative (qq (M+1))) = 2 * derivative (g j) + (X - C (x j)) * derivative (derivative (g j)) := fun j => by
    rw [hd1 j, derivative_add, derivative_mul, derivative_sub, derivative_X, derivative_C]; ring
  have hq1 : ∀ y, (derivative (qq (M+1))).eval y = ((M:ℝ)+1)*((M:ℝ)+2) * (legendre (M+1)).eval y := fun y => by
    rw [qq_der]; simp only [eval_mul, eval_add, eval_natCast, eval_one]; push_cast; ring
  have hq2 : ∀ y, (derivative (derivative (qq (M+1)))).eval y = ((M:ℝ)+1)*((M:ℝ)+2) * (derivative (legendre (M+1))).eval y := fun y => by
    have e : derivative (qq (M+1)) = C (((M:ℝ)+1)*((M:ℝ)+2)) * legendre (M+1) := by
      rw [qq_der]; simp only [map_mul, map_add, map_natCast, map_one, map_ofNat]; push_cast; ring
    rw [e, derivative_C_mul, eval_mul, eval_C]
  have hgj : ∀ j, (g j).eval (x j) = ((M:ℝ)+1)*((M:ℝ)+2) * (legendre (M+1)).eval (x j) := fun j => by
    have := congrArg (eval (x j)) (hd1 j)
    rw [hq1] at this
    simp only [eval_add, eval_mul, eval_sub, eval_X, eval_C, sub_self, zero_mul, add_zero] at this
    exact this.symm
  have hgo : ∀ i j, i ≠ j → (g j).eval (x i) = 0 := fun i j hij => by
    have := hr i
    rw [hg j, eval_mul, eval_sub, eval_X, eval_C] at this
    exact (mul_eq_zero.1 this).resolve_left (sub_ne_zero.2 fun h => hij (hx h))
  have hne := fun j => lobatto_ne M _ (hr j)
  have hgd : ∀ j, (g j).natDegree ≤ M+1 := fun j => by
    have h1 := qq_degree M
    have h0 : g j ≠ 0 := fun h => qq_ne_zero M (by rw [hg j, h, mul_zero])
    rw [hg j, natDegree_mul (X_sub_C_ne_zero _) h0, natDegree_X_sub_C] at h1
    omega
  -- the interpolation of `f`
  have hint : f = ∑ j, C (f.eval (x j) / (g j).eval (x j)) * g j := by
    have hv : ∀ k, eval (x k) f = eval (x k) (∑ j, C (f.eval (x j) / (g j).eval (x j)) * g j) := by
      intro k
      rw [eval_finsetSum, Finset.sum_eq_single k (fun j _ hj => by rw [eval_mul, hgo k j (Ne.symm hj), mul_zero]) (by simp), eval_mul, eval_C]
      have : (g k).eval (x k) ≠ 0 := by rw [hgj]; exact mul_ne_zero hN (hne k)
      field_simp
    have hdeg : (f - ∑ j, C (f.eval (x j) / (g j).eval (x j)) * g j).degree < (Finset.univ.map ⟨x, hx⟩ : Finset ℝ).card := by
      rw [Finset.card_map, Finset.card_univ, Fintype.card_fin]
      refine lt_of_le_of_lt degree_le_natDegree ?_
      have : (f - ∑ j, C (f.eval (x j) / (g j).eval (x j)) * g j).natDegree ≤ M+1 :=
        (natDegree_sub_le _ _).trans (max_le hf (natDegree_sum_le_of_forall_le _ _ fun j _ => (natDegree_C_mul_le _ _).trans (hgd j)))
      exact_mod_cast (by omega : (f - ∑ j, C (f.eval (x j) / (g j).eval (x j)) * g j).natDegree < M+2)
    refine Polynomial.eq_of_degree_sub_lt_of_eval_finset_eq _ hdeg ?_
    intro y hy
    obtain ⟨k, _, rfl⟩ := Finset.mem_map.1 hy
    exact hv k
  have hder := congrArg (fun p => (derivative p).eval (x i)) hint
  simp only [derivative_sum, derivative_C_mul, eval_finsetSum, eval_mul, eval_C] at hder
  rw [hder]
  refine Finset.sum_congr rfl fun j _ => ?_
  rw [hgj]
  split
  · rename_i hij
    subst hij
    have := congrArg (eval (x i)) (hd2 i)
    rw [hq2] at this
    simp only [eval_add, eval_mul, eval_sub, eval_X, eval_C, sub_self, zero_mul, add_zero, eval_ofNat] at this
    have e : (derivative (g i)).eval (x i) = ((M:ℝ)+1)*((M:ℝ)+2) * (derivative (legendre (M+1))).eval (x i) / 2 := by linarith
    rw [e]
    have h1 := hne i
    field_simp
  · rename_i hij
    have := congrArg (eval (x i)) (hd1 j)
    rw [hq1] at this
    simp only [eval_add, eval_mul, eval_sub, eval_X, eval_C, hgo i j hij, zero_add] at this
    have hs : x i - x j ≠ 0 := sub_ne_zero.2 fun h => hij (hx h)
    have e : (derivative (g j)).eval (x i) = ((M:ℝ)+1)*((M:ℝ)+2) * (legendre (M+1)).eval (x i) / (x i - x j) := by
      rw [this]; field_simp
    rw [e]
    have h1 := hne j
    field_simp

end IFEM.Legendre
