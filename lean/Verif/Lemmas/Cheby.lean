import Verif.Model.Cheby
import Verif.Spec.Cheby
import Mathlib.Algebra.BigOperators.Intervals
import Mathlib.Algebra.Order.Ring.Abs
import Mathlib.Tactic.LinearCombination
import Mathlib.Tactic.FieldSimp
import Mathlib.Tactic.Linarith
import Mathlib.Tactic.NormNum

/-! # Lemmas for C83 -/

namespace IFEM.Cheby

open Polynomial Finset

variable {K : Type} [Field K]

theorem pol1_eq (x : K) : ∀ n : Nat, pol1 n x = (Chebyshev.T K n).eval x
  | 0 => by simp [pol1]
  | 1 => by simp [pol1]
  | n + 2 => by
    rw [pol1, pol1_eq x (n+1), pol1_eq x n]
    push_cast
    rw [Chebyshev.T_add_two]
    simp

theorem pol2_eq (x : K) : ∀ n : Nat, pol2 n x = (Chebyshev.U K n).eval x
  | 0 => by simp [pol2]
  | 1 => by simp [pol2]
  | n + 2 => by
    rw [pol2, pol2_eq x (n+1), pol2_eq x n]
    push_cast
    rw [Chebyshev.U_add_two]
    simp

theorem evalPol1_eq (n : Nat) (x : K) : evalPol1 (n : Int) x = (Chebyshev.T K n).eval x := by
  simp [evalPol1, pol1_eq]

theorem evalPol2_eq (n : Nat) (x : K) : evalPol2 (n : Int) x = (Chebyshev.U K n).eval x := by
  simp [evalPol2, pol2_eq]

theorem evalDer1_eq (n : Nat) (x : K) :
    evalDer1 (n : Int) x = (derivative (Chebyshev.T K n)).eval x := by
  rw [Chebyshev.T_derivative_eq_U]
  cases n with
  | zero => simp [evalDer1]
  | succ n =>
    have h : ¬ ((n + 1 : Nat) : Int) ≤ 0 := by omega
    have h2 : ((n + 1 : Nat) : Int) - 1 = (n : Int) := by omega
    rw [evalDer1, if_neg h, h2, evalPol2_eq]
    simp

theorem evalDer2_eq (n : Nat) (x : K) (hx : x*x ≠ 1) :
    evalDer2 (n : Int) x = (derivative (Chebyshev.U K n)).eval x := by
  have h := congrArg (eval x) (Chebyshev.add_one_mul_T_eq_poly_in_U (R := K) (n : Int))
  have hx' : x*x - 1 ≠ 0 := sub_ne_zero.mpr hx
  have h3 : ((n : Int) + 1) = ((n + 1 : Nat) : Int) := by push_cast; rfl
  rw [evalDer2, h3, evalPol1_eq, evalPol2_eq, div_eq_iff hx']
  simp only [eval_mul, eval_add, eval_sub, eval_one, eval_X, eval_pow] at h
  push_cast at h ⊢
  simp only [eval_natCast] at h
  linear_combination h

variable [LinearOrder K] [IsStrictOrderedRing K]

theorem deriv2_one (n : Nat) :
    (derivative^[2] (Chebyshev.T K n)).eval 1 = ((n : K)^4 - (n : K)^2)/3 := by
  have h := Chebyshev.iterate_derivative_T_eval_one_recurrence (R := K) (n : Int) 1
  have h2 := Chebyshev.derivative_T_eval_one (R := K) (n : Int)
  simp only [Function.iterate_one] at h
  rw [h2] at h
  push_cast at h
  field_simp
  linear_combination h

theorem deriv2_neg_one (n : Nat) :
    (derivative^[2] (Chebyshev.T K n)).eval (-1) = (-1)^n * ((n : K)^4 - (n : K)^2)/3 := by
  have h := Chebyshev.one_sub_X_sq_mul_iterate_derivative_T_eval (R := K) (n : Int) 1 (-1)
  have h2 : (derivative (Chebyshev.T K n)).eval (-1) = -(-1)^n * (n : K)^2 := by
    rw [← evalDer1_eq]
    cases n with
    | zero => simp [evalDer1]
    | succ n =>
      have h : ¬ ((n + 1 : Nat) : Int) ≤ 0 := by omega
      have h2 : ((n + 1 : Nat) : Int) - 1 = (n : Int) := by omega
      rw [evalDer1, if_neg h, h2, evalPol2_eq, Chebyshev.U_eval_neg_one]
      simp [Int.negOnePow_def]
      ring
  simp only [Function.iterate_one] at h
  rw [h2] at h
  push_cast at h
  field_simp
  linear_combination h

theorem eval2Der1_eq (n : Nat) (x : K) :
    eval2Der1 (n : Int) x = (derivative^[2] (Chebyshev.T K n)).eval (Spec.Cheby.snap x) := by
  have hadd : 1 + x = x + 1 := add_comm _ _
  by_cases hn : (n : Int) < 2
  · rw [eval2Der1, if_pos hn]
    have : n = 0 ∨ n = 1 := by omega
    rcases this with rfl | rfl <;> simp
  rw [eval2Der1, if_neg hn, Spec.Cheby.snap, hadd]
  by_cases h1 : |x - 1| < 1/1000000
  · rw [if_pos h1, if_pos h1, deriv2_one]; simp
  rw [if_neg h1, if_neg h1]
  by_cases h2 : |x + 1| < 1/1000000
  · rw [if_pos h2, if_pos h2, deriv2_neg_one]; simp
  rw [if_neg h2, if_neg h2]
  have hx : x*x - 1 ≠ 0 := by
    intro h0
    have h0' : (x - 1)*(x + 1) = 0 := by linear_combination h0
    rcases mul_eq_zero.mp h0' with h | h
    · apply h1; rw [h]; norm_num
    · apply h2; rw [h]; norm_num
  have hT := congrArg (eval x)
    (Chebyshev.one_sub_X_sq_mul_derivative_derivative_T_eq_poly_in_T (R := K) (n : Int))
  rw [Chebyshev.T_derivative_eq_U] at hT
  have hU := congrArg (eval x) (Chebyshev.U_eq_X_mul_U_add_T (R := K) ((n : Int) - 1))
  rw [sub_add_cancel] at hU
  rw [evalPol1_eq, evalPol2_eq, div_eq_iff hx]
  simp only [eval_mul, eval_add, eval_sub, eval_one, eval_X, eval_pow] at hT hU
  push_cast at hT hU ⊢
  simp only [eval_natCast] at hT
  linear_combination hT - (n : K) * hU

end IFEM.Cheby

namespace IFEM.Cheby

open Polynomial Finset

variable {K : Type} [Field K]

theorem inner_foldl (s : K) : ∀ a b : List K,
    (a.zip b).foldl (fun s p => s + p.1 * p.2) s = s + inner a b
  | [], b => by simp [inner]
  | x :: a, [] => by simp [inner]
  | x :: a, y :: b => by
    simp only [inner, List.zip_cons_cons, List.foldl_cons]
    rw [inner_foldl _ a b, inner_foldl _ a b]
    ring

theorem inner_cons (x y : K) (a b : List K) : inner (x :: a) (y :: b) = x*y + inner a b := by
  rw [inner, List.zip_cons_cons, List.foldl_cons, inner_foldl]; simp

theorem inner_eq : ∀ a b : List K, a.length = b.length →
    inner a b = ∑ m ∈ range b.length, a.getD m 0 * b.getD m 0
  | [], [], _ => by simp [inner]
  | x :: a, y :: b, h => by
    rw [inner_cons, inner_eq a b (by simpa using h), List.length_cons, Finset.sum_range_succ']
    simp [add_comm]

theorem outer_length (X Y : List K) : (outer X Y).length = X.length * Y.length := by
  induction Y with
  | nil => simp [outer]
  | cons y Y ih =>
    rw [outer, List.flatMap_cons, List.length_append, List.length_map, List.length_cons]
    rw [outer] at ih
    rw [ih]; ring

theorem outer_getD (X : List K) : ∀ (Y : List K) (i j : Nat), i < X.length → j < Y.length →
    (outer X Y).getD (i + X.length * j) 0 = X.getD i 0 * Y.getD j 0
  | [], i, j, _, hj => by simp at hj
  | y :: Y, i, 0, hi, _ => by
    rw [outer, List.flatMap_cons, List.getD_eq_getElem?_getD, List.getElem?_append_left
      (by simpa using hi)]
    simp [hi]
  | y :: Y, i, j + 1, hi, hj => by
    have ih := outer_getD X Y i j hi (by simpa using hj)
    rw [outer, List.flatMap_cons, List.getD_eq_getElem?_getD, List.getElem?_append_right
      (by rw [List.length_map, mul_add]; omega), List.length_map]
    have : i + X.length * (j + 1) - X.length = i + X.length * j := by rw [mul_add]; omega
    rw [this, List.getD_cons_succ, ← ih, outer, List.getD_eq_getElem?_getD]

/-- A sum over `m·n` numbers as a double sum. -/
theorem sum_range_grid (n : Nat) (f : Nat → K) : ∀ m : Nat,
    ∑ k ∈ range (n*m), f k = ∑ i ∈ range n, ∑ j ∈ range m, f (i + n*j)
  | 0 => by simp
  | m + 1 => by
    rw [mul_add, mul_one, Finset.sum_range_add, sum_range_grid n f m]
    rw [← Finset.sum_add_distrib]
    apply Finset.sum_congr rfl
    intro i _
    rw [Finset.sum_range_succ, add_comm (n*m) i]

/-- The number of coefficients is right. -/
def Wf (F : Func K) : Prop := F.coefs.length = F.n 0 * F.n 1 * F.n 2

/-- The value of a direction's factor. -/
def fac (F : Func K) (X : Fin 3 → K) (g : Fin 3 → Dir K) (c : Fin 3) (i : Nat) : K :=
  (g c).f (i : Int) (coord F X c) * (g c).w

theorem evalDir_length (F : Func K) (X : Fin 3 → K) (g : Fin 3 → Dir K) (c : Fin 3) :
    (evalDir F X g c).length = F.n c := by simp [evalDir]

theorem evalDir_getD (F : Func K) (X : Fin 3 → K) (g : Fin 3 → Dir K) (c : Fin 3) (i : Nat)
    (hi : i < F.n c) : (evalDir F X g c).getD i 0 = fac F X g c i := by
  simp [evalDir, fac, hi]

/-- The coefficient of a triple. -/
def cf (F : Func K) (i j k : Nat) : K := F.coefs.getD (i + F.n 0 * (j + F.n 1 * k)) 0

theorem evaluateTP_eq (F : Func K) (hF : Wf F) (X : Fin 3 → K) (g : Fin 3 → Dir K)
    (h1 : F.n 1 = 1 → fac F X g 1 0 = 1) (h2 : F.n 2 = 1 → fac F X g 2 0 = 1) :
    evaluateTP F X g = ∑ i ∈ range (F.n 0), ∑ j ∈ range (F.n 1), ∑ k ∈ range (F.n 2),
      cf F i j k * (fac F X g 0 i * fac F X g 1 j * fac F X g 2 k) := by
  unfold Wf at hF
  unfold evaluateTP
  by_cases c2 : F.n 2 = 1
  · by_cases c1 : F.n 1 = 1
    · rw [if_pos ⟨c1, c2⟩, inner_eq _ _ (by rw [evalDir_length, hF, c1, c2]; omega),
        evalDir_length, c1, c2]
      apply Finset.sum_congr rfl
      intro i hi
      rw [evalDir_getD _ _ _ _ _ (Finset.mem_range.mp hi)]
      simp [cf, h1 c1, h2 c2]
    · rw [if_neg (fun h => c1 h.1), if_pos c2, inner_eq _ _ (by
        rw [outer_length, evalDir_length, evalDir_length, hF, c2]; omega),
        outer_length, evalDir_length, evalDir_length, sum_range_grid, c2]
      apply Finset.sum_congr rfl
      intro i hi
      apply Finset.sum_congr rfl
      intro j hj
      have := outer_getD (evalDir F X g 0) (evalDir F X g 1) i j
        (by rw [evalDir_length]; exact Finset.mem_range.mp hi)
        (by rw [evalDir_length]; exact Finset.mem_range.mp hj)
      rw [evalDir_length] at this
      rw [this, evalDir_getD _ _ _ _ _ (Finset.mem_range.mp hi),
        evalDir_getD _ _ _ _ _ (Finset.mem_range.mp hj)]
      simp [cf, h2 c2]
  · rw [if_neg (fun h => c2 h.2), if_neg c2, inner_eq _ _ (by
        rw [outer_length, outer_length, evalDir_length, evalDir_length, evalDir_length, hF]),
        outer_length, outer_length, evalDir_length, evalDir_length, evalDir_length,
        sum_range_grid, sum_range_grid]
    apply Finset.sum_congr rfl
    intro i hi
    apply Finset.sum_congr rfl
    intro j hj
    apply Finset.sum_congr rfl
    intro k hk
    have hi' := Finset.mem_range.mp hi
    have hj' := Finset.mem_range.mp hj
    have hk' := Finset.mem_range.mp hk
    have e1 := outer_getD (evalDir F X g 0) (evalDir F X g 1) i j
        (by rw [evalDir_length]; exact hi') (by rw [evalDir_length]; exact hj')
    have hlt : i + F.n 0 * j < F.n 0 * F.n 1 := by
      calc i + F.n 0 * j < F.n 0 + F.n 0 * j := by omega
        _ = F.n 0 * (j + 1) := by ring
        _ ≤ F.n 0 * F.n 1 := Nat.mul_le_mul_left _ hj'
    have e2 := outer_getD (outer (evalDir F X g 0) (evalDir F X g 1)) (evalDir F X g 2)
        (i + F.n 0 * j) k
        (by rw [outer_length, evalDir_length, evalDir_length]; exact hlt)
        (by rw [evalDir_length]; exact hk')
    rw [evalDir_length] at e1
    rw [outer_length, evalDir_length, evalDir_length] at e2
    rw [e2, e1, evalDir_getD _ _ _ _ _ hi', evalDir_getD _ _ _ _ _ hj',
      evalDir_getD _ _ _ _ _ hk', cf]
    congr 2
    ring

theorem wf_read (n : Fin 3 → Nat) (lo hi : Fin 3 → K) (nums : List K) :
    Wf (read n lo hi nums) := by
  simp only [Wf, read, List.length_append, List.length_take, List.length_replicate]
  omega

theorem wf_noFile (lo hi : Fin 3 → K) : Wf (noFile lo hi) := by simp [Wf, noFile]

theorem coord_natural (F : Func K) (X : Fin 3 → K) (c : Fin 3) (h : F.lo c ≠ F.hi c) :
    coord F X c = Spec.Cheby.natural (F.lo c) (F.hi c) (X c) := by
  have h' : F.hi c - F.lo c ≠ 0 := sub_ne_zero.mpr (Ne.symm h)
  rw [coord, Spec.Cheby.natural]
  field_simp
  ring

end IFEM.Cheby
