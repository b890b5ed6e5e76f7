import Verif.Model.Legendre
import Verif.Lemmas.LegendreRules
import Verif.Spec.Quadrature
import Mathlib.Data.List.GetD
import Mathlib.Analysis.Calculus.LocalExtr.Polynomial

/-!
# Loops over the polynomial degree, and zeros near to the iterates
-/
namespace IFEM.Legendre
open Polynomial IFEM.Spec

theorem evalLoop (n : Nat) (hn : 1 ≤ n) (x : ℝ) (m : Nat) (hm : m ≤ n-1) :
    ∃ val, (List.range' 2 m).foldlM (evalStep x) (((List.replicate (n+1) 0).set 0 1).set 1 x) = some val ∧ val.length = n+1 ∧
      ∀ k, k ≤ m+1 → val[k]? = some ((legendre k).eval x) := by
  induction m with
  | zero =>
    refine ⟨_, rfl, by simp, fun k hk => ?_⟩
    obtain rfl | rfl : k = 0 ∨ k = 1 := by omega
    · simp [leg_zero]
    · rw [List.getElem?_set_self (by simp; omega)]; simp [leg_one]
  | succ m ih =>
    obtain ⟨val, h1, h2, h3⟩ := ih (by omega)
    rw [List.range'_1_concat, List.foldlM_append, h1]
    simp only [List.foldlM_cons, List.foldlM_nil, Option.bind_eq_bind, Option.bind_some]
    unfold evalStep
    rw [h3 (2+m-1) (by omega), h3 (2+m-2) (by omega)]
    simp only [Option.bind_eq_bind, Option.bind_some]
    rw [if_pos (by omega)]
    refine ⟨_, rfl, by simp [h2], fun k hk => ?_⟩
    by_cases hk2 : k = 2+m
    · subst hk2
      rw [List.getElem?_set_self (by omega)]
      have h := congrArg (Polynomial.eval x) (leg_rec m)
      simp only [eval_mul, eval_add, eval_sub, eval_natCast, eval_X, eval_one, eval_ofNat] at h
      rw [show 2*(2+m)-1 = 2*m+3 by omega, show 2+m-1 = m+1 by omega, show 2+m-2 = m by omega, show 2+m = m+2 by omega]
      congr 1
      push_cast
      have hne : ((m:ℝ)+2) ≠ 0 := by positivity
      field_simp
      linarith
    · rw [List.getElem?_set_ne (by omega)]
      exact h3 k (by omega)

theorem evalAll_spec (n : Nat) (hn : 1 ≤ n) (x : ℝ) : ∃ val, evalAll n x = some val ∧ val.length = n+1 ∧ ∀ k, k ≤ n → val[k]? = some ((legendre k).eval x) := by
  obtain ⟨val, h1, h2, h3⟩ := evalLoop n hn x (n-1) le_rfl
  exact ⟨val, h1, h2, fun k hk => h3 k (by omega)⟩

theorem eval_ok (n : Nat) (hn : 1 ≤ n) (x : ℝ) (h1 : -1 ≤ x) (h2 : x ≤ 1) : IFEM.Legendre.eval (n : Int) x = some ((legendre n).eval x) := by
  obtain ⟨val, e1, e2, e3⟩ := evalAll_spec n hn x
  unfold IFEM.Legendre.eval
  rw [if_neg (by omega), if_neg (by rintro (h | h) <;> linarith), Int.toNat_natCast, e1]
  simp only [Option.bind_eq_bind, Option.bind_some]
  rw [List.getLast?_eq_getElem?, e2, Nat.add_sub_cancel, e3 n le_rfl]

theorem derEval_ok (n : Nat) (hn : 1 ≤ n) (x : ℝ) (h1 : -1 ≤ x) (h2 : x ≤ 1) : derEval (n : Int) x = some ((derivative (legendre n)).eval x) := by
  obtain ⟨val, e1, e2, e3⟩ := evalAll_spec n hn x
  obtain ⟨N, rfl⟩ : ∃ N, n = N+1 := ⟨n-1, by omega⟩
  unfold derEval
  rw [if_neg (by omega), if_neg (by rintro (h | h) <;> linarith), Int.toNat_natCast, e1]
  by_cases hx : x = 1 ∨ x = -1
  · rw [if_pos hx, der_at x (by rcases hx with h | h <;> rw [h] <;> norm_num)]
    congr 1
    rw [show (((N+1 : ℕ) : Int) - 1).toNat = N by omega]
    push_cast
    ring
  · rw [if_neg hx]
    simp only [Option.bind_eq_bind, Option.bind_some]
    rw [e3 _ (by omega), e3 _ (by omega)]
    simp only [Option.bind_some, Nat.add_sub_cancel]
    congr 1
    have h := congrArg (Polynomial.eval x) (leg_four N)
    simp only [eval_mul, eval_add, eval_sub, eval_pow, eval_natCast, eval_X, eval_one] at h
    push_neg at hx
    have hne : (1 - x*x) ≠ 0 := by
      intro hc
      have : (1 - x)*(1 + x) = 0 := by linear_combination hc
      rcases mul_eq_zero.1 this with h | h
      · exact hx.1 (by linarith)
      · exact hx.2 (by linarith)
    push_cast
    rw [div_mul_eq_mul_div, div_mul_eq_mul_div, ← sub_div, div_eq_iff hne]
    linear_combination h

/-- All zeros of the Legendre polynomials are real. -/
theorem leg_card_roots (N : Nat) : Multiset.card (legendre (N+1)).roots = N+1 := by
  obtain ⟨hnd, hcard⟩ := roots_nodup N
  refine le_antisymm ((card_roots' _).trans (leg_degree _).le) ?_
  have hPne : (legendre (N+1)).map (algebraMap ℝ ℂ) ≠ 0 := (Polynomial.map_ne_zero_iff (algebraMap ℝ ℂ).injective).2 (leg_ne_zero _)
  have hsub : ((legendre (N+1)).map (algebraMap ℝ ℂ)).roots ⊆ (legendre (N+1)).roots.map (algebraMap ℝ ℂ) := by
    intro z hz
    have hz0 : aeval z (legendre (N+1)) = 0 := by
      have := (mem_roots hPne).1 hz
      rwa [IsRoot, eval_map_algebraMap] at this
    have him := root_real N z hz0
    have e : z = algebraMap ℝ ℂ z.re := Complex.ext (by simp) (by simpa using him)
    rw [e, aeval_algebraMap_apply] at hz0
    rw [Multiset.mem_map]
    refine ⟨z.re, (mem_roots (leg_ne_zero _)).2 ?_, e.symm⟩
    simpa using hz0
  have := Multiset.card_le_card ((Multiset.le_iff_subset hnd).2 hsub)
  rw [hcard, Multiset.card_map] at this
  exact this

theorem qq_splits (M : Nat) : Multiset.card (qq (M+1)).roots = M+2 := by
  refine le_antisymm ((card_roots' _).trans (qq_degree _).le) ?_
  have h1 := card_roots_le_derivative (legendre (M+1))
  rw [leg_card_roots] at h1
  have e : qq (M+1) = (X - C 1) * ((X - C (-1)) * derivative (legendre (M+1))) := by
    unfold qq; simp only [map_one, map_neg]; ring
  have hne := qq_ne_zero M
  rw [e] at hne ⊢
  rw [roots_mul hne, roots_mul (right_ne_zero_of_mul hne)]
  simp only [Multiset.card_add, roots_X_sub_C, Multiset.card_singleton]
  omega

/-- If Newton's method makes a small step from `p`, there is a zero near to `p`. -/
theorem newton_near (M : Nat) (p t : ℝ) (ht : 0 ≤ t) (hL : (legendre (M+1)).eval p ≠ 0)
    (h : |(qq (M+1)).eval p / (((M:ℝ)+1)*((M:ℝ)+2) * (legendre (M+1)).eval p)| ≤ t) : ∃ z, (qq (M+1)).eval z = 0 ∧ |p - z| ≤ ((M:ℝ)+2)*t := by
  by_cases h0 : (qq (M+1)).eval p = 0
  · exact ⟨p, h0, by rw [sub_self, abs_zero]; positivity⟩
  have hs : (qq (M+1)).Splits := splits_iff_card_roots.2 (by rw [qq_splits, qq_degree])
  have hd := hs.eval_derivative_div_eval_of_ne_zero h0
  have hq : (derivative (qq (M+1))).eval p = ((M:ℝ)+1)*((M:ℝ)+2) * (legendre (M+1)).eval p := by
    rw [qq_der]; simp only [eval_mul, eval_add, eval_natCast, eval_one]; push_cast; ring
  rw [hq] at hd
  have hDne : ((M:ℝ)+1)*((M:ℝ)+2) * (legendre (M+1)).eval p ≠ 0 := mul_ne_zero (by positivity) hL
  by_contra hc
  push_neg at hc
  -- all zeros are farther away
  have htp : 0 < t := by
    rcases ht.lt_or_eq with h1 | h1
    · exact h1
    · rw [← h1] at h
      have := abs_eq_zero.1 (le_antisymm h (abs_nonneg _))
      rw [div_eq_zero_iff] at this
      rcases this with h2 | h2
      · exact absurd h2 h0
      · exact absurd h2 hDne
  have hb : ∀ s : Multiset ℝ, s ⊆ (qq (M+1)).roots → s ≠ 0 → |(s.map fun z => 1/(p - z)).sum| < (Multiset.card s : ℝ) * (1/(((M:ℝ)+2)*t)) := by
    intro s hs hne
    induction s using Multiset.induction_on with
    | empty => exact absurd rfl hne
    | cons a s ih =>
      have hz := hc a ((mem_roots (qq_ne_zero M)).1 (hs (Multiset.mem_cons_self a s)))
      have ha : |1/(p - a)| < 1/(((M:ℝ)+2)*t) := by
        rw [abs_div, abs_one]
        exact one_div_lt_one_div_of_lt (by positivity) hz
      rw [Multiset.map_cons, Multiset.sum_cons, Multiset.card_cons]
      push_cast
      rw [add_mul, one_mul, add_comm ((Multiset.card s : ℝ) * _)]
      refine lt_of_le_of_lt (abs_add_le _ _) ?_
      by_cases hs0 : s = 0
      · subst hs0; simpa using ha
      · exact add_lt_add ha (ih (fun z hz => hs (Multiset.mem_cons_of_mem hz)) hs0)
  have hlt := hb _ (Multiset.Subset.refl _) (fun h => by have := qq_splits M; rw [h] at this; simp at this)
  rw [← hd, qq_splits] at hlt
  have e : ((M + 2 : ℕ) : ℝ) * (1/(((M:ℝ)+2)*t)) = 1/t := by push_cast; field_simp
  rw [e, ← inv_div, abs_inv, inv_eq_one_div] at hlt
  have hpos : 0 < |(qq (M+1)).eval p / (((M:ℝ)+1)*((M:ℝ)+2) * (legendre (M+1)).eval p)| := abs_pos.2 (div_ne_zero h0 hDne)
  have := one_div_le_one_div_of_le hpos h
  linarith

end IFEM.Legendre
