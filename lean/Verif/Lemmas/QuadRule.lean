import Mathlib.Analysis.SpecialFunctions.Integrals.Basic
import Mathlib.Tactic.Positivity
import Mathlib.Tactic.Linarith
import Mathlib.Tactic.IntervalCases
import Verif.Model.Quadrature
import Verif.Spec.Quadrature

/-! # Quadrature rules on an interval: accuracy of the tables, affine change of variables -/
namespace IFEM.Quad
open IFEM.Spec

/-- The moments of `[-1,1]`. -/
def moment (k : Nat) : ℚ := if k % 2 = 0 then 2/(k+1) else 0

theorem moment_eq (k : Nat) : ∫ s in (-1 : ℝ)..1, s^k = (moment k : ℝ) := by
  rw [integral_pow]
  unfold moment
  rcases Nat.even_or_odd k with h | h
  · rw [if_pos (Nat.even_iff.1 h), Odd.neg_one_pow (h.add_one)]
    push_cast; ring
  · rw [if_neg (by rw [Nat.odd_iff.1 h]; decide), Even.neg_one_pow (h.add_one)]
    simp

/-- What is checked about each table, in rational arithmetic. -/
def tableOk (n : Nat) (eps : ℚ) (t : List (List ℚ)) : Bool :=
  match t with
  | [x, w] => x.length == n && w.length == n && (List.range n).all (fun i => decide (|x.getD i 0| ≤ 98/100) && decide (0 < w.getD i 0)) &&
      (List.range (n-1)).all (fun i => decide (x.getD i 0 + 1/100 ≤ x.getD (i+1) 0)) &&
      decide (((List.range n).map fun i => w.getD i 0).sum ≤ 21/10) &&
      (List.range (2*n)).all (fun k => decide (|((List.range n).map fun i => w.getD i 0 * x.getD i 0 ^ k).sum - moment k| ≤ eps))
  | _ => false

theorem ok1 : tableOk 1 (1/10^15) G1 = true := by decide +kernel
theorem ok2 : tableOk 2 (1/10^15) G2 = true := by decide +kernel
theorem ok3 : tableOk 3 (1/10^15) G3 = true := by decide +kernel
theorem ok4 : tableOk 4 (1/10^15) G4 = true := by decide +kernel
theorem ok5 : tableOk 5 (1/10^15) G5 = true := by decide +kernel
theorem ok6 : tableOk 6 (1/10^15) G6 = true := by decide +kernel
theorem ok7 : tableOk 7 (1/10^15) G7 = true := by decide +kernel
theorem ok8 : tableOk 8 (1/10^15) G8 = true := by decide +kernel
theorem ok9 : tableOk 9 (1/10^15) G9 = true := by decide +kernel
theorem ok10 : tableOk 10 (21/10^9) G10 = true := by decide +kernel

theorem list_sum_range {α : Type} [AddCommMonoid α] (n : Nat) (g : Nat → α) : ((List.range n).map g).sum = ∑ i ∈ Finset.range n, g i := by
  induction n with
  | zero => simp
  | succ n ih => rw [List.range_succ, List.map_append, List.sum_append, ih, Finset.sum_range_succ]; simp

theorem pow_bound (u a b : ℝ) (hu : 0 ≤ u) (ha : |a| ≤ u) (hb : |b| ≤ u) (k : Nat) : |(1+a)*(1+b)^k - 1| ≤ (1+u)^(k+1) - 1 := by
  induction k with
  | zero => simpa using ha
  | succ k ih =>
    have e : (1+a)*(1+b)^(k+1) - 1 = ((1+a)*(1+b)^k - 1)*(1+b) + b := by ring
    rw [e]
    have h1 : |1+b| ≤ 1+u := (abs_add_le _ _).trans (by rw [abs_one]; linarith)
    have h0 : 0 ≤ (1+u)^(k+1) - 1 := (abs_nonneg _).trans ih
    calc |((1+a)*(1+b)^k - 1)*(1+b) + b| ≤ |(1+a)*(1+b)^k - 1| * |1+b| + |b| := by rw [← abs_mul]; exact abs_add_le _ _
      _ ≤ ((1+u)^(k+1) - 1)*(1+u) + u := add_le_add (mul_le_mul ih h1 (abs_nonneg _) h0) hb
      _ = (1+u)^(k+1+1) - 1 := by ring

theorem rounds_rel (rd : ℚ → ℝ) (h : Rounds rd) (q : ℚ) : ∃ a : ℝ, |a| ≤ 1/2^53 ∧ rd q = q*(1+a) := by
  by_cases hq : q = 0
  · have := h q
    rw [hq] at this
    refine ⟨0, by norm_num, ?_⟩
    rw [hq]
    simpa using this
  · have hq' : (q : ℝ) ≠ 0 := by exact_mod_cast hq
    refine ⟨(rd q - q)/q, ?_, by field_simp; ring⟩
    rw [abs_div, div_le_iff₀ (abs_pos.2 hq')]
    exact h q

theorem tail_bound (k : Nat) (h : k < 20) : (1 + 1/2^53 : ℝ)^(k+1) - 1 ≤ 3/10^15 := by
  have : (1 + 1/2^53 : ℝ)^(k+1) ≤ (1 + 1/2^53 : ℝ)^20 := pow_le_pow_right₀ (by norm_num) (by omega)
  have h2 : (1 + 1/2^53 : ℝ)^20 ≤ 1 + 3/10^15 := by norm_num
  linarith

theorem getD_map (x : List ℚ) (rd : ℚ → ℝ) (i : Nat) (h : i < x.length) : (x.map rd).getD i 0 = rd (x.getD i 0) := by
  simp [List.getD_eq_getElem?_getD, h]

theorem rule_of_ok (rd : ℚ → ℝ) (hr : Rounds rd) (n : Nat) (hn : n ≤ 10) (eps : ℚ) (δ : ℝ) (hd : (eps : ℝ) + 7/10^15 ≤ δ*2) (x w : List ℚ) (h : tableOk n eps [x, w] = true) :
    GaussRule n δ (x.map rd) (w.map rd) := by
  simp only [tableOk, Bool.and_eq_true, beq_iff_eq, List.all_eq_true, List.mem_range, decide_eq_true_eq, list_sum_range] at h
  obtain ⟨⟨⟨⟨⟨hx, hw⟩, hp⟩, hi⟩, hs⟩, he⟩ := h
  have hx1 : ∀ i, i < n → |rd (x.getD i 0)| < 1 ∧ |rd (x.getD i 0) - x.getD i 0| ≤ 1/10^3 := by
    intro i hin
    have h1 := hr (x.getD i 0)
    have h2 : |((x.getD i 0 : ℚ) : ℝ)| ≤ 98/100 := by have := (Rat.cast_le (K := ℝ)).2 (hp i hin).1; push_cast at this; exact this
    have h3 : |rd (x.getD i 0) - x.getD i 0| ≤ 1/10^3 := h1.trans ((mul_le_mul_of_nonneg_left h2 (by norm_num)).trans (by norm_num))
    refine ⟨?_, h3⟩
    have := abs_add_le (rd (x.getD i 0) - x.getD i 0) (x.getD i 0 : ℝ)
    rw [sub_add_cancel] at this
    linarith
  have hmono : ∀ i j, i < j → j < n → x.getD i 0 + 1/100 ≤ x.getD j 0 := by
    intro i j hij hj
    induction j with
    | zero => omega
    | succ j ih =>
      have h1 := hi j (by omega)
      rcases Nat.lt_or_ge i j with h | h
      · have := ih h (by omega); linarith
      · rw [show i = j by omega]; exact h1
  refine ⟨by simp [hx], by simp [hw], fun i hin => ?_, fun i j hij hj => ?_, fun i hin => ?_, fun k hk => ?_⟩
  · rw [getD_map x rd i (by omega)]; exact abs_lt.1 (hx1 i hin).1
  · rw [getD_map x rd i (by omega), getD_map x rd j (by omega)]
    have h1 := abs_le.1 (hx1 i (by omega)).2
    have h2 := abs_le.1 (hx1 j hj).2
    have h3 : ((x.getD i 0 : ℚ) : ℝ) + 1/100 ≤ ((x.getD j 0 : ℚ) : ℝ) := by have := (Rat.cast_le (K := ℝ)).2 (hmono i j hij hj); push_cast at this; exact this
    linarith [h1.2, h2.1]
  · rw [getD_map w rd i (by omega)]
    obtain ⟨a, ha, e⟩ := rounds_rel rd hr (w.getD i 0)
    rw [e]
    have : (0:ℝ) < ((w.getD i 0 : ℚ) : ℝ) := by exact_mod_cast (hp i hin).2
    have := (abs_le.1 ha).1
    refine mul_pos (by assumption) ?_
    have : (1:ℝ)/2^53 < 1 := by norm_num
    linarith
  · rw [moment_eq]
    have hek : |(∑ i ∈ Finset.range n, ((w.getD i 0 : ℚ) : ℝ) * ((x.getD i 0 : ℚ) : ℝ)^k) - (moment k : ℝ)| ≤ eps := by exact_mod_cast he k hk
    have hsr : (∑ i ∈ Finset.range n, ((w.getD i 0 : ℚ) : ℝ)) ≤ 21/10 := by have := (Rat.cast_le (K := ℝ)).2 hs; push_cast at this; exact this
    have hdiff : |(∑ i ∈ Finset.range n, (w.map rd).getD i 0 * (x.map rd).getD i 0 ^ k) - ∑ i ∈ Finset.range n, ((w.getD i 0 : ℚ) : ℝ) * ((x.getD i 0 : ℚ) : ℝ)^k| ≤
        3/10^15 * (21/10) := by
      rw [← Finset.sum_sub_distrib]
      refine (Finset.abs_sum_le_sum_abs _ _).trans ?_
      refine (Finset.sum_le_sum fun i hi => ?_).trans ((Finset.mul_sum (Finset.range n) (fun i => ((w.getD i 0 : ℚ) : ℝ)) (3/10^15 : ℝ)).symm.le.trans
        (mul_le_mul_of_nonneg_left hsr (by norm_num)))
      rw [Finset.mem_range] at hi
      rw [getD_map x rd i (by omega), getD_map w rd i (by omega)]
      obtain ⟨a, ha, ea⟩ := rounds_rel rd hr (w.getD i 0)
      obtain ⟨b, hb, eb⟩ := rounds_rel rd hr (x.getD i 0)
      rw [ea, eb]
      have hwp : (0:ℝ) < ((w.getD i 0 : ℚ) : ℝ) := by exact_mod_cast (hp i hi).2
      have hxp : |((x.getD i 0 : ℚ) : ℝ)| ≤ 1 := by
        have : |((x.getD i 0 : ℚ) : ℝ)| ≤ 98/100 := by have := (Rat.cast_le (K := ℝ)).2 (hp i hi).1; push_cast at this; exact this
        linarith
      generalize ((w.getD i 0 : ℚ) : ℝ) = W at *
      generalize ((x.getD i 0 : ℚ) : ℝ) = X at *
      have e : W*(1+a)*(X*(1+b))^k - W*X^k = W*X^k*((1+a)*(1+b)^k - 1) := by rw [mul_pow]; ring
      rw [e, abs_mul, abs_mul, abs_of_pos hwp, abs_pow, mul_comm _ W]
      have h1 := (pow_bound _ a b (by norm_num) ha hb k).trans (tail_bound k (by omega))
      calc W*|X|^k*|(1+a)*(1+b)^k - 1| ≤ W*1*(3/10^15) :=
            mul_le_mul (mul_le_mul_of_nonneg_left (pow_le_one₀ (abs_nonneg _) hxp) hwp.le) h1 (abs_nonneg _) (by linarith)
        _ = W*(3/10^15) := by ring
    have := abs_add_le ((∑ i ∈ Finset.range n, (w.map rd).getD i 0 * (x.map rd).getD i 0 ^ k) - ∑ i ∈ Finset.range n, ((w.getD i 0 : ℚ) : ℝ) * ((x.getD i 0 : ℚ) : ℝ)^k)
      ((∑ i ∈ Finset.range n, ((w.getD i 0 : ℚ) : ℝ) * ((x.getD i 0 : ℚ) : ℝ)^k) - (moment k : ℝ))
    rw [sub_add_sub_cancel] at this
    have h7 : (3/10^15 * (21/10) : ℝ) ≤ 7/10^15 := by norm_num
    linarith

end IFEM.Quad
