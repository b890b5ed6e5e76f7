import Verif.Model.Utilities
import Mathlib.Tactic.Ring
import Mathlib.Tactic.Linarith
import Mathlib.Tactic.FieldSimp
import Mathlib.Algebra.BigOperators.Group.Finset.Basic
import Mathlib.Algebra.Field.GeomSum
import Mathlib.Algebra.Order.BigOperators.Group.Finset
import Mathlib.Algebra.Order.BigOperators.Ring.Finset
import Mathlib.Data.Rat.Defs
/-!
# C49: graded knot vectors
-/
namespace IFEM.Props
open Finset

variable {K : Type} [Field K] [LinearOrder K] [IsStrictOrderedRing K]

/-- The partial geometric sum. -/
def geo (alpha : K) (m : Nat) : K := ∑ i ∈ range m, alpha^i

theorem geo_succ (alpha : K) (m : Nat) : geo alpha (m+1) = geo alpha m + alpha^m := sum_range_succ _ _

theorem geo_succ' (alpha : K) (m : Nat) : geo alpha (m+1) = 1 + alpha * geo alpha m := by
  unfold geo
  rw [sum_range_succ', pow_zero, add_comm, mul_sum]
  congr 1
  apply sum_congr rfl
  intro i _
  ring

theorem gradeLoop_get (alpha : K) (n : Nat) (x D : K) (i : Nat) (h : i < n) :
    (gradeLoop alpha n x D)[i]? = some (x + D * geo alpha (i+1)) := by
  induction n generalizing x D i with
  | zero => omega
  | succ n ih =>
    rw [gradeLoop]
    cases i with
    | zero => simp [geo]
    | succ i =>
      rw [List.getElem?_cons_succ, ih _ _ i (by omega), geo_succ' alpha (i+1)]
      congr 1
      ring

theorem gradeLoop_length (alpha : K) (n : Nat) (x D : K) : (gradeLoop alpha n x D).length = n := by
  induction n generalizing x D with
  | zero => rfl
  | succ n ih => rw [gradeLoop, List.length_cons, ih]

theorem geo_pos (alpha : K) (ha : 0 < alpha) (m : Nat) : 0 < geo alpha (m+1) := by
  rw [geo_succ]
  exact add_pos_of_nonneg_of_pos (sum_nonneg fun i _ => le_of_lt (pow_pos ha i)) (pow_pos ha m)

theorem one_sub_pow_ne (alpha : K) (ha : 0 < alpha) (h1 : alpha ≠ 1) (m : Nat) : 1 - alpha^(m+1) ≠ 0 := by
  intro h
  have e : alpha^(m+1) = 1 := by linarith
  exact h1 ((pow_eq_one_iff_of_nonneg (le_of_lt ha) (by omega)).mp e)

theorem gradeStart_spec (xi1 xi2 alpha : K) (ha : 0 < alpha) (ru : Nat) (centred : Bool) :
    gradeStart xi1 xi2 alpha ru centred * geo alpha (ru+1) = (xi2 - xi1) * (if centred then 1/2 else 1) := by
  unfold gradeStart
  generalize (if centred = true then (1/2 : K) else 1) = c
  have key : (if alpha = 1 then 1 / ((ru + 1 : Nat) : K) else (1 - alpha) / (1 - alpha^(ru+1))) * geo alpha (ru+1) = 1 := by
    by_cases h : alpha = 1
    · rw [if_pos h, h]
      have : geo (1 : K) (ru+1) = ((ru + 1 : Nat) : K) := by simp [geo]
      rw [this]
      have h0 : ((ru + 1 : Nat) : K) ≠ 0 := Nat.cast_ne_zero.mpr (by omega)
      field_simp
    · rw [if_neg h]
      have h0 := one_sub_pow_ne alpha ha h ru
      have hg : (1 - alpha) * geo alpha (ru+1) = 1 - alpha^(ru+1) := mul_neg_geom_sum alpha (ru+1)
      rw [div_mul_eq_mul_div, hg, div_self h0]
  rw [mul_assoc ((xi2 - xi1) * c), key, mul_one]

/-- The points `x + D·S(i)` for `0 ≤ i ≤ m`. -/
theorem grid_get (alpha : K) (n : Nat) (x D : K) (i : Nat) (h : i ≤ n) :
    (x :: gradeLoop alpha n x D)[i]? = some (x + D * geo alpha i) := by
  cases i with
  | zero => simp [geo]
  | succ i => rw [List.getElem?_cons_succ, gradeLoop_get _ _ _ _ _ (by omega)]

theorem geo_lt (alpha : K) (ha : 0 < alpha) (i j : Nat) (h : i < j) : geo alpha i < geo alpha j := by
  induction j with
  | zero => omega
  | succ j ih =>
    rw [geo_succ]
    have := pow_pos ha j
    by_cases hij : i = j
    · subst hij; linarith
    · have := ih (by omega); linarith

/-- A grid: strictly increasing values with ratio `alpha` between the lengths of consecutive intervals. -/
def GradedGrid (alpha : K) (P : List K) : Prop :=
  P.Pairwise (· < ·) ∧ ∀ (i : Nat) (a b c : K), P[i]? = some a → P[i+1]? = some b → P[i+2]? = some c → c - b = alpha * (b - a)

theorem graded_of_get (alpha : K) (ha : 0 < alpha) (x D : K) (hD : 0 < D) (P : List K)
    (h : ∀ i, i < P.length → P[i]? = some (x + D * geo alpha i)) : GradedGrid alpha P := by
  constructor
  · rw [List.pairwise_iff_getElem]
    intro i j hi hj hij
    have e1 := h i hi
    have e2 := h j hj
    rw [List.getElem?_eq_getElem hi, Option.some.injEq] at e1
    rw [List.getElem?_eq_getElem hj, Option.some.injEq] at e2
    rw [e1, e2]
    have := mul_lt_mul_of_pos_left (geo_lt alpha ha i j hij) hD
    linarith
  · intro i a b c h1 h2 h3
    have hl : i + 2 < P.length := (List.getElem?_eq_some_iff.mp h3).1
    rw [h i (by omega), Option.some.injEq] at h1
    rw [h (i+1) (by omega), Option.some.injEq] at h2
    rw [h (i+2) hl, Option.some.injEq] at h3
    rw [← h1, ← h2, ← h3, geo_succ alpha (i+1), geo_succ alpha i]
    ring

theorem start_pos (xi1 xi2 alpha : K) (h12 : xi1 < xi2) (ha : 0 < alpha) (ru : Nat) (centred : Bool) : 0 < gradeStart xi1 xi2 alpha ru centred := by
  have hs := gradeStart_spec xi1 xi2 alpha ha ru centred
  have hg := geo_pos alpha ha ru
  have : 0 < (xi2 - xi1) * (if centred then (1/2 : K) else 1) := mul_pos (by linarith) (by split <;> norm_num)
  rw [← hs] at this
  exact (mul_pos_iff_of_pos_right hg).mp this

/-- **C49** (geometric grading). The number of knots requested is generated inside the interval; together with the ends of the interval they form a strictly increasing grid where each
knot span is `alpha` times the previous one, including the last one.  The ends are part of the result unless zero resp. one. -/
theorem C49_geometric (n : Nat) (hn : 1 ≤ n) (alpha xi1 xi2 : K) (ha : 0 < alpha) (h1 : 0 ≤ xi1) (h12 : xi1 < xi2) (h2 : xi2 ≤ 1) :
    ∃ inner, geometricKnots false n alpha xi1 xi2 = some (true, (if xi1 > 0 then [xi1] else []) ++ inner ++ (if xi2 < 1 then [xi2] else [])) ∧
      inner.length = n ∧ GradedGrid alpha ([xi1] ++ inner ++ [xi2]) := by
  refine ⟨gradeLoop alpha n xi1 (gradeStart xi1 xi2 alpha n false), ?_, gradeLoop_length _ _ _ _, ?_⟩
  · unfold geometricKnots
    rw [if_neg (by push Not; exact ⟨h1, h12, h2, hn⟩)]
    simp only [Bool.false_eq_true, false_and, if_false, Option.map_some, Option.some.injEq, Prod.mk.injEq, true_and]
    by_cases h : xi2 < 1
    · simp only [h, if_true]
    · simp only [h, if_false, List.append_nil]
  · have hs := gradeStart_spec xi1 xi2 alpha ha n false
    simp only [Bool.false_eq_true, if_false, mul_one] at hs
    refine graded_of_get alpha ha xi1 _ (start_pos xi1 xi2 alpha h12 ha n false) _ ?_
    intro i hi
    have hl := gradeLoop_length alpha n xi1 (gradeStart xi1 xi2 alpha n false)
    simp only [List.length_append, List.length_cons, List.length_nil, hl] at hi
    rw [List.singleton_append]
    by_cases h : i ≤ n
    · rw [List.getElem?_append_left (by rw [List.length_cons, hl]; omega)]
      exact grid_get _ _ _ _ _ h
    · obtain rfl : i = n + 1 := by omega
      rw [List.getElem?_append_right (by rw [List.length_cons, hl]), List.length_cons, hl, hs]
      simp

example : geometricKnots false 2 (2 : ℚ) 0 1 = some (true, [1/7, 3/7]) := by decide +kernel

/-- The centred knots on the lower half of the interval. -/
theorem C49_aux_mirror (inner : List K) (m xi2 : K) (ru : Nat) (hl : inner.length = ru) :
    ((List.range ru).mapM fun i => ((inner ++ [m])[ru - (i+1)]?).map fun x => xi2 - x + 0) = some (inner.reverse.map fun x => xi2 - x) := by
  have e : ∀ i ∈ List.range ru, ((inner ++ [m])[ru - (i+1)]?).map (fun x => xi2 - x + 0) = some ((inner.reverse.map fun x => xi2 - x).getD i 0) := by
    intro i hi
    rw [List.mem_range] at hi
    rw [List.getElem?_append_left (by omega), List.getD_eq_getElem?_getD, List.getElem?_map, List.getElem?_reverse (by omega), hl,
      show ru - 1 - i = ru - (i+1) by omega, List.getElem?_eq_getElem (by omega)]
    simp
  have h2 : ((List.range ru).mapM fun i => ((inner ++ [m])[ru - (i+1)]?).map fun x => xi2 - x + 0) =
      some ((List.range ru).map fun i => (inner.reverse.map fun x => xi2 - x).getD i 0) := by
    generalize List.range ru = l at e
    induction l with
    | nil => rfl
    | cons a as ih =>
      rw [List.mapM_cons, e a (by simp), ih (fun i hi => e i (List.mem_cons_of_mem _ hi))]
      rfl
  rw [h2]
  congr 1
  apply List.ext_getElem?
  intro i
  rw [List.getElem?_map]
  by_cases hi : i < ru
  · rw [List.getElem?_range hi, Option.map_some, List.getD_eq_getElem?_getD, List.getElem?_eq_getElem (by simp; omega)]
    simp
  · rw [List.getElem?_eq_none (by simp; omega), List.getElem?_eq_none (by simp; omega)]
    rfl

/-- **C49** (centred grading, interval starting at zero). The knots are the graded ones of the lower half of the interval, its midpoint, and their mirror images. -/
theorem C49_centred (n : Nat) (hn : 1 ≤ n) (alpha xi2 : K) (ha : 0 < alpha) (h12 : 0 < xi2) (h2 : xi2 ≤ 1) :
    ∃ lower, geometricKnots true n alpha 0 xi2 = some (true, lower ++ [xi2/2] ++ (lower.reverse.map fun x => xi2 - x) ++ (if xi2 < 1 then [xi2] else [])) ∧
      lower.length = (if n = 1 then 1 else n/2) ∧ GradedGrid alpha ([0] ++ lower ++ [xi2/2]) := by
  have hru : (if true = true ∧ n > 1 then n / 2 else n) = (if n = 1 then 1 else n/2) := by
    by_cases h : n = 1
    · simp [h]
    · simp only [true_and, h, if_false]; rw [if_pos (by omega)]
  generalize hru' : (if n = 1 then 1 else n/2) = ru at hru
  have hs := gradeStart_spec (0 : K) xi2 alpha ha ru true
  have hl := gradeLoop_length alpha ru 0 (gradeStart 0 xi2 alpha ru true)
  refine ⟨gradeLoop alpha ru 0 (gradeStart 0 xi2 alpha ru true), ?_, hl, ?_⟩
  · unfold geometricKnots
    rw [if_neg (by push Not; exact ⟨le_rfl, h12, h2, hn⟩)]
    dsimp only
    rw [hru]
    rw [if_neg (lt_irrefl (0 : K)), List.nil_append]
    have hm := C49_aux_mirror (gradeLoop alpha ru 0 (gradeStart 0 xi2 alpha ru true)) (1/2 * (0 + xi2)) xi2 ru hl
    rw [if_pos rfl, hm]
    simp only [Option.map_some, Option.some.injEq, Prod.mk.injEq, true_and]
    rw [show 1/2 * (0 + xi2) = xi2/2 by ring]
    by_cases h : xi2 < 1
    · simp only [h, if_true]
    · simp only [h, if_false, List.append_nil]
  · refine graded_of_get alpha ha 0 _ (start_pos 0 xi2 alpha h12 ha ru true) _ ?_
    intro i hi
    simp only [List.length_append, List.length_cons, List.length_nil, hl] at hi
    rw [List.singleton_append]
    by_cases h : i ≤ ru
    · rw [List.getElem?_append_left (by rw [List.length_cons, hl]; omega)]
      exact grid_get _ _ _ _ _ h
    · obtain rfl : i = ru + 1 := by omega
      rw [List.getElem?_append_right (by rw [List.length_cons, hl]), List.length_cons, hl, hs]
      simp only [sub_zero, if_true, Nat.sub_self, List.getElem?_cons_zero, Option.some.injEq]
      ring

example : geometricKnots true 4 (2 : ℚ) 0 1 = some (true, [1/14, 3/14, 1/2, 11/14, 13/14]) := by decide +kernel

/-- **C49 fails** (F38) for centred grading of an interval not starting at zero: the mirror images are those of the wrong knots, here the upper end of the interval appears instead of
the mirror image 7/8 of the knot 5/8. -/
theorem C49_counterexample_centred : geometricKnots true 2 (1 : ℚ) (1/2) 1 = some (true, [1/2, 5/8, 3/4, 1]) := by decide +kernel

/-- **C49** (fifth order grading). On the whole interval, the mapping keeps the ends and is symmetric about the midpoint, with the slopes `X2` at the ends and `X1` at the midpoint: the
polynomial divided by its factors there has these values. -/
theorem C49_c5 (X1 X2 y : K) : c5Poly X1 X2 0 1 0 = 0 ∧ c5Poly X1 X2 0 1 1 = 1 ∧ c5Poly X1 X2 0 1 (1 - y) = 1 - c5Poly X1 X2 0 1 y ∧
    (∃ r, c5Poly X1 X2 0 1 y = y * (X2 + y * r)) ∧ (∃ r, c5Poly X1 X2 0 1 (1/2 + y) - 1/2 = y * (X1 + y * r)) := by
  refine ⟨?_, ?_, ?_, ?_, ?_⟩
  · simp [c5Poly]
  · simp only [c5Poly]; ring
  · simp only [c5Poly]; ring
  · refine ⟨((16*X1 + 8*X2 - 24)*y + (-40*X1 - 20*X2 + 60))*y*y + (32*X1 + 18*X2 - 50)*y + (-8*X1 - 7*X2 + 15), ?_⟩
    simp only [c5Poly]; ring
  · refine ⟨y*((16*X1 + 8*X2 - 24)*y*y + (-8*X1-2*X2+10)), ?_⟩
    simp only [c5Poly]; ring

/-- **C49** (fifth order grading): the knots are the images of the uniform grid points, of which there are `nX` inside the interval. -/
theorem C49_c5_knots (nX : Nat) (X1 X2 : K) (hn : 2 ≤ nX) (hodd : nX % 2 = 1) (h1 : 0 < X1) (h1' : X1 < 1) (h2 : 1 < X2) :
    c5Knots nX X1 X2 0 1 = (true, (List.range nX).map fun i => c5Poly X1 X2 0 1 (((i+1 : Nat) : K) / ((nX + 1 : Nat) : K))) := by
  unfold c5Knots
  dsimp only
  rw [if_neg (by push Not; refine ⟨hn, by omega, h1, h1', h2, le_rfl, by simp, le_rfl⟩), if_neg (lt_irrefl _), if_neg (lt_irrefl _)]
  simp only [List.nil_append, List.append_nil, Prod.mk.injEq, true_and]
  apply List.map_congr_left
  intro i _
  rw [sub_zero, Nat.add_comm 1 nX]
  congr 1
  have : ((nX + 1 : Nat) : K) ≠ 0 := Nat.cast_ne_zero.mpr (by omega)
  push_cast at this ⊢
  field_simp
  ring

example : c5Knots 3 (1/2 : ℚ) 2 0 1 = (true, [11/32, 1/2, 21/32]) := by decide +kernel

/-- **C49 fails** (F39) for the fifth order grading of a part of the interval: the polynomial is evaluated at the position in the whole interval, the knots are not symmetric about the
midpoint 3/4, and none of them is in the lower half. -/
theorem C49_counterexample_c5 : (c5Knots 3 (1/2 : ℚ) 2 (1/2) 1).2.tail.all (fun x => decide (x > 3/4)) = true := by decide +kernel

end IFEM.Props
