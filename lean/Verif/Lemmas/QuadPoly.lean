import Verif.Lemmas.QuadRule
import Mathlib.Data.Nat.Choose.Sum
import Mathlib.Tactic.LinearCombination

/-! # Quadrature of polynomials over an interval, a rectangle and a box -/
namespace IFEM.Quad
open IFEM.Spec MeasureTheory

/-- The integration point `i` on the interval from `a` to `b`. -/
noncomputable def pt (x : List ℝ) (a b : ℝ) (i : Nat) : ℝ := 1/2 * ((b - a)*x.getD i 0 + b + a)

theorem pt_inside {n : Nat} {δ : ℝ} {x w : List ℝ} (h : GaussRule n δ x w) (a b : ℝ) (hab : a < b) (i : Nat) (hi : i < n) : a < pt x a b i ∧ pt x a b i < b := by
  obtain ⟨h1, h2⟩ := h.inside i hi
  unfold pt
  constructor <;> nlinarith

theorem half_bound (a b R : ℝ) (ha : |a| ≤ R) (hb : |b| ≤ R) (hab : a ≤ b) : |(b+a)/2| + |(b-a)/2| ≤ R := by
  rw [abs_of_nonneg (show 0 ≤ (b-a)/2 by linarith)]
  have := abs_le.1 ha
  have := abs_le.1 hb
  rcases abs_cases ((b+a)/2) with h | h <;> linarith

theorem mono_error {n : Nat} {δ : ℝ} {x w : List ℝ} (h : GaussRule n δ x w) (a b R : ℝ) (hab : a ≤ b) (ha : |a| ≤ R) (hb : |b| ≤ R) (k : Nat) (hk : k < 2*n) :
    |(∑ i ∈ Finset.range n, pt x a b i ^ k * (1/2*(b-a) * w.getD i 0)) - ∫ u in a..b, u^k| ≤ δ * ((b-a) * R^k) := by
  have hsub : ∫ u in a..b, u^k = (b-a)/2 * ∫ s in (-1:ℝ)..1, ((b+a)/2 + (b-a)/2*s)^k := by
    have := intervalIntegral.mul_integral_comp_add_mul (f := fun u : ℝ => u^k) ((b-a)/2) ((b+a)/2) (a := -1) (b := 1)
    rw [this]
    congr 1 <;> ring
  have hexp : ∀ s : ℝ, ((b+a)/2 + (b-a)/2*s)^k = ∑ j ∈ Finset.range (k+1), (k.choose j * ((b+a)/2)^(k-j) * ((b-a)/2)^j) * s^j := by
    intro s
    rw [add_comm, add_pow]
    refine Finset.sum_congr rfl fun j _ => ?_
    rw [mul_pow]; ring
  have hI : ∫ s in (-1:ℝ)..1, ((b+a)/2 + (b-a)/2*s)^k =
      ∑ j ∈ Finset.range (k+1), (k.choose j * ((b+a)/2)^(k-j) * ((b-a)/2)^j) * ∫ s in (-1:ℝ)..1, s^j := by
    simp only [hexp]
    refine (intervalIntegral.integral_finset_sum (fun j _ => Continuous.intervalIntegrable (by fun_prop) _ _)).trans ?_
    exact Finset.sum_congr rfl fun j _ => intervalIntegral.integral_const_mul _ _
  have hQ : (∑ i ∈ Finset.range n, pt x a b i ^ k * (1/2*(b-a) * w.getD i 0)) =
      (b-a)/2 * ∑ j ∈ Finset.range (k+1), (k.choose j * ((b+a)/2)^(k-j) * ((b-a)/2)^j) * ∑ i ∈ Finset.range n, w.getD i 0 * x.getD i 0 ^ j := by
    simp only [Finset.mul_sum]
    rw [Finset.sum_comm]
    refine Finset.sum_congr rfl fun i _ => ?_
    have e : pt x a b i = (b+a)/2 + (b-a)/2*x.getD i 0 := by unfold pt; ring
    rw [e, hexp, Finset.sum_mul]
    exact Finset.sum_congr rfl fun j _ => by ring
  have hδ : 0 ≤ δ := by
    have := (abs_nonneg _).trans (h.exact k hk)
    linarith
  rw [hQ, hsub, hI, ← mul_sub, ← Finset.sum_sub_distrib, abs_mul, abs_of_nonneg (show 0 ≤ (b-a)/2 by linarith)]
  have hs : |∑ j ∈ Finset.range (k+1), ((k.choose j * ((b+a)/2)^(k-j) * ((b-a)/2)^j) * (∑ i ∈ Finset.range n, w.getD i 0 * x.getD i 0 ^ j) -
      (k.choose j * ((b+a)/2)^(k-j) * ((b-a)/2)^j) * ∫ s in (-1:ℝ)..1, s^j)| ≤ δ*2 * R^k := by
    refine (Finset.abs_sum_le_sum_abs _ _).trans ?_
    have h1 : ∀ j ∈ Finset.range (k+1), |(k.choose j * ((b+a)/2)^(k-j) * ((b-a)/2)^j) * (∑ i ∈ Finset.range n, w.getD i 0 * x.getD i 0 ^ j) -
        (k.choose j * ((b+a)/2)^(k-j) * ((b-a)/2)^j) * ∫ s in (-1:ℝ)..1, s^j| ≤ (|(b-a)/2|^j * |(b+a)/2|^(k-j) * k.choose j) * (δ*2) := by
      intro j hj
      rw [Finset.mem_range] at hj
      rw [← mul_sub, abs_mul, abs_mul, abs_mul, abs_pow, abs_pow, Nat.abs_cast, show |(b-a)/2|^j * |(b+a)/2|^(k-j) * (k.choose j : ℝ) =
        k.choose j * |(b+a)/2|^(k-j) * |(b-a)/2|^j by ring]
      exact mul_le_mul_of_nonneg_left (h.exact j (by omega)) (by positivity)
    refine (Finset.sum_le_sum h1).trans ?_
    rw [← Finset.sum_mul, ← add_pow, mul_comm]
    refine mul_le_mul_of_nonneg_left (pow_le_pow_left₀ (by positivity) ?_ k) (by linarith)
    rw [add_comm]; exact half_bound a b R ha hb hab
  calc (b-a)/2 * _ ≤ (b-a)/2 * (δ*2 * R^k) := mul_le_mul_of_nonneg_left hs (by linarith)
    _ = δ * ((b-a) * R^k) := by ring

theorem mono_size (a b R : ℝ) (hab : a ≤ b) (ha : |a| ≤ R) (hb : |b| ≤ R) (k : Nat) : |∫ u in a..b, u^k| ≤ (b-a) * R^k := by
  have := intervalIntegral.norm_integral_le_of_norm_le_const (a := a) (b := b) (f := fun u : ℝ => u^k) (C := R^k) (fun u hu => ?_)
  · rw [Real.norm_eq_abs, abs_of_nonneg (show 0 ≤ b - a by linarith)] at this
    linarith
  · rw [Set.uIoc_of_le hab] at hu
    rw [Real.norm_eq_abs, abs_pow]
    refine pow_le_pow_left₀ (abs_nonneg _) ?_ k
    rw [abs_le] at ha hb ⊢
    constructor <;> linarith [hu.1, hu.2]

/-- `Q` approximates `I`, of size at most `A`, with a relative error of at most `δ`. -/
structure Close (δ A Q I : ℝ) : Prop where
  err : |Q - I| ≤ δ*A
  size : |I| ≤ A

theorem Close.mul {δ1 δ2 A1 A2 Q1 Q2 I1 I2 : ℝ} (h1 : Close δ1 A1 Q1 I1) (h2 : Close δ2 A2 Q2 I2) : Close ((1+δ1)*(1+δ2) - 1) (A1*A2) (Q1*Q2) (I1*I2) := by
  have hA1 : 0 ≤ A1 := (abs_nonneg _).trans h1.size
  have hA2 : 0 ≤ A2 := (abs_nonneg _).trans h2.size
  refine ⟨?_, by rw [abs_mul]; exact mul_le_mul h1.size h2.size (abs_nonneg _) hA1⟩
  have hQ2 : |Q2| ≤ A2 + δ2*A2 := by
    have := abs_add_le I2 (Q2 - I2)
    rw [add_sub_cancel] at this
    linarith [h2.err, h2.size]
  have e : Q1*Q2 - I1*I2 = (Q1 - I1)*Q2 + I1*(Q2 - I2) := by ring
  rw [e]
  calc |(Q1 - I1)*Q2 + I1*(Q2 - I2)| ≤ |Q1 - I1| * |Q2| + |I1| * |Q2 - I2| := by rw [← abs_mul, ← abs_mul]; exact abs_add_le _ _
    _ ≤ (δ1*A1) * (A2 + δ2*A2) + A1 * (δ2*A2) :=
        add_le_add (mul_le_mul h1.err hQ2 (abs_nonneg _) ((abs_nonneg _).trans h1.err)) (mul_le_mul h1.size h2.err (abs_nonneg _) hA1)
    _ = ((1+δ1)*(1+δ2) - 1)*(A1*A2) := by ring

theorem mono_close {n : Nat} {δ : ℝ} {x w : List ℝ} (h : GaussRule n δ x w) (a b R : ℝ) (hab : a ≤ b) (ha : |a| ≤ R) (hb : |b| ≤ R) (k : Nat) (hk : k < 2*n) :
    Close δ ((b-a) * R^k) (∑ i ∈ Finset.range n, pt x a b i ^ k * (1/2*(b-a) * w.getD i 0)) (∫ u in a..b, u^k) :=
  ⟨mono_error h a b R hab ha hb k hk, mono_size a b R hab ha hb k⟩

end IFEM.Quad
