import Verif.Lemmas.QuadSplit

/-! # Quadrature error over one element -/
namespace IFEM.Quad
open IFEM.Spec MeasureTheory

theorem elm1 {n : Nat} {δ : ℝ} {x w : List ℝ} (h : GaussRule n δ x w) (a b R M : ℝ) (hab : a < b) (ha : |a| ≤ R) (hb : |b| ≤ R) (f : ℝ → ℝ) (c : Nat → ℝ)
    (hf : Has1 (2*n) c f a b) (hM : (∑ k ∈ Finset.range (2*n), |c k| * R^k) ≤ M) (hδ : 0 ≤ δ) :
    |(∑ i ∈ Finset.range n, f (pt x a b i) * (1/2*(b-a) * w.getD i 0)) - ∫ u in a..b, f u| ≤ δ * ((b-a) * M) := by
  rw [hf.int hab.le]
  have e : (∑ i ∈ Finset.range n, f (pt x a b i) * (1/2*(b-a) * w.getD i 0)) =
      ∑ k ∈ Finset.range (2*n), c k * ∑ i ∈ Finset.range n, pt x a b i ^ k * (1/2*(b-a) * w.getD i 0) := by
    simp only [Finset.mul_sum]
    rw [Finset.sum_comm]
    refine Finset.sum_congr rfl fun i hi => ?_
    have hp := pt_inside h a b hab i (Finset.mem_range.1 hi)
    rw [hf _ hp.1 hp.2, Finset.sum_mul]
    exact Finset.sum_congr rfl fun k _ => by ring
  rw [e, ← Finset.sum_sub_distrib]
  refine (Finset.abs_sum_le_sum_abs _ _).trans ?_
  have h1 : ∀ k ∈ Finset.range (2*n), |c k * (∑ i ∈ Finset.range n, pt x a b i ^ k * (1/2*(b-a) * w.getD i 0)) - c k * ∫ u in a..b, u^k| ≤ (δ*(b-a)) * (|c k| * R^k) := by
    intro k hk
    rw [← mul_sub, abs_mul]
    refine (mul_le_mul_of_nonneg_left (mono_close h a b R hab.le ha hb k (Finset.mem_range.1 hk)).err (abs_nonneg _)).trans (le_of_eq (by ring))
  refine (Finset.sum_le_sum h1).trans ?_
  rw [← Finset.mul_sum, ← mul_assoc]
  exact mul_le_mul_of_nonneg_left hM (mul_nonneg hδ (by linarith))

theorem reorder2 (n1 n2 N1 N2 : Nat) (T : Nat → Nat → Nat → Nat → ℝ) :
    (∑ j ∈ Finset.range n2, ∑ i ∈ Finset.range n1, ∑ k ∈ Finset.range N1, ∑ l ∈ Finset.range N2, T j i k l) =
      ∑ k ∈ Finset.range N1, ∑ l ∈ Finset.range N2, ∑ j ∈ Finset.range n2, ∑ i ∈ Finset.range n1, T j i k l := by
  have push : ∀ (N : Nat) (U : Nat → Nat → Nat → ℝ), (∑ j ∈ Finset.range n2, ∑ i ∈ Finset.range n1, ∑ k ∈ Finset.range N, U j i k) =
      ∑ k ∈ Finset.range N, ∑ j ∈ Finset.range n2, ∑ i ∈ Finset.range n1, U j i k := by
    intro N U
    rw [Finset.sum_congr rfl fun j _ => Finset.sum_comm, Finset.sum_comm]
  rw [push]
  refine Finset.sum_congr rfl fun k _ => ?_
  rw [push]

theorem elm2 {n n' : Nat} {δ δ' : ℝ} {x w x' w' : List ℝ} (h : GaussRule n δ x w) (h' : GaussRule n' δ' x' w') (a b a' b' R M : ℝ) (hab : a < b) (ha : |a| ≤ R) (hb : |b| ≤ R)
    (hab' : a' < b') (ha' : |a'| ≤ R) (hb' : |b'| ≤ R) (f : ℝ → ℝ → ℝ) (c : Nat → Nat → ℝ) (hf : Has2 (2*n) (2*n') c f a b a' b')
    (hM : (∑ k ∈ Finset.range (2*n), ∑ l ∈ Finset.range (2*n'), |c k l| * (R^k * R^l)) ≤ M) (hδ : 0 ≤ δ) (hδ' : 0 ≤ δ') :
    |(∑ j ∈ Finset.range n', ∑ i ∈ Finset.range n, f (pt x a b i) (pt x' a' b' j) * (1/4*((b-a)*(b'-a')) * w.getD i 0 * w'.getD j 0)) - ∫ u in a..b, ∫ v in a'..b', f u v| ≤
      ((1+δ)*(1+δ') - 1) * ((b-a)*(b'-a') * M) := by
  rw [hf.int hab.le hab'.le]
  have e : (∑ j ∈ Finset.range n', ∑ i ∈ Finset.range n, f (pt x a b i) (pt x' a' b' j) * (1/4*((b-a)*(b'-a')) * w.getD i 0 * w'.getD j 0)) =
      ∑ k ∈ Finset.range (2*n), ∑ l ∈ Finset.range (2*n'), c k l * ((∑ i ∈ Finset.range n, pt x a b i ^ k * (1/2*(b-a) * w.getD i 0)) *
        ∑ j ∈ Finset.range n', pt x' a' b' j ^ l * (1/2*(b'-a') * w'.getD j 0)) := by
    have e1 : ∀ j ∈ Finset.range n', ∀ i ∈ Finset.range n, f (pt x a b i) (pt x' a' b' j) * (1/4*((b-a)*(b'-a')) * w.getD i 0 * w'.getD j 0) =
        ∑ k ∈ Finset.range (2*n), ∑ l ∈ Finset.range (2*n'), c k l * ((pt x a b i ^ k * (1/2*(b-a) * w.getD i 0)) * (pt x' a' b' j ^ l * (1/2*(b'-a') * w'.getD j 0))) := by
      intro j hj i hi
      have hp := pt_inside h a b hab i (Finset.mem_range.1 hi)
      have hp' := pt_inside h' a' b' hab' j (Finset.mem_range.1 hj)
      rw [hf _ _ hp.1 hp.2 hp'.1 hp'.2, Finset.sum_mul]
      refine Finset.sum_congr rfl fun k _ => ?_
      rw [Finset.sum_mul]
      exact Finset.sum_congr rfl fun l _ => by ring
    rw [Finset.sum_congr rfl fun j hj => Finset.sum_congr rfl fun i hi => e1 j hj i hi]
    rw [reorder2]
    refine Finset.sum_congr rfl fun k _ => Finset.sum_congr rfl fun l _ => ?_
    rw [Finset.mul_sum, Finset.mul_sum]
    refine Finset.sum_congr rfl fun j _ => ?_
    rw [Finset.sum_mul, Finset.mul_sum]
  rw [e, ← Finset.sum_sub_distrib]
  simp only [← Finset.sum_sub_distrib]
  refine (Finset.abs_sum_le_sum_abs _ _).trans ?_
  have h1 : ∀ k ∈ Finset.range (2*n), |∑ l ∈ Finset.range (2*n'), (c k l * ((∑ i ∈ Finset.range n, pt x a b i ^ k * (1/2*(b-a) * w.getD i 0)) *
        ∑ j ∈ Finset.range n', pt x' a' b' j ^ l * (1/2*(b'-a') * w'.getD j 0)) - c k l * ((∫ u in a..b, u^k) * ∫ v in a'..b', v^l))| ≤
        (((1+δ)*(1+δ') - 1)*((b-a)*(b'-a'))) * ∑ l ∈ Finset.range (2*n'), |c k l| * (R^k * R^l) := by
    intro k hk
    refine (Finset.abs_sum_le_sum_abs _ _).trans ?_
    rw [Finset.mul_sum]
    refine Finset.sum_le_sum fun l hl => ?_
    rw [← mul_sub, abs_mul]
    refine (mul_le_mul_of_nonneg_left ((mono_close h a b R hab.le ha hb k (Finset.mem_range.1 hk)).mul
      (mono_close h' a' b' R hab'.le ha' hb' l (Finset.mem_range.1 hl))).err (abs_nonneg _)).trans (le_of_eq (by ring))
  refine (Finset.sum_le_sum h1).trans ?_
  rw [← Finset.mul_sum]
  refine (mul_le_mul_of_nonneg_left hM (mul_nonneg ?_ (mul_nonneg (by linarith) (by linarith)))).trans (le_of_eq (by ring))
  nlinarith [mul_nonneg hδ hδ']

theorem reorder3 (n1 n2 n3 N1 N2 N3 : Nat) (T : Nat → Nat → Nat → Nat → Nat → Nat → ℝ) :
    (∑ r ∈ Finset.range n3, ∑ j ∈ Finset.range n2, ∑ i ∈ Finset.range n1, ∑ k ∈ Finset.range N1, ∑ l ∈ Finset.range N2, ∑ m ∈ Finset.range N3, T r j i k l m) =
      ∑ k ∈ Finset.range N1, ∑ l ∈ Finset.range N2, ∑ m ∈ Finset.range N3, ∑ r ∈ Finset.range n3, ∑ j ∈ Finset.range n2, ∑ i ∈ Finset.range n1, T r j i k l m := by
  have push : ∀ (N : Nat) (U : Nat → Nat → Nat → Nat → ℝ), (∑ r ∈ Finset.range n3, ∑ j ∈ Finset.range n2, ∑ i ∈ Finset.range n1, ∑ k ∈ Finset.range N, U r j i k) =
      ∑ k ∈ Finset.range N, ∑ r ∈ Finset.range n3, ∑ j ∈ Finset.range n2, ∑ i ∈ Finset.range n1, U r j i k := by
    intro N U
    rw [Finset.sum_congr rfl fun r _ => Finset.sum_congr rfl fun j _ => Finset.sum_comm, Finset.sum_congr rfl fun r _ => Finset.sum_comm, Finset.sum_comm]
  rw [push]
  refine Finset.sum_congr rfl fun k _ => ?_
  rw [push]
  refine Finset.sum_congr rfl fun l _ => ?_
  rw [push]

theorem elm3 {n1 n2 n3 : Nat} {δ1 δ2 δ3 : ℝ} {x1 w1 x2 w2 x3 w3 : List ℝ} (h1 : GaussRule n1 δ1 x1 w1) (h2 : GaussRule n2 δ2 x2 w2) (h3 : GaussRule n3 δ3 x3 w3)
    (a1 b1 a2 b2 a3 b3 R M : ℝ) (hab1 : a1 < b1) (ha1 : |a1| ≤ R) (hb1 : |b1| ≤ R) (hab2 : a2 < b2) (ha2 : |a2| ≤ R) (hb2 : |b2| ≤ R)
    (hab3 : a3 < b3) (ha3 : |a3| ≤ R) (hb3 : |b3| ≤ R) (f : ℝ → ℝ → ℝ → ℝ) (c : Nat → Nat → Nat → ℝ) (hf : Has3 (2*n1) (2*n2) (2*n3) c f a1 b1 a2 b2 a3 b3)
    (hM : (∑ k ∈ Finset.range (2*n1), ∑ l ∈ Finset.range (2*n2), ∑ m ∈ Finset.range (2*n3), |c k l m| * (R^k * R^l * R^m)) ≤ M)
    (hd1 : 0 ≤ δ1) (hd2 : 0 ≤ δ2) (hd3 : 0 ≤ δ3) :
    |(∑ r ∈ Finset.range n3, ∑ j ∈ Finset.range n2, ∑ i ∈ Finset.range n1, f (pt x1 a1 b1 i) (pt x2 a2 b2 j) (pt x3 a3 b3 r) *
        (1/8*((b1-a1)*(b2-a2)*(b3-a3)) * w1.getD i 0 * w2.getD j 0 * w3.getD r 0)) - ∫ u in a1..b1, ∫ v in a2..b2, ∫ w in a3..b3, f u v w| ≤
      ((1+δ1)*(1+δ2)*(1+δ3) - 1) * ((b1-a1)*(b2-a2)*(b3-a3) * M) := by
  rw [hf.int hab1.le hab2.le hab3.le]
  have e : (∑ r ∈ Finset.range n3, ∑ j ∈ Finset.range n2, ∑ i ∈ Finset.range n1, f (pt x1 a1 b1 i) (pt x2 a2 b2 j) (pt x3 a3 b3 r) *
        (1/8*((b1-a1)*(b2-a2)*(b3-a3)) * w1.getD i 0 * w2.getD j 0 * w3.getD r 0)) =
      ∑ k ∈ Finset.range (2*n1), ∑ l ∈ Finset.range (2*n2), ∑ m ∈ Finset.range (2*n3), c k l m * ((∑ i ∈ Finset.range n1, pt x1 a1 b1 i ^ k * (1/2*(b1-a1) * w1.getD i 0)) *
        (∑ j ∈ Finset.range n2, pt x2 a2 b2 j ^ l * (1/2*(b2-a2) * w2.getD j 0)) * ∑ r ∈ Finset.range n3, pt x3 a3 b3 r ^ m * (1/2*(b3-a3) * w3.getD r 0)) := by
    have e1 : ∀ r ∈ Finset.range n3, ∀ j ∈ Finset.range n2, ∀ i ∈ Finset.range n1, f (pt x1 a1 b1 i) (pt x2 a2 b2 j) (pt x3 a3 b3 r) *
        (1/8*((b1-a1)*(b2-a2)*(b3-a3)) * w1.getD i 0 * w2.getD j 0 * w3.getD r 0) =
        ∑ k ∈ Finset.range (2*n1), ∑ l ∈ Finset.range (2*n2), ∑ m ∈ Finset.range (2*n3), c k l m * ((pt x1 a1 b1 i ^ k * (1/2*(b1-a1) * w1.getD i 0)) *
          (pt x2 a2 b2 j ^ l * (1/2*(b2-a2) * w2.getD j 0)) * (pt x3 a3 b3 r ^ m * (1/2*(b3-a3) * w3.getD r 0))) := by
      intro r hr j hj i hi
      have hp1 := pt_inside h1 a1 b1 hab1 i (Finset.mem_range.1 hi)
      have hp2 := pt_inside h2 a2 b2 hab2 j (Finset.mem_range.1 hj)
      have hp3 := pt_inside h3 a3 b3 hab3 r (Finset.mem_range.1 hr)
      rw [hf _ _ _ hp1.1 hp1.2 hp2.1 hp2.2 hp3.1 hp3.2, Finset.sum_mul]
      refine Finset.sum_congr rfl fun k _ => ?_
      rw [Finset.sum_mul]
      refine Finset.sum_congr rfl fun l _ => ?_
      rw [Finset.sum_mul]
      exact Finset.sum_congr rfl fun m _ => by ring
    rw [Finset.sum_congr rfl fun r hr => Finset.sum_congr rfl fun j hj => Finset.sum_congr rfl fun i hi => e1 r hr j hj i hi, reorder3]
    refine Finset.sum_congr rfl fun k _ => Finset.sum_congr rfl fun l _ => Finset.sum_congr rfl fun m _ => ?_
    rw [Finset.sum_mul_sum, Finset.mul_sum, Finset.mul_sum]
    refine Finset.sum_congr rfl fun r _ => ?_
    rw [Finset.sum_comm, Finset.sum_mul, Finset.mul_sum]
    refine Finset.sum_congr rfl fun i _ => ?_
    rw [Finset.sum_mul, Finset.mul_sum]
  rw [e]
  simp only [← Finset.sum_sub_distrib]
  have h1 : ∀ k ∈ Finset.range (2*n1), ∀ l ∈ Finset.range (2*n2), ∀ m ∈ Finset.range (2*n3),
      |c k l m * ((∑ i ∈ Finset.range n1, pt x1 a1 b1 i ^ k * (1/2*(b1-a1) * w1.getD i 0)) *
        (∑ j ∈ Finset.range n2, pt x2 a2 b2 j ^ l * (1/2*(b2-a2) * w2.getD j 0)) * ∑ r ∈ Finset.range n3, pt x3 a3 b3 r ^ m * (1/2*(b3-a3) * w3.getD r 0)) -
        c k l m * ((∫ u in a1..b1, u^k) * (∫ v in a2..b2, v^l) * ∫ w in a3..b3, w^m)| ≤
      (((1+δ1)*(1+δ2)*(1+δ3) - 1)*((b1-a1)*(b2-a2)*(b3-a3))) * (|c k l m| * (R^k * R^l * R^m)) := by
    intro k hk l hl m hm
    rw [← mul_sub, abs_mul]
    refine (mul_le_mul_of_nonneg_left (((mono_close h1 a1 b1 R hab1.le ha1 hb1 k (Finset.mem_range.1 hk)).mul
      (mono_close h2 a2 b2 R hab2.le ha2 hb2 l (Finset.mem_range.1 hl))).mul (mono_close h3 a3 b3 R hab3.le ha3 hb3 m (Finset.mem_range.1 hm))).err (abs_nonneg _)).trans (le_of_eq (by ring))
  refine (Finset.abs_sum_le_sum_abs _ _).trans ((Finset.sum_le_sum fun k hk => (Finset.abs_sum_le_sum_abs _ _).trans
    (Finset.sum_le_sum fun l hl => (Finset.abs_sum_le_sum_abs _ _).trans (Finset.sum_le_sum fun m hm => h1 k hk l hl m hm))).trans ?_)
  simp only [← Finset.mul_sum]
  refine (mul_le_mul_of_nonneg_left hM (mul_nonneg ?_ (mul_nonneg (mul_nonneg (by linarith) (by linarith)) (by linarith)))).trans (le_of_eq (by ring))
  have : 1 ≤ (1+δ1)*(1+δ2) := by nlinarith [mul_nonneg hd1 hd2]
  nlinarith

end IFEM.Quad
