import Verif.Lemmas.QuadLoop

/-! # The element loops of volumes -/
namespace IFEM.Quad
open IFEM.Spec IFEM.Topo IFEM.Lag IFEM.Props

noncomputable def elmSum3 (f : ℝ → ℝ → ℝ → ℝ) (ng1 ng2 ng3 : Nat) (x1 w1 x2 w2 x3 w3 : List ℝ) (a1 b1 a2 b2 a3 b3 : ℝ) : ℝ :=
  ∑ r ∈ Finset.range ng3, ∑ j ∈ Finset.range ng2, ∑ i ∈ Finset.range ng1, f (pt x1 a1 b1 i) (pt x2 a2 b2 j) (pt x3 a3 b3 r) *
        (1/8*((b1-a1)*(b2-a2)*(b3-a3)) * w1.getD i 0 * w2.getD j 0 * w3.getD r 0)

theorem grid3_last (n1 n2 p1 p2 p3 i j k : Nat) (h1 : 0 < p1) (h2 : 0 < p2) (h3 : 0 < p3) :
    ((List.range p3).flatMap fun c => (List.range p2).flatMap fun b => (List.range p1).map fun a => gridNode3 n1 n2 (i+a) (j+b) (k+c))[p1*p2*p3-1]? =
      some (gridNode3 n1 n2 (p1-1+i) (p2-1+j) (p3-1+k)) := by
  have hin : ∀ c, ((List.range p2).flatMap fun b => (List.range p1).map fun a => gridNode3 n1 n2 (i+a) (j+b) (k+c)).length = p2*p1 :=
    fun c => flatMap_range_length _ p1 _ (fun _ _ => by simp)
  have h12 : 0 < p2*p1 := Nat.mul_pos h2 h1
  have := flatMap_range_get (fun c => (List.range p2).flatMap fun b => (List.range p1).map fun a => gridNode3 n1 n2 (i+a) (j+b) (k+c)) (p2*p1) p3
    (fun c _ => hin c) (p3-1) (p2*p1-1) (by omega) (by omega)
  have e : (p3-1)*(p2*p1) + (p2*p1-1) = p1*p2*p3-1 := by
    obtain ⟨q, rfl⟩ : ∃ q, p3 = q+1 := ⟨p3-1, by omega⟩
    rw [Nat.add_sub_cancel, Nat.mul_add, Nat.mul_comm q, Nat.mul_comm p1 p2]; omega
  rw [e] at this
  rw [this]
  have h2' := flatMap_range_get (fun b => (List.range p1).map fun a => gridNode3 n1 n2 (i+a) (j+b) (k+(p3-1))) p1 p2 (fun _ _ => by simp) (p2-1) (p1-1) (by omega) (by omega)
  have e2 : (p2-1)*p1 + (p1-1) = p2*p1-1 := by
    obtain ⟨q, rfl⟩ : ∃ q, p2 = q+1 := ⟨p2-1, by omega⟩
    rw [Nat.add_sub_cancel, Nat.add_mul]; omega
  rw [e2] at h2'
  rw [h2', List.getElem?_map, List.getElem?_range (by omega)]
  simp [Nat.add_comm]

theorem idx3 (m1 m2 i j k : Nat) (hi : i < m1) (hj : j < m2) :
    (i + m1*(j + m2*k)) % m1 = i ∧ ((i + m1*(j + m2*k)) / m1) % m2 = j ∧ (i + m1*(j + m2*k)) / (m1*m2) = k := by
  have d : (i + m1*(j + m2*k)) / m1 = j + m2*k := by rw [Nat.add_mul_div_left _ _ (by omega), Nat.div_eq_of_lt hi, Nat.zero_add]
  refine ⟨by rw [Nat.add_mul_mod_self_left, Nat.mod_eq_of_lt hi], by rw [d, Nat.add_mul_mod_self_left, Nat.mod_eq_of_lt hj], ?_⟩
  rw [← Nat.div_div_eq_div_mul, d, Nat.add_mul_div_left _ _ (by omega), Nat.div_eq_of_lt hj, Nat.zero_add]

theorem idx3_inv (m1 m2 e : Nat) : e % m1 + m1*((e/m1) % m2 + m2*(e/(m1*m2))) = e := by
  rw [← Nat.div_div_eq_div_mul, Nat.mod_add_div, Nat.mod_add_div]

theorem elmInt3_spec (f : ℝ → ℝ → ℝ → ℝ) (n1 n2 n3 p1 p2 p3 : Nat) (hp1 : 0 < p1) (hn1 : p1 ≤ n1) (hp2 : 0 < p2) (hn2 : p2 ≤ n2) (hp3 : 0 < p3) (hn3 : p3 ≤ n3)
    (t1 t2 t3 : Nat → ℝ) (ng1 ng2 ng3 : Nat) (x1 w1 x2 w2 x3 w3 : List ℝ) (hw1 : ng1 ≤ w1.length) (hw2 : ng2 ≤ w2.length) (hw3 : ng3 ≤ w3.length) (s : ℝ) (i j k : Nat)
    (hi : i < n1-p1+1) (hj : j < n2-p2+1) (hk : k < n3-p3+1) :
    elmInt3 f n1 n2 p1 p2 p3 ng1 ng2 ng3 (knotList t1 (n1+p1)) (knotList t2 (n2+p2)) (knotList t3 (n3+p3)) w1 w2 w3
      (gpars ng1 x1 t1 n1 p1) (gpars ng2 x2 t2 n2 p2) (gpars ng3 x3 t3 n3 p3)
      (splineMNPC3 n1 n2 n3 p1 p2 p3 (spansOf (knotList t1 (n1+p1))) (spansOf (knotList t2 (n2+p2))) (spansOf (knotList t3 (n3+p3)))) s (i + (n1-p1+1)*(j + (n2-p2+1)*k)) =
      some (s + if t1 (p1-1+i) < t1 (p1-1+i+1) ∧ t2 (p2-1+j) < t2 (p2-1+j+1) ∧ t3 (p3-1+k) < t3 (p3-1+k+1) then
        elmSum3 f ng1 ng2 ng3 x1 w1 x2 w2 x3 w3 (t1 (p1-1+i)) (t1 (p1-1+i+1)) (t2 (p2-1+j)) (t2 (p2-1+j+1)) (t3 (p3-1+k)) (t3 (p3-1+k+1)) else 0) := by
  unfold elmInt3 parametricVolume
  rw [(C55_volume n1 n2 n3 p1 p2 p3 hp1 hp2 hp3 hn1 hn2 hn3 _ _ _).2 i j k (by omega) (by omega) (by omega), show i+p1-1 = p1-1+i by omega, show j+p2-1 = p2-1+j by omega,
    show k+p3-1 = p3-1+k by omega, isSpan_spansOf t1 _ _ (by omega), isSpan_spansOf t2 _ _ (by omega), isSpan_spansOf t3 _ _ (by omega)]
  simp only [Option.bind_eq_bind, Option.bind_some]
  by_cases h : t1 (p1-1+i) < t1 (p1-1+i+1) ∧ t2 (p2-1+j) < t2 (p2-1+j+1) ∧ t3 (p3-1+k) < t3 (p3-1+k+1)
  · have hne : ((List.range p3).flatMap fun c => (List.range p2).flatMap fun b => (List.range p1).map fun a => gridNode3 n1 n2 (i+a) (j+b) (k+c)).isEmpty = false := by
      rw [List.isEmpty_eq_false_iff]
      intro hc
      have := congrArg List.length hc
      rw [flatMap_range_length _ (p2*p1) _ (fun _ _ => flatMap_range_length _ p1 _ (fun _ _ => by simp))] at this
      simp at this
      omega
    have hcond : (decide (t1 (p1-1+i) < t1 (p1-1+i+1)) && decide (t2 (p2-1+j) < t2 (p2-1+j+1)) && decide (t3 (p3-1+k) < t3 (p3-1+k+1))) = true := by simp [h]
    obtain ⟨em, ed, et⟩ := idx3 (n1-p1+1) (n2-p2+1) i j k hi hj
    obtain ⟨gm, gd, gt⟩ : gridNode3 n1 n2 (p1-1+i) (p2-1+j) (p3-1+k) % n1 = p1-1+i ∧ (gridNode3 n1 n2 (p1-1+i) (p2-1+j) (p3-1+k) / n1) % n2 = p2-1+j ∧
        gridNode3 n1 n2 (p1-1+i) (p2-1+j) (p3-1+k) / (n1*n2) = p3-1+k := idx3 n1 n2 (p1-1+i) (p2-1+j) (p3-1+k) (by omega) (by omega)
    rw [hcond, if_pos h]
    simp only [if_true, hne, Bool.false_eq_true, if_false]
    rw [grid3_last n1 n2 p1 p2 p3 i j k hp1 hp2 hp3, em, ed, et]
    simp only [Option.bind_some]
    rw [gm, gd, gt, knotSpan_spec t1 _ _ (by omega), knotSpan_spec t2 _ _ (by omega), knotSpan_spec t3 _ _ (by omega)]
    simp only [Option.bind_some]
    rw [if_neg (by have := mul_pos (mul_pos (sub_pos.2 h.1) (sub_pos.2 h.2.1)) (sub_pos.2 h.2.2); linarith), show p1+i-p1 = i by omega, show p2+j-p2 = j by omega,
      show p3+k-p3 = k by omega]
    refine foldlM_range_sum _ _ ng3 s fun s k' hk' => ?_
    refine foldlM_range_sum _ _ ng2 s fun s j' hj' => ?_
    refine foldlM_range_sum _ _ ng1 s fun s i' hi' => ?_
    unfold pointInt3 getParam
    rw [gpars_get ng1 x1 t1 n1 p1 i i' hi hi', gpars_get ng2 x2 t2 n2 p2 j j' hj hj', gpars_get ng3 x3 t3 n3 p3 k k' hk hk', getElem?_getD w1 i' (by omega),
      getElem?_getD w2 j' (by omega), getElem?_getD w3 k' (by omega)]
    rfl
  · have hcond : (decide (t1 (p1-1+i) < t1 (p1-1+i+1)) && decide (t2 (p2-1+j) < t2 (p2-1+j+1)) && decide (t3 (p3-1+k) < t3 (p3-1+k+1))) = false := by
      rw [← Bool.not_eq_true]
      intro hc
      simp only [Bool.and_eq_true, decide_eq_true_eq] at hc
      exact h ⟨hc.1.1, hc.1.2, hc.2⟩
    rw [hcond, if_neg h]
    simp

theorem rev3 {K : Type} [AddCommMonoid K] (a b c : Nat) (T : Nat → Nat → Nat → K) : (∑ k ∈ Finset.range c, ∑ j ∈ Finset.range b, ∑ i ∈ Finset.range a, T k j i) =
    ∑ i ∈ Finset.range a, ∑ j ∈ Finset.range b, ∑ k ∈ Finset.range c, T k j i := by
  rw [Finset.sum_congr rfl fun k _ => Finset.sum_comm, Finset.sum_comm]
  exact Finset.sum_congr rfl fun i _ => Finset.sum_comm

theorem integrate3_spec (f : ℝ → ℝ → ℝ → ℝ) (n1 n2 n3 p1 p2 p3 : Nat) (hp1 : 0 < p1) (hn1 : p1 ≤ n1) (hp2 : 0 < p2) (hn2 : p2 ≤ n2) (hp3 : 0 < p3) (hn3 : p3 ≤ n3)
    (t1 t2 t3 : Nat → ℝ) (ng1 ng2 ng3 : Nat) (x1 w1 x2 w2 x3 w3 : List ℝ) (hx1 : ng1 ≤ x1.length) (hx2 : ng2 ≤ x2.length) (hx3 : ng3 ≤ x3.length)
    (hw1 : ng1 ≤ w1.length) (hw2 : ng2 ≤ w2.length) (hw3 : ng3 ≤ w3.length) (els : List Nat) (hels : els.Perm (List.range ((n1-p1+1)*((n2-p2+1)*(n3-p3+1))))) :
    integrate3 f n1 n2 n3 p1 p2 p3 (knotList t1 (n1+p1)) (knotList t2 (n2+p2)) (knotList t3 (n3+p3)) ng1 ng2 ng3 x1 w1 x2 w2 x3 w3 els =
      some (∑ i ∈ Finset.range (n1-p1+1), ∑ j ∈ Finset.range (n2-p2+1), ∑ k ∈ Finset.range (n3-p3+1),
        if t1 (p1-1+i) < t1 (p1-1+i+1) ∧ t2 (p2-1+j) < t2 (p2-1+j+1) ∧ t3 (p3-1+k) < t3 (p3-1+k+1) then
        elmSum3 f ng1 ng2 ng3 x1 w1 x2 w2 x3 w3 (t1 (p1-1+i)) (t1 (p1-1+i+1)) (t2 (p2-1+j)) (t2 (p2-1+j+1)) (t3 (p3-1+k)) (t3 (p3-1+k+1)) else 0) := by
  unfold integrate3
  rw [getGaussParameters_all ng1 x1 hx1 t1 n1 p1 hp1 hn1, getGaussParameters_all ng2 x2 hx2 t2 n2 p2 hp2 hn2, getGaussParameters_all ng3 x3 hx3 t3 n3 p3 hp3 hn3]
  simp only [Option.bind_eq_bind, Option.bind_some]
  have key := els_sum (elmInt3 f n1 n2 p1 p2 p3 ng1 ng2 ng3 (knotList t1 (n1+p1)) (knotList t2 (n2+p2)) (knotList t3 (n3+p3)) w1 w2 w3
      (gpars ng1 x1 t1 n1 p1) (gpars ng2 x2 t2 n2 p2) (gpars ng3 x3 t3 n3 p3)
      (splineMNPC3 n1 n2 n3 p1 p2 p3 (spansOf (knotList t1 (n1+p1))) (spansOf (knotList t2 (n2+p2))) (spansOf (knotList t3 (n3+p3)))))
    (fun e => (fun i j k => if t1 (p1-1+i) < t1 (p1-1+i+1) ∧ t2 (p2-1+j) < t2 (p2-1+j+1) ∧ t3 (p3-1+k) < t3 (p3-1+k+1) then
        elmSum3 f ng1 ng2 ng3 x1 w1 x2 w2 x3 w3 (t1 (p1-1+i)) (t1 (p1-1+i+1)) (t2 (p2-1+j)) (t2 (p2-1+j+1)) (t3 (p3-1+k)) (t3 (p3-1+k+1)) else 0)
        (e%(n1-p1+1)) ((e/(n1-p1+1))%(n2-p2+1)) (e/((n1-p1+1)*(n2-p2+1)))) els _ hels
    (fun s e he => by
      have hi : e % (n1-p1+1) < n1-p1+1 := Nat.mod_lt _ (by omega)
      have hj : (e / (n1-p1+1)) % (n2-p2+1) < n2-p2+1 := Nat.mod_lt _ (by omega)
      have hk : e / ((n1-p1+1)*(n2-p2+1)) < n3-p3+1 := Nat.div_lt_of_lt_mul (by rw [Nat.mul_assoc]; exact he)
      have := elmInt3_spec f n1 n2 n3 p1 p2 p3 hp1 hn1 hp2 hn2 hp3 hn3 t1 t2 t3 ng1 ng2 ng3 x1 w1 x2 w2 x3 w3 hw1 hw2 hw3 s _ _ _ hi hj hk
      rw [idx3_inv] at this
      exact this)
  rw [key, sum_grid2, sum_grid2]
  congr 1
  rw [rev3]
  refine Finset.sum_congr rfl fun i hi => Finset.sum_congr rfl fun j hj => Finset.sum_congr rfl fun k hk => ?_
  obtain ⟨e1, e2, e3⟩ := idx3 (n1-p1+1) (n2-p2+1) i j k (Finset.mem_range.1 hi) (Finset.mem_range.1 hj)
  rw [e1, e2, e3]

end IFEM.Quad
