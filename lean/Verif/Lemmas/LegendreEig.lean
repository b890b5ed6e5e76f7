import Verif.Model.Legendre
import Verif.Lemmas.LegendreRules

/-!
# The eigenvalues are the roots
-/
namespace IFEM.Legendre
open Polynomial IFEM.Spec

/-- The leading part of a matrix given by its elements counted from one. -/
def leading (n : Nat) (A : Nat → Nat → ℝ) : Matrix (Fin n) (Fin n) ℝ := Matrix.of fun i j => A (i+1) (j+1)

theorem glRows (m : Nat) (A : Nat → Nat → ℝ) (i j : Nat) : (List.range' 2 m).foldl glRow A i j =
    if 2 ≤ i ∧ i < 2+m then (if j = i+1 then (i : ℝ)/((2*i-1 : Nat) : ℝ) else if j = i-1 then ((i-1 : Nat) : ℝ)/((2*i-1 : Nat) : ℝ) else A i j) else A i j := by
  induction m with
  | zero =>
    simp only [List.range'_zero, List.foldl_nil]
    rw [if_neg (by omega)]
  | succ m ih =>
    rw [List.range'_1_concat, List.foldl_append, List.foldl_cons, List.foldl_nil, glRow, setE, setE]
    by_cases hi : i = 2+m
    · subst hi
      rw [if_pos (show 2 ≤ 2+m ∧ 2+m < 2+(m+1) by omega), ih, if_neg (show ¬(2 ≤ 2+m ∧ 2+m < 2+m) by omega)]
      simp only [true_and]
    · rw [if_neg (by omega), if_neg (by omega), ih]
      by_cases hc : 2 ≤ i ∧ i < 2+m
      · rw [if_pos hc, if_pos (show 2 ≤ i ∧ i < 2+(m+1) by omega)]
      · rw [if_neg hc, if_neg (by omega)]

/-- The elements of the matrix, counted from zero. -/
theorem gl_entry (n : Nat) (hn : 3 ≤ n) (r c : Nat) (hr : r < n) (hc : c < n) : glMatrix (K := ℝ) n (r+1) (c+1) =
    (if c + 1 = r then (r : ℝ)/(2*(r:ℝ)+1) else 0) + (if c = r+1 then ((r:ℝ)+1)/(2*(r:ℝ)+1) else 0) := by
  have e1 : ((2*(r+1)-1 : Nat) : ℝ) = 2*(r:ℝ)+1 := by rw [show 2*(r+1)-1 = 2*r+1 by omega]; push_cast; ring
  unfold glMatrix
  rw [if_pos (by omega), setE]
  by_cases hl : r+1 = n ∧ c+1 = n-1
  · rw [if_pos hl, if_pos (by omega), if_neg (by omega), ← hl.1, e1, Nat.add_sub_cancel, add_zero]
  · rw [if_neg hl, glRows]
    by_cases hin : 2 ≤ r+1 ∧ r+1 < 2+(n-2)
    · rw [if_pos hin, e1]
      by_cases h1 : c = r+1
      · rw [if_pos (by omega), if_neg (by omega), if_pos h1]; push_cast; ring
      · rw [if_neg (by omega), if_neg h1, add_zero]
        by_cases h2 : c+1 = r
        · rw [if_pos (by omega), if_pos h2, Nat.add_sub_cancel]
        · rw [if_neg (by omega), if_neg h2, setE, if_neg (by omega)]
    · rw [if_neg hin, setE]
      by_cases h0 : r = 0
      · subst h0
        by_cases h1 : c = 1
        · subst h1; norm_num
        · rw [if_neg (by omega), if_neg (by omega), if_neg (by omega), add_zero]
      · rw [if_neg (by omega), if_neg (by omega), if_neg (by omega), add_zero]

theorem gl_row (n : Nat) (hn : 3 ≤ n) (z : ℂ) (hz : aeval z (legendre n) = 0) (r : Nat) (hr : r < n) :
    (∑ c ∈ Finset.range n, ((glMatrix (K := ℝ) n (r+1) (c+1) : ℝ) : ℂ) * aeval z (legendre c)) = z * aeval z (legendre r) := by
  have h1 : (∑ c ∈ Finset.range n, ((glMatrix (K := ℝ) n (r+1) (c+1) : ℝ) : ℂ) * aeval z (legendre c)) =
      (∑ c ∈ Finset.range n, if c + 1 = r then ((r : ℂ)/(2*(r:ℂ)+1)) * aeval z (legendre (r-1)) else 0) +
      (∑ c ∈ Finset.range n, if c = r+1 then (((r:ℂ)+1)/(2*(r:ℂ)+1)) * aeval z (legendre (r+1)) else 0) := by
    rw [← Finset.sum_add_distrib]
    refine Finset.sum_congr rfl fun c hc => ?_
    rw [gl_entry n hn r c hr (Finset.mem_range.1 hc)]
    push_cast
    rw [add_mul]
    congr 1
    · split
      · rename_i h; subst h; simp
      · simp
    · split
      · rename_i h; subst h; simp
      · simp
  have h2 : (∑ c ∈ Finset.range n, if c = r+1 then (((r:ℂ)+1)/(2*(r:ℂ)+1)) * aeval z (legendre (r+1)) else 0) =
      (((r:ℂ)+1)/(2*(r:ℂ)+1)) * aeval z (legendre (r+1)) := by
    rw [Finset.sum_ite_eq']
    split
    · rfl
    · rename_i h
      obtain rfl : n = r+1 := by rw [Finset.mem_range] at h; omega
      rw [hz, mul_zero]
  have h3 : (∑ c ∈ Finset.range n, if c + 1 = r then ((r : ℂ)/(2*(r:ℂ)+1)) * aeval z (legendre (r-1)) else 0) =
      ((r : ℂ)/(2*(r:ℂ)+1)) * aeval z (legendre (r-1)) := by
    rcases r with _ | r
    · rw [Finset.sum_eq_zero (fun c _ => if_neg (by omega))]; simp
    · rw [Finset.sum_eq_single r (fun c _ hc => if_neg (by omega)) (fun h => absurd (Finset.mem_range.2 (by omega)) h), if_pos rfl]
  rw [h1, h2, h3]
  have hne : (2*(r:ℂ)+1) ≠ 0 := by exact_mod_cast (by omega : 2*r+1 ≠ 0)
  rcases r with _ | r
  · simp [leg_zero, leg_one]
  · have := aeval_rec r z
    rw [Nat.add_sub_cancel]
    have hne2 : (2*(r:ℂ)+3) ≠ 0 := by exact_mod_cast (by omega : 2*r+3 ≠ 0)
    have e : (2*((r+1 : ℕ):ℂ)+1) = 2*(r:ℂ)+3 := by push_cast; ring
    rw [e]
    push_cast
    rw [div_mul_eq_mul_div, div_mul_eq_mul_div, ← add_div, div_eq_iff hne2]
    linear_combination this

theorem gl_eig (n : Nat) (hn : 3 ≤ n) (re im : List ℝ) (he : Eigenvalues (leading n (glMatrix n)) re im) :
    re.length = n ∧ re.Nodup ∧ ∀ x ∈ re, (legendre n).eval x = 0 := by
  obtain ⟨l1, l2, hp⟩ := he
  set P := (legendre n).map (algebraMap ℝ ℂ) with hP
  obtain ⟨N, rfl⟩ : ∃ N, n = N+1 := ⟨n-1, by omega⟩
  obtain ⟨hnd, hcard⟩ := roots_nodup N
  set lam := (re.zip im).map (fun ab : ℝ × ℝ => (ab.1 : ℂ) + ab.2 * Complex.I) with hlam
  have hlen : lam.length = N+1 := by rw [hlam, List.length_map, List.length_zip, l1, l2, min_self]
  have hPne : P ≠ 0 := (Polynomial.map_ne_zero_iff (algebraMap ℝ ℂ).injective).2 (leg_ne_zero _)
  have hsub : P.roots ⊆ (lam : Multiset ℂ) := by
    intro z hz
    have hz0 : aeval z (legendre (N+1)) = 0 := by
      have := (mem_roots hPne).1 hz
      rwa [IsRoot, hP, eval_map_algebraMap] at this
    have hdet : ((leading (N+1) (glMatrix (N+1))).map (fun a : ℝ => (a : ℂ))).charpoly.eval z = 0 := by
      rw [Matrix.eval_charpoly]
      refine Matrix.exists_mulVec_eq_zero_iff.1 ⟨fun i => aeval z (legendre i), ?_, ?_⟩
      · intro h
        have := congrFun h 0
        simp [leg_zero] at this
      · rw [Matrix.sub_mulVec]
        ext r
        have hrow := gl_row (N+1) hn z hz0 r r.isLt
        rw [Finset.sum_range] at hrow
        have hs : (Matrix.scalar (Fin (N+1)) z).mulVec (fun i : Fin (N+1) => aeval z (legendre i)) r = z * aeval z (legendre r) := by
          rw [Matrix.scalar_apply, Matrix.mulVec_diagonal]
        rw [Pi.sub_apply, hs, ← hrow, Pi.zero_apply, sub_eq_zero]
        rfl
    rw [hp, eval_list_prod] at hdet
    rw [List.prod_eq_zero_iff] at hdet
    obtain ⟨q, hq, hq0⟩ := List.mem_map.1 hdet
    obtain ⟨ab, hab, rfl⟩ := List.mem_map.1 hq
    rw [eval_sub, eval_X, eval_C, sub_eq_zero] at hq0
    rw [hq0]
    exact Multiset.mem_coe.2 (List.mem_map.2 ⟨ab, hab, rfl⟩)
  have hle : P.roots ≤ (lam : Multiset ℂ) := (Multiset.le_iff_subset hnd).2 hsub
  have heq : P.roots = (lam : Multiset ℂ) := Multiset.eq_of_le_of_card_le hle (by rw [Multiset.coe_card, hlen, hcard])
  have hroot : ∀ ab ∈ re.zip im, ab.2 = 0 ∧ (legendre (N+1)).eval ab.1 = 0 := by
    intro ab hab
    have hm : ((ab.1 : ℂ) + ab.2 * Complex.I) ∈ P.roots := by
      rw [heq]; exact Multiset.mem_coe.2 (List.mem_map.2 ⟨ab, hab, rfl⟩)
    have hz0 : aeval ((ab.1 : ℂ) + ab.2 * Complex.I) (legendre (N+1)) = 0 := by
      have := (mem_roots hPne).1 hm
      rwa [IsRoot, hP, eval_map_algebraMap] at this
    have him := root_real N _ hz0
    have h0 : ab.2 = 0 := by simpa using him
    refine ⟨h0, ?_⟩
    rw [h0] at hz0
    have e : ((ab.1 : ℂ) + ((0:ℝ):ℂ) * Complex.I) = algebraMap ℝ ℂ ab.1 := by simp
    rw [e, aeval_algebraMap_apply] at hz0
    simpa using hz0
  have hlam2 : lam = re.map (fun a : ℝ => (a : ℂ)) := by
    rw [hlam]
    have e1 : re = (re.zip im).map Prod.fst := by rw [List.map_fst_zip (by omega)]
    conv_rhs => rw [e1]
    rw [List.map_map]
    refine List.map_congr_left fun ab hab => ?_
    simp [(hroot ab hab).1]
  refine ⟨l1, ?_, ?_⟩
  · have : lam.Nodup := by rw [← Multiset.coe_nodup, ← heq]; exact hnd
    rw [hlam2] at this
    exact this.of_map
  · intro x hx
    obtain ⟨i, hi, rfl⟩ := List.getElem_of_mem hx
    have hi2 : i < im.length := by omega
    exact (hroot (re[i], im[i]) (by rw [← List.getElem_zip (h := by rw [List.length_zip]; omega)]; exact List.getElem_mem _)).2

end IFEM.Legendre
