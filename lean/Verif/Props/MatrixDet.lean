import Verif.Props.MatrixBlock
/-!
# C60: determinants, inverses, sums and symmetry of dense matrices
-/
namespace IFEM.Props
open IFEM IFEM.Spec IFEM.Lem IFEM.Mat

variable {R : Type} {r c : Nat}

section field
variable [Field R]

theorem rep_v {m : Mat R} {A : Matrix (Fin r) (Fin c) R} (h : Rep m A) (i j : Int) (i' : Fin r) (j' : Fin c) (hi : i = (i'.1 : Int) + 1) (hj : j = (j'.1 : Int) + 1) :
    m.val i j = A i' j' := by
  rw [hi, hj]; exact rep_val h i'.1 j'.1 i'.2 j'.2

/-- The values used by `det` and `inverse` for small matrices. -/
theorem C60_det1 {m : Mat R} {A : Matrix (Fin 1) (Fin 1) R} (h : Rep m A) : m.det = A.det := by
  unfold Mat.det
  simp only [h.rows, h.cols]
  rw [if_pos (by decide), rep_v h 1 1 0 0 rfl rfl, Matrix.det_fin_one]

@[inherit_doc C60_det1] theorem C60_det2 {m : Mat R} {A : Matrix (Fin 2) (Fin 2) R} (h : Rep m A) : m.det = A.det := by
  unfold Mat.det
  simp only [h.rows, h.cols]
  rw [if_neg (by omega), if_pos (by decide), rep_v h 1 1 0 0 rfl rfl, rep_v h 2 2 1 1 rfl rfl, rep_v h 2 1 1 0 rfl rfl, rep_v h 1 2 0 1 rfl rfl, Matrix.det_fin_two]
  ring

@[inherit_doc C60_det1] theorem C60_det3 {m : Mat R} {A : Matrix (Fin 3) (Fin 3) R} (h : Rep m A) : m.det = A.det := by
  unfold Mat.det
  simp only [h.rows, h.cols]
  rw [if_neg (by omega), if_neg (by omega), if_pos (by decide), rep_v h 1 1 0 0 rfl rfl, rep_v h 2 2 1 1 rfl rfl, rep_v h 2 1 1 0 rfl rfl, rep_v h 1 2 0 1 rfl rfl,
    rep_v h 3 1 2 0 rfl rfl, rep_v h 3 2 2 1 rfl rfl, rep_v h 3 3 2 2 rfl rfl, rep_v h 1 3 0 2 rfl rfl, rep_v h 2 3 1 2 rfl rfl, Matrix.det_fin_three]
  ring

/-- Larger matrices give the error value. -/
theorem C60_det_large {m : Mat R} {n : Nat} {A : Matrix (Fin n) (Fin n) R} (h : Rep m A) (hn : 3 < n) : m.det = -999 := by
  unfold Mat.det
  simp only [h.rows, h.cols]
  rw [if_neg (by omega), if_neg (by omega), if_neg (by omega), if_pos (by omega)]

variable [LinearOrder R] [IsStrictOrderedRing R]

/-- What `inverse` does, for any small matrix: a matrix that is not nearly singular is replaced by its inverse. -/
def InvertedBy (m : Mat R) (tol : R) {n : Nat} (A : Matrix (Fin n) (Fin n) R) : Prop :=
  (m.inverse tol).1 = A.det ∧ ∃ B, Rep (m.inverse tol).2 B ∧ A * B = 1 ∧ B * A = 1

/-- A matrix of dimension at most three whose determinant is larger than the tolerance, and is not the error value -999, is replaced by its inverse, and the determinant is returned. -/
theorem C60_inverse1 {m : Mat R} {A : Matrix (Fin 1) (Fin 1) R} (h : Rep m A) (tol : R) (ht : 0 ≤ tol) (hd : tol < |A.det|) (h9 : A.det ≠ -999) : InvertedBy m tol A := by
  have hne : A.det ≠ 0 := fun e => by rw [e, abs_zero] at hd; exact absurd hd (not_lt.mpr ht)
  have hsing : ¬ (A.det ≤ tol ∧ A.det ≥ -tol) := fun e => absurd hd (not_lt.mpr (abs_le.mpr ⟨e.2, e.1⟩))
  have he : m.inverse tol = (A.det, { m with elem := m.elem.set 0 (1 / A.det) }) := by
    unfold Mat.inverse
    simp only [C60_det1 h]
    rw [if_neg h9, if_neg hsing, if_pos h.cols]
  rw [InvertedBy, he]
  refine ⟨rfl, !![1 / A.det], ⟨h.rows, h.cols, by simpa using h.size, fun i j => ?_⟩, ?_, ?_⟩
  · have hl : 0 < m.elem.length := by rw [h.size]; omega
    have : i.1 + 1 * j.1 = 0 := by omega
    dsimp only
    rw [this, List.getElem?_set_self hl, Subsingleton.elim i 0, Subsingleton.elim j 0]
    rfl
  · rw [Matrix.det_fin_one] at hne ⊢
    ext i j
    rw [Subsingleton.elim i 0, Subsingleton.elim j 0, Matrix.mul_apply, Fin.sum_univ_one, Matrix.one_apply_eq]
    exact mul_one_div_cancel hne
  · rw [Matrix.det_fin_one] at hne ⊢
    ext i j
    rw [Subsingleton.elim i 0, Subsingleton.elim j 0, Matrix.mul_apply, Fin.sum_univ_one, Matrix.one_apply_eq]
    exact one_div_mul_cancel hne

@[inherit_doc C60_inverse1]
theorem C60_inverse2 {m : Mat R} {A : Matrix (Fin 2) (Fin 2) R} (h : Rep m A) (tol : R) (ht : 0 ≤ tol) (hd : tol < |A.det|) (h9 : A.det ≠ -999) : InvertedBy m tol A := by
  have hne : A.det ≠ 0 := fun e => by rw [e, abs_zero] at hd; exact absurd hd (not_lt.mpr ht)
  have hsing : ¬ (A.det ≤ tol ∧ A.det ≥ -tol) := fun e => absurd hd (not_lt.mpr (abs_le.mpr ⟨e.2, e.1⟩))
  have he : m.inverse tol = (A.det, ⟨2, 2, [A 1 1 / A.det, -A 1 0 / A.det, -A 0 1 / A.det, A 0 0 / A.det]⟩) := by
    unfold Mat.inverse
    simp only [C60_det2 h]
    rw [if_neg h9, if_neg hsing, if_neg (by rw [h.cols]; omega), if_pos h.cols, rep_v h 1 1 0 0 rfl rfl, rep_v h 2 2 1 1 rfl rfl, rep_v h 2 1 1 0 rfl rfl, rep_v h 1 2 0 1 rfl rfl]
  rw [InvertedBy, he]
  generalize hD : A.det = D at hne
  rw [Matrix.det_fin_two] at hD
  refine ⟨rfl, !![A 1 1 / D, -A 0 1 / D; -A 1 0 / D, A 0 0 / D], ⟨rfl, rfl, rfl, fun i j => ?_⟩, ?_, ?_⟩
  · fin_cases i <;> fin_cases j <;> rfl
  · ext i j
    fin_cases i <;> fin_cases j <;> simp [Matrix.mul_apply, Fin.sum_univ_two] <;> field_simp <;> first | ring1 | linear_combination hD
  · ext i j
    fin_cases i <;> fin_cases j <;> simp [Matrix.mul_apply, Fin.sum_univ_two] <;> field_simp <;> first | ring1 | linear_combination hD

@[inherit_doc C60_inverse1]
theorem C60_inverse3 {m : Mat R} {A : Matrix (Fin 3) (Fin 3) R} (h : Rep m A) (tol : R) (ht : 0 ≤ tol) (hd : tol < |A.det|) (h9 : A.det ≠ -999) : InvertedBy m tol A := by
  have hne : A.det ≠ 0 := fun e => by rw [e, abs_zero] at hd; exact absurd hd (not_lt.mpr ht)
  have hsing : ¬ (A.det ≤ tol ∧ A.det ≥ -tol) := fun e => absurd hd (not_lt.mpr (abs_le.mpr ⟨e.2, e.1⟩))
  have he : m.inverse tol = (A.det, ⟨3, 3,
    [(A 1 1 * A 2 2 - A 2 1 * A 1 2) / A.det, -(A 1 0 * A 2 2 - A 2 0 * A 1 2) / A.det, (A 1 0 * A 2 1 - A 2 0 * A 1 1) / A.det,
     -(A 0 1 * A 2 2 - A 2 1 * A 0 2) / A.det, (A 0 0 * A 2 2 - A 2 0 * A 0 2) / A.det, -(A 0 0 * A 2 1 - A 2 0 * A 0 1) / A.det,
     (A 0 1 * A 1 2 - A 1 1 * A 0 2) / A.det, -(A 0 0 * A 1 2 - A 1 0 * A 0 2) / A.det, (A 0 0 * A 1 1 - A 1 0 * A 0 1) / A.det]⟩) := by
    unfold Mat.inverse
    simp only [C60_det3 h]
    rw [if_neg h9, if_neg hsing, if_neg (by rw [h.cols]; omega), if_neg (by rw [h.cols]; omega), if_pos h.cols, rep_v h 1 1 0 0 rfl rfl, rep_v h 2 2 1 1 rfl rfl,
      rep_v h 2 1 1 0 rfl rfl, rep_v h 1 2 0 1 rfl rfl, rep_v h 3 1 2 0 rfl rfl, rep_v h 3 2 2 1 rfl rfl, rep_v h 3 3 2 2 rfl rfl, rep_v h 1 3 0 2 rfl rfl, rep_v h 2 3 1 2 rfl rfl]
  rw [InvertedBy, he]
  generalize hD : A.det = D at hne
  rw [Matrix.det_fin_three] at hD
  refine ⟨rfl, !![(A 1 1 * A 2 2 - A 2 1 * A 1 2) / D, -(A 0 1 * A 2 2 - A 2 1 * A 0 2) / D, (A 0 1 * A 1 2 - A 1 1 * A 0 2) / D;
      -(A 1 0 * A 2 2 - A 2 0 * A 1 2) / D, (A 0 0 * A 2 2 - A 2 0 * A 0 2) / D, -(A 0 0 * A 1 2 - A 1 0 * A 0 2) / D;
      (A 1 0 * A 2 1 - A 2 0 * A 1 1) / D, -(A 0 0 * A 2 1 - A 2 0 * A 0 1) / D, (A 0 0 * A 1 1 - A 1 0 * A 0 1) / D], ⟨rfl, rfl, rfl, fun i j => ?_⟩, ?_, ?_⟩
  · fin_cases i <;> fin_cases j <;> rfl
  · ext i j
    fin_cases i <;> fin_cases j <;> simp [Matrix.mul_apply, Fin.sum_univ_three] <;> field_simp <;> first | ring1 | linear_combination hD
  · ext i j
    fin_cases i <;> fin_cases j <;> simp [Matrix.mul_apply, Fin.sum_univ_three] <;> field_simp <;> first | ring1 | linear_combination hD

/-- A nearly singular matrix is left as it is and zero is returned. -/
theorem C60_inverse_singular (m : Mat R) (tol : R) (ht : |m.det| ≤ tol) (h9 : m.det ≠ -999) : m.inverse tol = (0, m) := by
  unfold Mat.inverse
  simp only
  rw [if_neg h9, if_pos ⟨(abs_le.mp ht).2, (abs_le.mp ht).1⟩]

/-- A regular matrix whose determinant happens to be -999 is left as it is, but its determinant is returned as if it had been inverted. -/
theorem C60_inverse_error_value (m : Mat R) (tol : R) (h9 : m.det = -999) : m.inverse tol = (-999, m) := by
  unfold Mat.inverse
  simp only [h9, if_true]

/-- `isSymmetric` tells whether the matrix is square and symmetric up to the tolerance. -/
theorem C60_isSymmetric {m : Mat R} {A : Matrix (Fin r) (Fin c) R} (h : Rep m A) (tol : R) (ht : 0 ≤ tol) :
    m.isSymmetric tol = true ↔ ∃ e : r = c, ∀ i j : Fin r, |A i (Fin.cast e j) - A j (Fin.cast e i)| ≤ tol := by
  unfold Mat.isSymmetric
  rw [h.rows, h.cols, Bool.and_eq_true, decide_eq_true_eq, List.all_eq_true]
  have hg : ∀ (e : r = c) (i j : Fin r), m.elem.getD (i.1 + r * j.1) 0 = A i (Fin.cast e j) := by
    intro e i j
    rw [List.getD_eq_getElem?_getD]
    have := h.ent i (Fin.cast e j)
    rw [Fin.val_cast] at this
    rw [this]; rfl
  constructor
  · rintro ⟨e, hall⟩
    refine ⟨e, ?_⟩
    have hlt : ∀ i j : Fin r, j.1 < i.1 → |A i (Fin.cast e j) - A j (Fin.cast e i)| ≤ tol := by
      intro i j hij
      have := hall (i.1, j.1) ((mem_pairs _ _ _).mpr ⟨i.2, j.2⟩)
      simp only [hij, decide_true, Bool.not_true, Bool.false_or, hg e i j, hg e j i, Bool.not_eq_true', Bool.or_eq_false_iff, decide_eq_false_iff_not, not_lt] at this
      exact abs_le.mpr this
    intro i j
    rcases Nat.lt_trichotomy i.1 j.1 with q | q | q
    · rw [abs_sub_comm]; exact hlt j i q
    · rw [Fin.ext q, sub_self, abs_zero]; exact ht
    · exact hlt i j q
  · rintro ⟨e, hall⟩
    refine ⟨e, fun q hq => ?_⟩
    obtain ⟨q1, q2⟩ := (mem_pairs _ _ _).mp hq
    have := abs_le.mp (hall ⟨q.1, q1⟩ ⟨q.2, q2⟩)
    have g1 := hg e ⟨q.1, q1⟩ ⟨q.2, q2⟩
    have g2 := hg e ⟨q.2, q2⟩ ⟨q.1, q1⟩
    dsimp only at g1 g2
    simp only [g1, g2]
    rw [Bool.or_eq_true]
    right
    rw [Bool.not_eq_true', Bool.or_eq_false_iff, decide_eq_false_iff_not, decide_eq_false_iff_not, not_lt, not_lt]
    exact this

end field

/-! ## Sums -/

section sums
variable [AddCommMonoid R]

theorem foldl_plus (l : List R) (y : R) : l.foldl (· + ·) y = y + l.sum := by
  induction l generalizing y with
  | nil => simp
  | cons x l ih => rw [List.foldl_cons, ih, List.sum_cons, add_assoc]

theorem sum_range_grid (r c : Nat) (f : Nat → R) : ((List.range (r * c)).map f).sum = ∑ j : Fin c, ∑ i : Fin r, f (i.1 + r * j.1) := by
  induction c with
  | zero => simp
  | succ c ih =>
    rw [show r * (c + 1) = r * c + r by ring, List.range_add, List.map_append, List.sum_append, ih, Fin.sum_univ_castSucc]
    congr 1
    rw [Fin.val_last, List.map_map, ← sum_range_fin r fun i => f (i + r * c)]
    congr 1
    refine List.map_congr_left fun i _ => ?_
    simp [Nat.add_comm]

/-- The sum over the visited entries of a matrix. -/
theorem vsum_grid {m : Mat R} {A : Matrix (Fin r) (Fin c) R} (h : Rep m A) (off inc n : Nat) (hinc : 1 ≤ inc) (hn : n ≤ r * c)
    (max : Nat)
    (hm : (if max = 0 ∨ max > m.elem.length then m.elem.length else max) = n) :
    vsum m.elem off inc max = ∑ j : Fin c, ∑ i : Fin r, if i.1 + r * j.1 < n ∧ off ≤ i.1 + r * j.1 ∧ (i.1 + r * j.1 - off) % inc = 0 then A i j else 0 := by
  unfold vsum
  by_cases he : m.elem = []
  · rw [if_pos (Or.inr he)]
    symm
    refine Finset.sum_eq_zero fun j _ => Finset.sum_eq_zero fun i _ => ?_
    have := h.ent i j
    rw [he] at this
    simp at this
  · rw [if_neg (by rintro (q | q); omega; exact he q), hm, foldl_plus, zero_add]
    unfold strided
    rw [sum_filter]
    have hx : ((List.range n).map fun x => if off ≤ x ∧ (x - off) % inc = 0 then m.elem.getD x 0 else 0).sum =
        ((List.range (r * c)).map fun x => if x < n ∧ off ≤ x ∧ (x - off) % inc = 0 then m.elem.getD x 0 else 0).sum := by
      obtain ⟨k, hk⟩ := Nat.exists_eq_add_of_le hn
      rw [hk, List.range_add, List.map_append, List.sum_append]
      have hz : ((List.map (fun x => n + x) (List.range k)).map fun x => if x < n ∧ off ≤ x ∧ (x - off) % inc = 0 then m.elem.getD x 0 else 0).sum = 0 := by
        rw [List.map_map]
        apply List.sum_eq_zero
        intro x hx
        obtain ⟨y, _, rfl⟩ := List.mem_map.mp hx
        simp
      rw [hz, add_zero]
      congr 1
      refine List.map_congr_left fun x hx => ?_
      have := List.mem_range.mp hx
      simp [this]
    rw [hx, sum_range_grid]
    refine Finset.sum_congr rfl fun j _ => Finset.sum_congr rfl fun i _ => ?_
    rw [List.getD_eq_getElem?_getD, h.ent i j]; rfl

/-- `rowsum` is the sum of a row. -/
theorem C60_rowsum {m : Mat R} {A : Matrix (Fin r) (Fin c) R} (h : Rep m A) (k : Fin r) : m.rowsum (k + 1) = ∑ j, A k j := by
  unfold rowsum
  rw [h.rows, vsum_grid h _ r (r * c) (by have := k.2; omega) (le_refl _) 0 (by simp [h.size]), Nat.add_sub_cancel]
  refine Finset.sum_congr rfl fun j _ => ?_
  rw [Finset.sum_eq_single k]
  · rw [if_pos]
    exact ⟨rep_idx k.2 j.2, by omega, by rw [Nat.add_sub_cancel_left]; exact Nat.mul_mod_right _ _⟩
  · intro i _ hne
    refine if_neg ?_
    rintro ⟨_, h2, h3⟩
    obtain ⟨t, ht⟩ := Nat.dvd_of_mod_eq_zero h3
    have e : i.1 + r * j.1 = k.1 + r * t := by omega
    have := congrArg (· % r) e
    simp [Nat.add_mul_mod_self_left, Nat.mod_eq_of_lt i.2, Nat.mod_eq_of_lt k.2] at this
    exact hne (Fin.ext this)
  · simp

/-- `colsum` is the sum of a column. -/
theorem C60_colsum {m : Mat R} {A : Matrix (Fin r) (Fin c) R} (h : Rep m A) (k : Fin c) : m.colsum (k + 1) = ∑ i, A i k := by
  unfold colsum
  have hle : r * (k.1 + 1) ≤ r * c := Nat.mul_le_mul_left _ k.2
  rw [h.rows, Nat.add_sub_cancel]
  by_cases hr : r = 0
  · subst hr
    have hl : m.elem = [] := List.eq_nil_of_length_eq_zero (by rw [h.size, Nat.zero_mul])
    unfold vsum
    rw [if_pos (Or.inr hl)]
    simp
  · have hpos : 0 < r * (k.1 + 1) := Nat.mul_pos (by omega) (by omega)
    rw [vsum_grid h _ 1 (r * (k.1 + 1)) (le_refl _) hle _ (by rw [h.size, if_neg (by omega)])]
    rw [Finset.sum_eq_single k]
    · refine Finset.sum_congr rfl fun i _ => if_pos ⟨?_, by omega, Nat.mod_one _⟩
      rw [Nat.mul_add]; have := i.2; omega
    · intro j _ hne
      refine Finset.sum_eq_zero fun i _ => if_neg ?_
      rintro ⟨h1, h2, _⟩
      have hne' : j.1 ≠ k.1 := fun e => hne (Fin.ext e)
      have hi := i.2
      rw [Nat.mul_add] at h1
      rcases Nat.lt_or_gt_of_ne hne' with q | q
      · have := col_le r q; omega
      · have := col_le r q; omega
    · simp

/-- `trace` is the sum of the diagonal, for matrices with at least as many rows as columns. -/
theorem C60_trace {m : Mat R} {A : Matrix (Fin r) (Fin c) R} (h : Rep m A) (hrc : c ≤ r) : m.trace = ∑ j : Fin c, A ⟨j.1, Nat.lt_of_lt_of_le j.2 hrc⟩ j := by
  unfold trace
  rw [h.rows, vsum_grid h _ (r + 1) (r * c) (by omega) (le_refl _) 0 (by simp [h.size])]
  refine Finset.sum_congr rfl fun j _ => ?_
  have hj := j.2
  rw [Finset.sum_eq_single ⟨j.1, Nat.lt_of_lt_of_le j.2 hrc⟩]
  · rw [if_pos]
    refine ⟨rep_idx (Nat.lt_of_lt_of_le j.2 hrc) j.2, by omega, ?_⟩
    dsimp only
    rw [Nat.sub_zero, show j.1 + r * j.1 = (r + 1) * j.1 by ring]
    exact Nat.mul_mod_right _ _
  · intro i _ hne
    refine if_neg ?_
    rintro ⟨_, _, h3⟩
    have hi := i.2
    have hne' : i.1 ≠ j.1 := fun e => hne (Fin.ext e)
    rw [Nat.sub_zero] at h3
    rcases Nat.lt_or_gt_of_ne hne' with q | q
    · have e : i.1 + r * j.1 = (r + 1 - j.1 + i.1) + (r + 1) * (j.1 - 1) := by
        obtain ⟨t, ht⟩ := Nat.exists_eq_add_of_lt q
        rw [ht, show i.1 + t + 1 - 1 = i.1 + t by omega]
        have : r + 1 - (i.1 + t + 1) + i.1 = r - t := by omega
        rw [this]
        have ht' : t ≤ r := by omega
        generalize i.1 = a
        obtain ⟨s, hs⟩ := Nat.exists_eq_add_of_le ht'
        clear * - hs
        subst hs
        rw [Nat.add_sub_cancel_left]
        ring
      rw [e, Nat.add_mul_mod_self_left, Nat.mod_eq_of_lt (by omega)] at h3
      omega
    · have e : i.1 + r * j.1 = (i.1 - j.1) + (r + 1) * j.1 := by
        rw [Nat.add_mul, Nat.one_mul]; omega
      rw [e, Nat.add_mul_mod_self_left, Nat.mod_eq_of_lt (by omega)] at h3
      omega
  · simp

end sums

/-- With more columns than rows `trace` also adds entries that are not on the diagonal. -/
theorem C60_trace_wide : (⟨1, 3, [1, 2, 4]⟩ : Mat Nat).trace = 5 := by decide

/-! ## Strided operations with and without BLAS -/

/-- The entries used by BLAS are those used by the plain implementation when the increment divides the size and the offset is below the increment, and for increment one. -/
theorem C60_blas_same (size off inc : Nat) (h : inc = 1 ∧ off ≤ size ∨ 1 < inc ∧ inc ∣ size ∧ off < inc) (i : Nat) :
    i ∈ blasIdx (blasCount size off inc) off inc ↔ i ∈ plainIdx size off inc := by
  simp only [blasIdx, blasCount, plainIdx, strided, List.mem_map, List.mem_range, List.mem_filter, decide_eq_true_eq]
  rcases h with ⟨rfl, ho⟩ | ⟨h1, ⟨k, rfl⟩, ho⟩
  · rw [if_neg (by omega)]
    constructor
    · rintro ⟨t, ht, rfl⟩; exact ⟨by omega, by omega, Nat.mod_one _⟩
    · rintro ⟨a, b, _⟩; exact ⟨i - off, by omega, by omega⟩
  · rw [if_pos h1, Nat.mul_div_cancel_left _ (by omega)]
    constructor
    · rintro ⟨t, ht, rfl⟩
      refine ⟨?_, by omega, by rw [Nat.add_sub_cancel_left]; exact Nat.mul_mod_left _ _⟩
      calc off + t * inc < inc + t * inc := by omega
        _ = inc * (t + 1) := by ring
        _ ≤ inc * k := Nat.mul_le_mul_left _ ht
    · rintro ⟨a, b, d⟩
      obtain ⟨t, ht⟩ := Nat.dvd_of_mod_eq_zero d
      refine ⟨t, ?_, by rw [Nat.mul_comm]; omega⟩
      by_contra hk
      have : inc * k ≤ inc * t := Nat.mul_le_mul_left _ (by omega)
      omega

/-- Otherwise they can differ: the last entry is missed when the size is not a multiple of the increment. -/
theorem C60_blas_missed (size off inc : Nat) (h1 : 1 < inc) (ho : off < size % inc) :
    off + size / inc * inc ∈ plainIdx size off inc ∧ off + size / inc * inc ∉ blasIdx (blasCount size off inc) off inc := by
  have hdm := Nat.mod_add_div size inc
  simp only [blasIdx, blasCount, plainIdx, strided, List.mem_map, List.mem_range, List.mem_filter, decide_eq_true_eq]
  rw [if_pos h1]
  refine ⟨⟨by rw [Nat.mul_comm (size / inc)]; omega, by omega, by rw [Nat.add_sub_cancel_left]; exact Nat.mul_mod_left _ _⟩, ?_⟩
  rintro ⟨t, ht, e⟩
  have := Nat.eq_of_mul_eq_mul_right (by omega : 0 < inc) (Nat.add_left_cancel e)
  omega

/-- And an entry behind the end is read when the offset is not below the increment. -/
theorem C60_blas_outside (size off inc : Nat) (h1 : 1 < inc) (hd : inc ∣ size) (hs : 0 < size) (ho : inc ≤ off) :
    ∃ i ∈ blasIdx (blasCount size off inc) off inc, size ≤ i := by
  obtain ⟨k, rfl⟩ := hd
  have hk : 0 < k := by
    rcases Nat.eq_zero_or_pos k with e | e
    · subst e; simp at hs
    · exact e
  refine ⟨off + (k - 1) * inc, ?_, ?_⟩
  · simp only [blasIdx, blasCount, List.mem_map, List.mem_range]
    rw [if_pos h1, Nat.mul_div_cancel_left _ (by omega)]
    exact ⟨k - 1, by omega, rfl⟩
  · calc inc * k = inc * (k - 1 + 1) := by rw [show k - 1 + 1 = k by omega]
      _ = inc + (k - 1) * inc := by ring
      _ ≤ off + (k - 1) * inc := by omega

/-! ## Examples -/

deriving instance DecidableEq for Mat

/-- A matrix with two rows and three columns. -/
def exMat : Mat ℚ := ⟨2, 3, [1, 2, 3, 4, 5, 6]⟩

theorem exMat_rep : Rep exMat !![1, 3, 5; 2, 4, 6] :=
  ⟨rfl, rfl, rfl, fun i j => by fin_cases i <;> fin_cases j <;> rfl⟩

example : exMat.getRow 2 = some [2, 4, 6] := by decide +kernel
example : exMat.expandRows 1 false = some ⟨3, 3, [1, 2, 0, 3, 4, 0, 5, 6, 0]⟩ := by decide +kernel
example : exMat.augmentRows ⟨1, 3, [7, 8, 9]⟩ true = some (true, ⟨3, 3, [7, 1, 2, 8, 3, 4, 9, 5, 6]⟩) := by decide +kernel
example : (⟨0, 0, []⟩ : Mat ℚ).multiply exMat exMat false true false 1 = some ⟨2, 2, [35, 44, 44, 56]⟩ := by decide +kernel
example : (⟨2, 2, [2, 1, 4, 3]⟩ : Mat ℚ).inverse 0 = (2, ⟨2, 2, [3/2, -1/2, -2, 1]⟩) := by decide +kernel
example : exMat.fillBlock ⟨2, 2, [7, 8, 9, 10]⟩ 2 2 true = some ⟨2, 3, [1, 2, 3, 7, 5, 8]⟩ := by decide +kernel

end IFEM.Props
