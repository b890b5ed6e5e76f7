import Verif.Props.Tensor
import Mathlib.Tactic.LinearCombination
import Mathlib.Tactic.Positivity

/-!
# C68: tensors — inverse, transformation, invariants
-/
namespace IFEM.Tens
open IFEM.Mapping Matrix

theorem mul_div_one {a b d : ℝ} (hd : d ≠ 0) (h : a = b*d) : a/d = b := by rw [h]; field_simp

/-- The matrix an inverse writes is the inverse if the product with the matrix is the unit matrix. -/
theorem inv_of_mul {n : Nat} {M N : Matrix (Fin n) (Fin n) ℝ} (h : M*N = 1) : N = M⁻¹ := (inv_eq_right_inv h).symm

/-- **C68 (inverse).**  The inverse of a tensor with determinant larger than the tolerance, in absolute value, and the determinant returned; otherwise the tensor is left as it is and zero is returned. -/
theorem C68_inverse {n : Nat} (h1 : 1 ≤ n) (h3 : n ≤ 3) (M : Matrix (Fin n) (Fin n) ℝ) (tol : ℝ) (ht : 0 ≤ tol) :
    (tol < |M.det| → inverseGen (ofMat M) tol = (ofMat M⁻¹, M.det)) ∧ (|M.det| ≤ tol → inverseGen (ofMat M) tol = (ofMat M, 0)) := by
  have hd : (ofMat M).det = M.det := (C68_trace_det.1 M h1 h3).2
  constructor
  · intro h
    have hne : M.det ≠ 0 := by intro h0; rw [h0, abs_zero] at h; linarith
    have hb : ¬ ((ofMat M).det ≤ tol ∧ (ofMat M).det ≥ -tol) := by
      rw [hd]; rintro ⟨ha, hb⟩; exact absurd (abs_le.2 ⟨hb, ha⟩) (not_le.2 h)
    rw [inverseGen]
    rw [if_neg hb, hd]
    interval_cases n
    · have e : !![1/M.det] = M⁻¹ := inv_of_mul (by
        ext i j; fin_cases i; fin_cases j
        simp [Matrix.mul_apply, det_unique]
        have : M 0 0 ≠ 0 := by simpa [det_unique] using hne
        field_simp)
      rw [← e]; simp [ofMat1_eq]
    · have e : !![M 1 1/M.det, -M 0 1/M.det; -M 1 0/M.det, M 0 0/M.det] = M⁻¹ := inv_of_mul (by
        have hx := det_fin_two M
        ext i j
        fin_cases i <;> fin_cases j <;> simp [Matrix.mul_apply, Fin.sum_univ_two] <;> field_simp <;> rw [hx] <;> ring)
      rw [← e]; simp [ofMat2_eq, Tensor.at]
    · have e : !![(M 1 1*M 2 2 - M 2 1*M 1 2)/M.det, -(M 0 1*M 2 2 - M 2 1*M 0 2)/M.det, (M 0 1*M 1 2 - M 1 1*M 0 2)/M.det;
          -(M 1 0*M 2 2 - M 2 0*M 1 2)/M.det, (M 0 0*M 2 2 - M 2 0*M 0 2)/M.det, -(M 0 0*M 1 2 - M 1 0*M 0 2)/M.det;
          (M 1 0*M 2 1 - M 2 0*M 1 1)/M.det, -(M 0 0*M 2 1 - M 2 0*M 0 1)/M.det, (M 0 0*M 1 1 - M 1 0*M 0 1)/M.det] = M⁻¹ := inv_of_mul (by
        have hx := det_fin_three M
        ext i j
        fin_cases i <;> fin_cases j <;> simp [Matrix.mul_apply, Fin.sum_univ_three] <;> field_simp <;> rw [hx] <;> ring)
      rw [← e]; simp [ofMat3_eq, Tensor.at]
  · intro h
    have hb : (ofMat M).det ≤ tol ∧ (ofMat M).det ≥ -tol := by
      rw [hd]; have := abs_le.1 h; exact ⟨this.2, this.1⟩
    rw [inverseGen]
    simp only [hb, and_self, if_true]

theorem plane_inv_mul {M : Matrix (Fin 3) (Fin 3) ℝ} (h : Plane M) (hne : M.det ≠ 0) :
    M * !![M 1 1/M.det*M 2 2, -M 0 1/M.det*M 2 2, 0; -M 0 1/M.det*M 2 2, M 0 0/M.det*M 2 2, 0; 0, 0, (M 0 0*M 1 1 - M 0 1*M 0 1)/M.det] = 1 := by
  have hx := det_fin_three M
  have a := sym_le h.1 0 1
  have b := sym_le h.1 0 2
  have c := sym_le h.1 1 2
  obtain ⟨_, p, q⟩ := h
  rw [a, b, c, p, q] at hx
  ext i j
  fin_cases i <;> fin_cases j <;> simp [Matrix.mul_apply, Fin.sum_univ_three, a, b, c, p, q] <;> field_simp <;> (try rw [hx]) <;> ring

theorem sym3_inv_mul {M : Matrix (Fin 3) (Fin 3) ℝ} (h : M.IsSymm) (hne : M.det ≠ 0) :
    M * !![(M 1 1*M 2 2 - M 1 2*M 1 2)/M.det, -(M 0 1*M 2 2 - M 0 2*M 1 2)/M.det, (M 0 1*M 1 2 - M 0 2*M 1 1)/M.det;
      -(M 0 1*M 2 2 - M 0 2*M 1 2)/M.det, (M 0 0*M 2 2 - M 0 2*M 0 2)/M.det, -(M 0 0*M 1 2 - M 0 2*M 0 1)/M.det;
      (M 0 1*M 1 2 - M 0 2*M 1 1)/M.det, -(M 0 0*M 1 2 - M 0 2*M 0 1)/M.det, (M 0 0*M 1 1 - M 0 1*M 0 1)/M.det] = 1 := by
  have hx := det_fin_three M
  have a := sym_le h 0 1
  have b := sym_le h 0 2
  have c := sym_le h 1 2
  rw [a, b, c] at hx
  ext i j
  fin_cases i <;> fin_cases j <;> simp [Matrix.mul_apply, Fin.sum_univ_three, a, b, c] <;> field_simp <;> (try rw [hx]) <;> ring

theorem sym2_inv_mul {M : Matrix (Fin 2) (Fin 2) ℝ} (h : M.IsSymm) (hne : M.det ≠ 0) :
    M * !![M 1 1/M.det, -M 0 1/M.det; -M 0 1/M.det, M 0 0/M.det] = 1 := by
  have hx := det_fin_two M
  have a := sym_le h 0 1
  rw [a] at hx
  ext i j
  fin_cases i <;> fin_cases j <;> simp [Matrix.mul_apply, Fin.sum_univ_two, a] <;> field_simp <;> (try rw [hx]) <;> ring

/-- **C68 (inverse, symmetric).**  The same for the symmetric tensors. -/
theorem C68_inverse_symmetric (tol : ℝ) (ht : 0 ≤ tol) :
    (∀ M : Matrix (Fin 3) (Fin 3) ℝ, M.IsSymm → (tol < |M.det| → inverseSym (ofSym3 M) tol = (ofSym3 M⁻¹, M.det)) ∧ (|M.det| ≤ tol → inverseSym (ofSym3 M) tol = (ofSym3 M, 0))) ∧
    (∀ M : Matrix (Fin 3) (Fin 3) ℝ, Plane M → (tol < |M.det| → inverseSym (ofSym33 M) tol = (ofSym33 M⁻¹, M.det)) ∧ (|M.det| ≤ tol → inverseSym (ofSym33 M) tol = (ofSym33 M, 0))) ∧
    (∀ M : Matrix (Fin 2) (Fin 2) ℝ, M.IsSymm → (tol < |M.det| → inverseSym (ofSym2 M) tol = (ofSym2 M⁻¹, M.det)) ∧ (|M.det| ≤ tol → inverseSym (ofSym2 M) tol = (ofSym2 M, 0))) := by
  have small : ∀ (S : Tensor) (d : ℝ), S.det = d → |d| ≤ tol → inverseSym S tol = (S, 0) := by
    intro S d hd h
    have hb : S.det ≤ tol ∧ S.det ≥ -tol := by rw [hd]; have := abs_le.1 h; exact ⟨this.2, this.1⟩
    rw [inverseSym]
    simp only [hb, and_self, if_true]
  have large : ∀ (S : Tensor) (d : ℝ), S.det = d → tol < |d| → d ≠ 0 ∧ ¬ (S.det ≤ tol ∧ S.det ≥ -tol) := by
    intro S d hd h
    refine ⟨by intro h0; rw [h0, abs_zero] at h; linarith, ?_⟩
    rw [hd]; rintro ⟨ha, hb⟩; exact absurd (abs_le.2 ⟨hb, ha⟩) (not_le.2 h)
  refine ⟨?_, ?_, ?_⟩
  · intro M hs
    have hd := (C68_trace_det.2.1 M hs).2
    refine ⟨fun h => ?_, small _ _ hd⟩
    obtain ⟨hne, hb⟩ := large _ _ hd h
    rw [inverseSym]
    rw [if_neg hb, hd]
    rw [← inv_of_mul (sym3_inv_mul hs hne)]
    simp [ofSym3, Tensor.at]
  · intro M hs
    have hd := (C68_trace_det.2.2.2 M hs).2
    refine ⟨fun h => ?_, small _ _ hd⟩
    obtain ⟨hne, hb⟩ := large _ _ hd h
    rw [inverseSym]
    rw [if_neg hb, hd]
    rw [← inv_of_mul (plane_inv_mul hs hne)]
    simp [ofSym33, Tensor.at]
  · intro M hs
    have hd := (C68_trace_det.2.2.1 M hs).2
    refine ⟨fun h => ?_, small _ _ hd⟩
    obtain ⟨hne, hb⟩ := large _ _ hd h
    rw [inverseSym]
    rw [if_neg hb, hd]
    rw [← inv_of_mul (sym2_inv_mul hs hne)]
    simp [ofSym2, Tensor.at]

example : ∃ M : Matrix (Fin 3) (Fin 3) ℝ, M.IsSymm ∧ (1/10^8 : ℝ) < |M.det| ∧ M 0 1 ≠ 0 := by
  refine ⟨!![2, 1, 0; 1, 2, 0; 0, 0, 1], ?_, ?_, ?_⟩
  · apply IsSymm.ext; intro i j; fin_cases i <;> fin_cases j <;> rfl
  · rw [det_fin_three]; simp; norm_num
  · simp

/-- **C68 (transformation).**  A symmetric tensor transformed by a tensor `T` is `T A Tᵀ`; a transformation of two dimensions acts on the first two. -/
theorem C68_transform :
    (∀ A T : Matrix (Fin 3) (Fin 3) ℝ, A.IsSymm → (ofSym3 A).transform (ofMat T) = ofSym3 (T*A*Tᵀ)) ∧
    (∀ (A : Matrix (Fin 3) (Fin 3) ℝ) (T : Matrix (Fin 2) (Fin 2) ℝ), A.IsSymm → (ofSym3 A).transform (ofMat T) = ofSym3 (pad2 T*A*(pad2 T)ᵀ)) ∧
    (∀ A T : Matrix (Fin 2) (Fin 2) ℝ, A.IsSymm → (ofSym2 A).transform (ofMat T) = ofSym2 (T*A*Tᵀ)) ∧
    (∀ (A : Matrix (Fin 3) (Fin 3) ℝ) (T : Matrix (Fin 2) (Fin 2) ℝ), Plane A → (ofSym33 A).transform (ofMat T) = ofSym33 (pad2 T*A*(pad2 T)ᵀ)) := by
  refine ⟨?_, ?_, ?_, ?_⟩
  · intro A T h
    simp [ofSym3, ofMat3_eq, Tensor.transform, Tensor.get, Tensor.at, Tensor.index, Matrix.mul_apply, Fin.sum_univ_three, sym_le h 0 1, sym_le h 0 2, sym_le h 1 2]
    ring_nf
  · intro A T h
    simp [ofSym3, ofMat2_eq, Tensor.transform, Tensor.get, Tensor.at, Tensor.index, Matrix.mul_apply, Fin.sum_univ_three, sym_le h 0 1, sym_le h 0 2, sym_le h 1 2, pad2, Matrix.vecMul, dotProduct]
  · intro A T h
    simp [ofSym2, ofMat2_eq, Tensor.transform, Tensor.get, Tensor.at, Tensor.back, Tensor.index, Matrix.mul_apply, Fin.sum_univ_two, sym_le h 0 1]
  · intro A T h
    simp [ofSym33, ofMat2_eq, Tensor.transform, Tensor.get, Tensor.at, Tensor.back, Tensor.index, Matrix.mul_apply, Fin.sum_univ_three, sym_le h.1 0 1, sym_le h.1 0 2, sym_le h.1 1 2, h.2.1, h.2.2, pad2, Matrix.vecMul, dotProduct]

/-- **C68 (Cauchy–Green tensors).**  The right and the left one of a deformation gradient; the dimension of the tensor is adjusted. -/
theorem C68_cauchy_green :
    (∀ (F : Matrix (Fin 3) (Fin 3) ℝ) (S : Tensor), S.sym = true → (S.n = 3 → S.v.length = 6) →
      S.rightCauchyGreen (ofMat F) = ofSym3 (Fᵀ*F) ∧ S.leftCauchyGreen (ofMat F) = ofSym3 (F*Fᵀ)) ∧
    (∀ (F : Matrix (Fin 2) (Fin 2) ℝ) (S : Tensor), S.sym = true → (S.n = 2 → S.v.length = 3) →
      S.rightCauchyGreen (ofMat F) = ofSym2 (Fᵀ*F) ∧ S.leftCauchyGreen (ofMat F) = ofSym2 (F*Fᵀ)) := by
  constructor
  · rintro F ⟨n, sym, v⟩ hs hv
    simp only at hs hv
    subst hs
    have hr : ∃ w, (⟨n, true, v⟩ : Tensor).redim 3 = ⟨3, true, w⟩ ∧ w.length = 6 := by
      rw [Tensor.redim]
      split
      · rename_i h; simp only at h; subst h; exact ⟨v, rfl, hv rfl⟩
      · exact ⟨_, rfl, by simp⟩
    obtain ⟨w, hw, hl⟩ := hr
    have hn : (ofMat F).n = 3 := by rw [ofMat3_eq]
    simp only [Tensor.rightCauchyGreen, Tensor.leftCauchyGreen, hn, hw]
    match w, hl with
    | [a, b, c, d, e, f], _ =>
      simp [ofSym3, ofMat3_eq, Tensor.write, Tensor.get, Tensor.at, Tensor.index, Matrix.mul_apply, Fin.sum_univ_three]
  · rintro F ⟨n, sym, v⟩ hs hv
    simp only at hs hv
    subst hs
    have hr : ∃ w, (⟨n, true, v⟩ : Tensor).redim 2 = ⟨2, true, w⟩ ∧ w.length = 3 := by
      rw [Tensor.redim]
      split
      · rename_i h; simp only at h; subst h; exact ⟨v, rfl, hv rfl⟩
      · exact ⟨_, rfl, by simp⟩
    obtain ⟨w, hw, hl⟩ := hr
    have hn : (ofMat F).n = 2 := by rw [ofMat2_eq]
    simp only [Tensor.rightCauchyGreen, Tensor.leftCauchyGreen, hn, hw]
    match w, hl with
    | [a, b, c], _ =>
      simp [ofSym2, ofMat2_eq, Tensor.write, Tensor.get, Tensor.at, Tensor.index, Matrix.mul_apply, Fin.sum_univ_two]

/-- **C68 (counterexample, plane tensors).**  A two-dimensional tensor with the component 33 gets the off-diagonal term of the right Cauchy–Green tensor in its component 33. -/
theorem C68_plane_counterexample : ∃ F : Matrix (Fin 2) (Fin 2) ℝ,
    (symDim 2 true).rightCauchyGreen (ofMat F) = ⟨2, true, [1, 2, 1, 0]⟩ ∧ Fᵀ*F = !![1, 1; 1, 2] := by
  refine ⟨!![1, 1; 0, 1], ?_, ?_⟩
  · simp [ofMat2_eq, symDim, Tensor.rightCauchyGreen, Tensor.redim, Tensor.write, Tensor.get, Tensor.at, Tensor.index, List.replicate]; norm_num
  · ext i j; fin_cases i <;> fin_cases j <;> simp [Matrix.mul_apply, Fin.sum_univ_two]; norm_num

/-- **C68 (norms).**  The square of the L2-norm is the double contraction of the tensor with itself, and the square of the von Mises value is 3/2 times that of the deviator. -/
theorem C68_norms :
    (∀ A : Matrix (Fin 3) (Fin 3) ℝ, A.IsSymm → l2norm2 (ofSym3 A) = ddot A A ∧ vonMises2 (ofSym3 A) = 3/2*ddot (dev A) (dev A)) ∧
    (∀ A : Matrix (Fin 3) (Fin 3) ℝ, Plane A → l2norm2 (ofSym33 A) = ddot A A ∧ vonMises2 (ofSym33 A) = 3/2*ddot (dev A) (dev A)) ∧
    (∀ A : Matrix (Fin 2) (Fin 2) ℝ, A.IsSymm → l2norm2 (ofSym2 A) = ddot A A) := by
  refine ⟨?_, ?_, ?_⟩
  · intro A h
    simp [ofSym3, l2norm2, vonMises2, Tensor.at, List.range_succ, ddot, dev, Fin.sum_univ_three, sym_le h 0 1, sym_le h 0 2, sym_le h 1 2, Matrix.trace]
    constructor <;> ring
  · intro A h
    simp [ofSym33, l2norm2, vonMises2, Tensor.at, List.range_succ, ddot, dev, Fin.sum_univ_three, sym_le h.1 0 1, sym_le h.1 0 2, sym_le h.1 1 2, Matrix.trace, h.2.1, h.2.2]
    constructor <;> ring
  · intro A h
    simp [ofSym2, l2norm2, Tensor.at, List.range_succ, ddot, Fin.sum_univ_two, sym_le h 0 1]; ring

/-- **C68 (von Mises).**  The von Mises value is the nonnegative square root of it, in two and three dimensions; a plane tensor without the component 33 counts as having a zero there. -/
theorem C68_vonMises :
    (∀ A : Matrix (Fin 3) (Fin 3) ℝ, A.IsSymm → 0 ≤ vonMises (ofSym3 A) ∧ vonMises (ofSym3 A)^2 = 3/2*ddot (dev A) (dev A)) ∧
    (∀ A : Matrix (Fin 3) (Fin 3) ℝ, Plane A → 0 ≤ vonMises (ofSym33 A) ∧ vonMises (ofSym33 A)^2 = 3/2*ddot (dev A) (dev A)) ∧
    (∀ A : Matrix (Fin 2) (Fin 2) ℝ, vonMises (ofSym2 A) = vonMises (ofSym33 !![A 0 0, A 0 1, 0; A 0 1, A 1 1, 0; 0, 0, 0])) := by
  have nn (B : Matrix (Fin 3) (Fin 3) ℝ) : 0 ≤ 3/2*ddot B B := by
    have : 0 ≤ ddot B B := Finset.sum_nonneg fun i _ => Finset.sum_nonneg fun j _ => mul_self_nonneg _
    linarith
  refine ⟨?_, ?_, ?_⟩
  · intro A h
    have e : vonMises (ofSym3 A) = Real.sqrt (vonMises2 (ofSym3 A)) := by rw [vonMises, if_neg]; simp [ofSym3]
    rw [e, (C68_norms.1 A h).2]
    exact ⟨Real.sqrt_nonneg _, Real.sq_sqrt (nn _)⟩
  · intro A h
    have e : vonMises (ofSym33 A) = Real.sqrt (vonMises2 (ofSym33 A)) := by rw [vonMises, if_neg]; simp [ofSym33]
    rw [e, (C68_norms.2.1 A h).2]
    exact ⟨Real.sqrt_nonneg _, Real.sq_sqrt (nn _)⟩
  · intro A
    simp [vonMises, vonMises2, ofSym2, ofSym33, Tensor.at]

/-- **C68 (product of symmetric tensors).**  The upper triangle of the matrix product, hence the product itself if the two commute. -/
theorem C68_product_symmetric :
    (∀ A B : Matrix (Fin 3) (Fin 3) ℝ, A.IsSymm → B.IsSymm → mulSym (ofSym3 A) (ofSym3 B) = ofSym3 (A*B)) ∧
    (∀ A B : Matrix (Fin 2) (Fin 2) ℝ, A.IsSymm → B.IsSymm → mulSym (ofSym2 A) (ofSym2 B) = ofSym2 (A*B)) ∧
    (∀ A B : Matrix (Fin 3) (Fin 3) ℝ, A.IsSymm → B.IsSymm → A*B = B*A → (A*B).IsSymm) := by
  refine ⟨?_, ?_, ?_⟩
  · intro A B ha hb
    simp [ofSym3, mulSym, symDim, Tensor.write, Tensor.at, Matrix.mul_apply, Fin.sum_univ_three, List.replicate,
      sym_le ha 0 1, sym_le ha 0 2, sym_le ha 1 2, sym_le hb 0 1, sym_le hb 0 2, sym_le hb 1 2]
  · intro A B ha hb
    simp [ofSym2, mulSym, symDim, Tensor.write, Tensor.at, Matrix.mul_apply, Fin.sum_univ_two, List.replicate, sym_le ha 0 1, sym_le hb 0 1]
  · intro A B ha hb h
    rw [IsSymm, transpose_mul, ha.eq, hb.eq, h]

end IFEM.Tens
