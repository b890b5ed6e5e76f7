import Verif.Props.TensorInv
import Verif.Props.TensorRot

/-!
# C68: tensors of one and two dimensions

The cases that the other statements leave out: rotation in the plane, symmetric tensors of one dimension, products of symmetric plane tensors with vectors.
-/
namespace IFEM.Tens
open IFEM.Mapping Matrix

/-- **C68 (rotation in the plane).**  Only a rotation about the third axis changes a tensor of two dimensions, and nothing changes one of one dimension. -/
theorem C68_rotate_plane (M : Matrix (Fin 2) (Fin 2) ℝ) (M1 : Matrix (Fin 1) (Fin 1) ℝ) (alpha : ℝ) :
    (ofMat M).rotate alpha 3 = ofMat (M * !![Real.cos alpha, -Real.sin alpha; Real.sin alpha, Real.cos alpha]) ∧
    (∀ axis, axis ≠ 3 → (ofMat M).rotate alpha axis = ofMat M) ∧ ∀ axis, (ofMat M1).rotate alpha axis = ofMat M1 := by
  refine ⟨?_, ?_, ?_⟩
  · simp [ofMat2_eq, Tensor.rotate, rotRow, Tensor.put, Tensor.get, Tensor.at, Tensor.index, List.range_succ, Matrix.mul_apply, Fin.sum_univ_two]
    refine ⟨?_, ?_, ?_, ?_⟩ <;> ring
  · intro axis hx
    unfold Tensor.rotate; rw [if_neg (by simp only [ofMat2_eq]; omega)]
  · intro axis
    unfold Tensor.rotate; rw [if_neg (by simp only [ofMat1_eq]; omega)]

/-- **C68 (axis 0).**  There is no axis with number 0. -/
theorem C68_rotate_zero (M : Matrix (Fin 3) (Fin 3) ℝ) (alpha : ℝ) : (ofMat M).rotate alpha 0 = ofMat M := by
  simp [ofMat3_eq, Tensor.rotate]

/-- **C68 (one dimension).**  Trace, determinant, norm, products and Cauchy–Green tensors of symmetric tensors of one dimension; the von Mises value keeps the sign. -/
theorem C68_one_dimension (A B F : Matrix (Fin 1) (Fin 1) ℝ) (u : V3) :
    (ofSym1 A).trace = A.trace ∧ (ofSym1 A).det = A.det ∧ l2norm2 (ofSym1 A) = ddot A A ∧ vonMises (ofSym1 A) = A 0 0 ∧ vonMises2 (ofSym1 A) = ddot A A ∧
    mulSym (ofSym1 A) (ofSym1 B) = ofSym1 (A*B) ∧ (ofSym1 A).outerSym u = ofSym1 !![u.x*u.x] ∧
    (ofSym1 A).rightCauchyGreen (ofMat F) = ofSym1 (Fᵀ*F) ∧ (ofSym1 A).leftCauchyGreen (ofMat F) = ofSym1 (F*Fᵀ) := by
  refine ⟨?_, ?_, ?_, ?_, ?_, ?_, ?_, ?_, ?_⟩ <;>
    simp [ofSym1, ofMat1_eq, Tensor.trace, Tensor.det, Tensor.at, Tensor.back, l2norm2, vonMises, vonMises2, mulSym, symDim, Tensor.write, Tensor.outerSym, Tensor.rightCauchyGreen, Tensor.leftCauchyGreen,
      Tensor.redim, Tensor.get, Tensor.index, Matrix.trace, ddot, Matrix.mul_apply, List.range_succ, List.replicate]

/-- **C68 (vectors in the plane).**  The products of a symmetric plane tensor (with or without the component 33) with a vector. -/
theorem C68_vectors_plane (u : V3) (M : Matrix (Fin 2) (Fin 2) ℝ) (h : M.IsSymm) (P : Matrix (Fin 3) (Fin 3) ℝ) (hP : Plane P) :
    vec (mulVec (ofSym2 M) u) = pad2 M *ᵥ vec u ∧ vec (vecMul u (ofSym2 M)) = pad2 M *ᵥ vec u ∧
    vec (mulVec (ofSym33 P) u) = ![P 0 0*u.x + P 0 1*u.y, P 1 0*u.x + P 1 1*u.y, u.z] ∧ vec (vecMul u (ofSym33 P)) = ![P 0 0*u.x + P 0 1*u.y, P 1 0*u.x + P 1 1*u.y, u.z] := by
  have a := sym_le h 0 1
  have b := sym_le hP.1 0 1
  refine ⟨?_, ?_, ?_, ?_⟩ <;> funext i <;> fin_cases i <;>
      simp [ofSym2, ofSym33, vec, mulVec, vecMul, Tensor.get, Tensor.at, Tensor.index, Matrix.mulVec, dotProduct, Fin.sum_univ_three, pad2, a, b]

end IFEM.Tens
