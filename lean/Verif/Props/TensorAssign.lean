import Verif.Props.Tensor

/-!
# C68: tensors — assignment between tensors of different kinds
-/
namespace IFEM.Tens
open IFEM.Mapping Matrix

/-- The plane part of a matrix, and a plane matrix with zeros added. -/
def plane2 (M : Matrix (Fin 3) (Fin 3) ℝ) : Matrix (Fin 2) (Fin 2) ℝ := !![M 0 0, M 0 1; M 1 0, M 1 1]
@[inherit_doc plane2] def zero3 (M : Matrix (Fin 2) (Fin 2) ℝ) : Matrix (Fin 3) (Fin 3) ℝ := !![M 0 0, M 0 1, 0; M 1 0, M 1 1, 0; 0, 0, 0]

/-- **C68 (assignment).**  Assignment copies a tensor of the same kind, takes the plane part of a three-dimensional one, adds zeros to a plane one, and takes the upper triangle for a symmetric tensor; the
component 33 of a plane tensor is transferred to a full three-dimensional tensor. -/
theorem C68_assign (A A' : Matrix (Fin 3) (Fin 3) ℝ) (B B' : Matrix (Fin 2) (Fin 2) ℝ) :
    (ofMat A').assign (ofMat A) = ofMat A ∧ (ofMat B').assign (ofMat B) = ofMat B ∧ (ofSym3 A').assign (ofSym3 A) = ofSym3 A ∧
    (ofSym2 B').assign (ofSym2 B) = ofSym2 B ∧ (ofSym33 A').assign (ofSym33 A) = ofSym33 A ∧
    (ofMat B').assign (ofMat A) = ofMat (plane2 A) ∧ (ofMat A').assign (ofMat B) = ofMat (zero3 B) ∧
    (ofSym3 A').assign (ofMat A) = ofSym3 A ∧ (ofSym2 B').assign (ofMat B) = ofSym2 B ∧ (ofSym2 B').assign (ofMat A) = ofSym2 (plane2 A) ∧
    (A.IsSymm → (ofMat A').assign (ofSym3 A) = ofMat A ∧ (ofSym33 A').assign (ofSym3 A) = ofSym33 A) ∧ (B.IsSymm → (ofMat B').assign (ofSym2 B) = ofMat B) ∧
    (Plane A → (ofMat A').assign (ofSym33 A) = ofMat A ∧ (ofSym2 B').assign (ofSym33 A) = ofSym2 (plane2 A)) := by
  refine ⟨?_, ?_, ?_, ?_, ?_, ?_, ?_, ?_, ?_, ?_, ?_, ?_, ?_⟩
  · simp [ofMat3_eq, Tensor.assign]
  · simp [ofMat2_eq, Tensor.assign]
  · simp [ofSym3, Tensor.assign]
  · simp [ofSym2, Tensor.assign]
  · simp [ofSym33, Tensor.assign]
  · simp [ofMat3_eq, ofMat2_eq, Tensor.assign, pr2, Tensor.put, Tensor.get, Tensor.at, Tensor.index, plane2]
  · simp [ofMat3_eq, ofMat2_eq, Tensor.assign, pr2, Tensor.put, Tensor.get, Tensor.at, Tensor.index, zero3, List.replicate]
  · simp [ofMat3_eq, ofSym3, Tensor.assign, pt3, Tensor.put, Tensor.get, Tensor.at, Tensor.index]
  · simp [ofMat2_eq, ofSym2, Tensor.assign, pt2, Tensor.put, Tensor.get, Tensor.at, Tensor.index]
  · simp [ofMat3_eq, ofSym2, Tensor.assign, pt2, Tensor.put, Tensor.get, Tensor.at, Tensor.index, plane2]
  · intro h
    simp [ofMat3_eq, ofSym3, ofSym33, Tensor.assign, pr3, pt2, Tensor.put, Tensor.get, Tensor.at, Tensor.index, sym_le h 0 1, sym_le h 0 2, sym_le h 1 2]
  · intro h
    simp [ofMat2_eq, ofSym2, Tensor.assign, pr2, Tensor.put, Tensor.get, Tensor.at, Tensor.index, sym_le h 0 1]
  · intro h
    simp [ofMat3_eq, ofSym33, ofSym2, Tensor.assign, pr2, pt2, Tensor.put, Tensor.get, Tensor.at, Tensor.index, plane2, List.replicate, sym_le h.1 0 1, sym_le h.1 0 2, sym_le h.1 1 2, h.2.1, h.2.2]

/-- **C68 (counterexample, assignment).**  The component 33 is lost when a plane tensor is assigned to a symmetric three-dimensional one; and a full plane tensor assigned to a plane tensor with the component
33 is copied as it is stored: the component 12 becomes the component 33, and the component 22 the component 12. -/
theorem C68_assign_counterexample : (ofSym3 0).assign (ofSym33 1) = ofSym3 !![1, 0, 0; 0, 1, 0; 0, 0, 0] ∧
    (ofSym33 0).assign (ofMat !![1, 2; 2, 3]) = ofSym33 !![1, 3, 0; 3, 2, 0; 0, 0, 2] := by
  constructor
  · simp [ofSym3, ofSym33, Tensor.assign, pt2, Tensor.put, Tensor.get, Tensor.at, Tensor.index, List.replicate]
  · simp [ofSym33, ofMat2_eq, Tensor.assign]

end IFEM.Tens
