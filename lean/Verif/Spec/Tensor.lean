import Verif.Model.Tensor
import Mathlib.LinearAlgebra.Matrix.Notation
import Mathlib.LinearAlgebra.Matrix.Determinant.Basic
import Mathlib.LinearAlgebra.Matrix.Trace
import Mathlib.LinearAlgebra.Matrix.NonsingularInverse
import Mathlib.LinearAlgebra.CrossProduct

/-!
# Specification of the tensors

What the component arrays of the tensor classes stand for, in terms of Mathlib's matrices.
-/
namespace IFEM.Tens
open IFEM.Mapping

/-- The tensor holding the components of a square matrix, column by column. -/
def ofMat {n : Nat} (M : Matrix (Fin n) (Fin n) ℝ) : Tensor :=
  ⟨n, false, (List.finRange n).flatMap fun j => (List.finRange n).map fun i => M i j⟩

/-- The symmetric tensors in one, two and three dimensions: the diagonal, then the terms 12, 23, 13. -/
def ofSym1 (M : Matrix (Fin 1) (Fin 1) ℝ) : Tensor := ⟨1, true, [M 0 0]⟩
@[inherit_doc ofSym1] def ofSym2 (M : Matrix (Fin 2) (Fin 2) ℝ) : Tensor := ⟨2, true, [M 0 0, M 1 1, M 0 1]⟩
@[inherit_doc ofSym1] def ofSym3 (M : Matrix (Fin 3) (Fin 3) ℝ) : Tensor := ⟨3, true, [M 0 0, M 1 1, M 2 2, M 0 1, M 1 2, M 0 2]⟩

/-- The symmetric tensor of two dimensions which has the component 33 as well. -/
def ofSym33 (M : Matrix (Fin 3) (Fin 3) ℝ) : Tensor := ⟨2, true, [M 0 0, M 1 1, M 2 2, M 0 1]⟩

/-- The matrices a two-dimensional tensor with the component 33 stands for. -/
def Plane (M : Matrix (Fin 3) (Fin 3) ℝ) : Prop := M.IsSymm ∧ M 0 2 = 0 ∧ M 1 2 = 0

/-- A point or vector as a function of the direction. -/
def vec (u : V3) : Fin 3 → ℝ := ![u.x, u.y, u.z]

/-- The matrix acting on the first two components, and as the identity on the third. -/
def pad2 (M : Matrix (Fin 2) (Fin 2) ℝ) : Matrix (Fin 3) (Fin 3) ℝ := !![M 0 0, M 0 1, 0; M 1 0, M 1 1, 0; 0, 0, 1]

/-- The matrix acting on the first component, and as the identity on the others. -/
def pad1 (M : Matrix (Fin 1) (Fin 1) ℝ) : Matrix (Fin 3) (Fin 3) ℝ := !![M 0 0, 0, 0; 0, 1, 0; 0, 0, 1]

/-- The deviator of a symmetric matrix. -/
noncomputable def dev (M : Matrix (Fin 3) (Fin 3) ℝ) : Matrix (Fin 3) (Fin 3) ℝ := M - (M.trace/3) • (1 : Matrix (Fin 3) (Fin 3) ℝ)

/-- The double contraction of two matrices. -/
def ddot {n : Nat} (A B : Matrix (Fin n) (Fin n) ℝ) : ℝ := ∑ i, ∑ j, A i j*B i j

end IFEM.Tens
