import Verif.Props.WeakCompatVec
/-!
# C72: the hypotheses can be met, and the defects of the operators
-/
namespace IFEM.Props
open IFEM IFEM.Spec IFEM.Spec.Weak IFEM.Lem IFEM.Mat IFEM.Weak

/-- Two functions at a point of a plane element. -/
def exN : Fin 2 → ℚ := ![1/4, 3/4]
/-- Their gradients. -/
def exD : Matrix (Fin 2) (Fin 2) ℚ := fun i l => if i = 0 then -1 else if l = 0 then 1 else 2

/-- The same basis for every component (and for the pressure). -/
def exFE : FE ℚ := ⟨fun _ => [1/4, 3/4], fun _ => ⟨2, 2, [-1, 1, -1, 2]⟩, 1/3⟩

theorem exFE_basis (b : Nat) : IsBasis exFE b exN exD := by
  refine ⟨?_, rfl, rfl, rfl, ?_⟩
  · show ([1/4, 3/4] : List ℚ) = List.ofFn exN
    decide +kernel
  · show ∀ (i j : Fin 2), ([-1, 1, -1, 2] : List ℚ)[i.1 + 2 * j.1]? = some (exD i j)
    decide +kernel

theorem exFE_bases : Bases (d := 2) (nn := fun _ => 2) exFE (fun _ => exN) (fun _ => exD) := ⟨rfl, fun k => exFE_basis _⟩

/-- The hypotheses of the theorems on one basis are met, with the result of one operator. -/
example : AddsForm (2 * 2) (2 * 2) (fun EM => mass EM exFE 6 1)
    (fun v u => 6 * exFE.detJxW * ∑ k, fval exN (nodal v) k * fval exN (nodal u) k) :=
  C72_mass (exFE_basis 1) (by decide) (by decide) 6

/-- The matrix of that operator, for a zero matrix. -/
example : (mass (Mat.zero 4 4) exFE 6 1).map (fun m => m.elem) =
    some [1/8, 0, 3/8, 0, 0, 1/8, 0, 3/8, 3/8, 0, 9/8, 0, 0, 3/8, 0, 9/8] := by decide +kernel

/-- An index table for two components. -/
def exIdx (k l : Nat) : Nat := if k = l then k + 1 else 3 + k

/-- The hypotheses of the theorems on several bases are met. -/
example : Function.Injective (fun q : Fin 2 × Fin 2 => exIdx q.1 q.2) ∧ (∀ k : Fin 2, exIdx k k = k + 1) ∧ (∀ _ : Fin 2, 0 < 2) := by
  refine ⟨?_, ?_, fun _ => by decide⟩
  · show ∀ a b : Fin 2 × Fin 2, exIdx a.1 a.2 = exIdx b.1 b.2 → a = b
    decide
  · decide

/-- One direction, two functions. -/
def exLine : FE ℚ := ⟨fun _ => [1, 0], fun _ => ⟨2, 1, [0, 1]⟩, 1⟩

theorem exLine_bases : Bases (d := 1) (nn := fun _ => 2) exLine (fun _ => ![1, 0]) (fun _ => fun i _ => if i = 0 then 0 else 1) := by
  refine ⟨rfl, fun k => ⟨?_, rfl, rfl, rfl, ?_⟩⟩
  · show ([1, 0] : List ℚ) = List.ofFn ![1, 0]
    decide +kernel
  · show ∀ (i : Fin 2) (j : Fin 1), ([0, 1] : List ℚ)[i.1 + 2 * j.1]? = some (if i = 0 then 0 else 1 : ℚ)
    decide +kernel

/-- F114: with one component both families of operators have the same input and should produce the
same matrix.  They do so for the convective form, not for the other two: the compatible operator
tests with the value where it should test with the derivative. -/
theorem C72_compatible_convection_defect :
    (convection (Mat.zero 2 2) exLine (fun _ => 1) (fun _ _ => 5) 2 .convective 1).map (fun m => [m.elem]) =
      (compConvection [Mat.zero 2 2] exLine (fun _ => 1) (fun _ _ => 5) (fun _ _ => 0) 2 .convective).map (fun L => L.map fun m => m.elem) ∧
    (convection (Mat.zero 2 2) exLine (fun _ => 1) (fun _ _ => 5) 2 .conservative 1).map (fun m => [m.elem]) = some [[0, -4, 0, 0]] ∧
    (compConvection [Mat.zero 2 2] exLine (fun _ => 1) (fun _ _ => 5) (fun _ _ => 0) 2 .conservative).map (fun L => L.map fun m => m.elem) = some [[0, -2, -2, 0]] ∧
    (convection (Mat.zero 2 2) exLine (fun _ => 1) (fun _ _ => 5) 2 .skew 1).map (fun m => [m.elem]) = some [[5, -2, 1, 0]] ∧
    (compConvection [Mat.zero 2 2] exLine (fun _ => 1) (fun _ _ => 5) (fun _ _ => 0) 2 .skew).map (fun L => L.map fun m => m.elem) = some [[5, -1, 0, 0]] := by
  decide +kernel

/-- F115: the compatible Laplacian does not use the diagonal entries of the index table: with the
blocks at the positions 2 and 1 it adds the terms of the first component to the second block. -/
theorem C72_compatible_laplacian_defect :
    (compLaplacian [Mat.zero 0 0, Mat.zero 2 2, Mat.zero 2 2] ⟨fun _ => [1, 0], fun b => if b = 1 then ⟨2, 2, [1, 0, 0, 0]⟩ else ⟨2, 2, [0, 0, 0, 1]⟩, 1⟩
      (fun k l => if k = l then 2 - k else 5 + k) 1 false).map (fun L : List (Mat ℚ) => L.map fun m => m.elem) = some [[], [1, 0, 0, 0], [0, 0, 0, 1]] ∧
    (compMass [Mat.zero 0 0, Mat.zero 2 2, Mat.zero 2 2] ⟨fun b => if b = 1 then [1, 0] else [0, 1], fun _ => ⟨2, 2, [1, 0, 0, 0]⟩, 1⟩
      (fun k l => if k = l then 2 - k else 5 + k) 1).map (fun L : List (Mat ℚ) => L.map fun m => m.elem) = some [[], [0, 0, 0, 1], [1, 0, 0, 0]] := by
  decide +kernel

/-- F116: the advection residual contracts the velocity with the rows of the transposed gradient:
for a velocity along the first axis and a field whose first component varies along the second
axis, `a·∇u` is zero, and the code adds a term to the second component; for a field whose second component
varies along the first axis `a·∇u` is `(0,1)`, and the code adds nothing. -/
theorem C72_residual_advection_defect :
    resAdvection [0, 0] (⟨fun _ => [1], fun _ => ⟨1, 2, [0, 0]⟩, 1⟩ : FE ℚ) (fun l => if l = 0 then 1 else 0)
      (fun k l => if k = 1 ∧ l = 2 then 1 else 0) 1 1 = [0, 1] ∧
    resAdvection [0, 0] (⟨fun _ => [1], fun _ => ⟨1, 2, [0, 0]⟩, 1⟩ : FE ℚ) (fun l => if l = 0 then 1 else 0)
      (fun k l => if k = 2 ∧ l = 1 then 1 else 0) 1 1 = [0, 0] := by
  decide +kernel

end IFEM.Props
