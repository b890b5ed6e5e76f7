import Verif.Props.Supel
import Verif.Props.SupelTransform
import Mathlib.Data.Fin.VecNotation
/-! Property C82: a chain of two springs with a load on the internal node, and findings about the transformation. -/
namespace IFEM.Props
open IFEM.Spec IFEM.Supel IFEM.Mat

/-- Three nodes with one equation each. -/
def supelSam : Sam ℚ := { nnod := 3, nel := 0, ndof := 3, neq := 3, nceq := 0, madof := [1, 2, 3, 4], meqn := [1, 2, 3], mpmnpc := [1], mmnpc := [], mpmceq := [1], mmceq := [], ttcc := [] }

/-- The stiffness matrix of two springs. -/
def supelOps : List (SpOp ℚ) := [.set 1 1 1, .set 1 2 (-1), .set 2 1 (-1), .set 2 2 2, .set 2 3 (-1), .set 3 2 (-1), .set 3 3 1]

/-- A solver for one equation. -/
def supelSolve (M : Sparse ℚ) (b : List ℚ) : Option (List ℚ) := some (b.map fun v => v / SpVal M 1 1)

/-- Node 2 is internal. -/
def supelDiv : Division 3 1 2 where
  int := ![1]
  ext := ![0, 2]
  int_mono := by intro a b h; revert h; revert a b; decide
  ext_mono := by intro a b h; revert h; revert a b; decide
  all := by decide

def supelMat : Matrix (Fin 3) (Fin 3) ℚ := ![![1, -1, 0], ![-1, 2, -1], ![0, -1, 1]]

theorem supel_rep : SpRep (runOps ({ nrow := 3, ncol := 3, solver := .superlu } : Sparse ℚ) supelOps) supelMat :=
  ⟨by decide +kernel, by decide +kernel, by intro i j; fin_cases i <;> fin_cases j <;> decide +kernel⟩

theorem supel_retains : Retains supelSam [1, 3] supelDiv := ⟨[[1], [3]], by decide +kernel, by decide +kernel⟩

theorem supel_solves : SolvesFor supelSolve (supelMat.submatrix supelDiv.int supelDiv.int) := by
  intro M hM b
  have h := hM.ent 0 0
  have h2 : (supelMat.submatrix supelDiv.int supelDiv.int) 0 0 = 2 := by decide +kernel
  rw [h2] at h
  simp only [Fin.val_zero, Nat.zero_add] at h
  refine ⟨fun i => b i / 2, ?_, ?_⟩
  · unfold supelSolve
    rw [h, List.map_ofFn]
    rfl
  · funext i
    unfold Matrix.mulVec dotProduct
    rw [Fin.sum_univ_one]
    have hi : i = 0 := Subsingleton.elim _ _
    subst hi
    dsimp only
    rw [h2]
    ring

/-- **C82** (an example).  All hypotheses of the theorems hold for the two springs with the load 6 on node 2; the reduced system has the stiffness 1/2 and the loads 3, and the values 1 and 2 at the ends give 9/2 at node 2. -/
theorem C82_springs : (∃ (red : Reduced ℚ) (Ar : Matrix (Fin 2) (Fin 2) ℚ) (br : Fin 2 → ℚ), condense supelSolve supelSam (runOps { nrow := 3, ncol := 3, solver := .superlu } supelOps) (List.ofFn ![0, 6, 0]) [1, 3] = some (some red) ∧
      Rep red.A Ar ∧ red.b = List.ofFn br ∧ ∀ y : Fin 3 → ℚ, supelMat.mulVec y = ![0, 6, 0] ↔ ∃ xe, Ar.mulVec xe = br ∧ recoverVector supelSam red.R [1, 3] (List.ofFn xe) = some (some (List.ofFn y))) ∧
    (condense supelSolve supelSam (runOps { nrow := 3, ncol := 3, solver := .superlu } supelOps) [0, 6, 0] [1, 3]).map (fun r => r.map fun r => (r.A.elem, r.b)) = some (some ([1/2, -1/2, -1/2, 1/2], [3, 3])) ∧
    recoverVector supelSam ⟨1, 3, [3, 1/2, 1/2]⟩ [1, 3] [1, 2] = some (some [1, 9/2, 2]) := by
  refine ⟨C82_equivalence .superlu supelOps supelMat supelDiv supelSam [1, 3] supelSolve _ supel_retains (by omega) ⟨1, rfl⟩ rfl supel_solves (by decide +kernel) (by decide +kernel) supel_rep, ?_, ?_⟩ <;> decide +kernel

/-- **C82** (finding F154 on the example).  If nodes 1 and 2 are retained instead, the last equation is internal and the list of retained equations is left. -/
theorem C82_springs_last : condense supelSolve supelSam (runOps { nrow := 3, ncol := 3, solver := .superlu } supelOps) [0, 6, 0] [1, 2] = none := by decide +kernel

/-- **C82** (finding F155).  If the number of rows is not a multiple of the size of the nodal matrix, the transformation leaves the array; and a nodal matrix without rows makes the loop endless. -/
theorem C82_not_nodal : transformVec ([1, 2, 3, 4] : List ℚ) ⟨3, 3, [1, 0, 0, 0, 1, 0, 0, 0, 1]⟩ false = none ∧
    transformMat (⟨4, 4, List.replicate 16 1⟩ : Mat ℚ) ⟨3, 3, [1, 0, 0, 0, 1, 0, 0, 0, 1]⟩ = none ∧ transformVec ([1, 2] : List ℚ) ⟨0, 3, []⟩ false = none := by
  refine ⟨?_, ?_, ?_⟩ <;> decide +kernel

/-- The superelement patch with one node. -/
def onePatch : Patch ℚ := ⟨[[1, 0, 0]], ⟨3, 3, [4, 0, 0, 0, 1, 0, 0, 0, 0]⟩, [5, 0, 7]⟩
/-- A quarter turn about the third axis with a translation. -/
def quarterTurn : Mat ℚ := ⟨3, 4, [0, 1, 0, -1, 0, 0, 0, 0, 1, 10, 20, 30]⟩

/-- **C82** (rotation of a node).  Point, matrix and load vector of one node after a quarter turn about the third axis with a translation. -/
theorem C82_quarter_turn : (onePatch.transform quarterTurn).map (fun r => (r.1, r.2.nodes)) = some (true, [[10, 21, 30]]) ∧
    (onePatch.transform quarterTurn).map (fun r => (r.2.A.elem, r.2.b)) = some ([1, 0, 0, 0, 4, 0, 0, 0, 0], [0, 5, 7]) := by
  refine ⟨?_, ?_⟩ <;> decide +kernel

end IFEM.Props
