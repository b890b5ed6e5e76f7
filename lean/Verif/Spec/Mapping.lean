import Mathlib.Analysis.Calculus.FDeriv.Basic
import Mathlib.Analysis.Calculus.ContDiff.Defs
import Mathlib.LinearAlgebra.Matrix.Defs
import Mathlib.Analysis.Normed.Group.Constructions
import Mathlib.Analysis.Normed.Module.Basic
/-!
# Specification of coordinate mappings

Partial derivatives of functions of several variables, and the geometry mapping of an element.
-/
namespace IFEM.Spec

/-- Points with `d` coordinates. -/
abbrev Pt (d : Nat) := Fin d → ℝ

/-- The partial derivative of `f` in direction `k`. -/
noncomputable def pd {d : Nat} (f : Pt d → ℝ) (k : Fin d) (u : Pt d) : ℝ := fderiv ℝ f u (Pi.single k 1)

/-- The geometry mapping `x(u) = Σ X_a N_a(u)`. -/
def geo {s n d : Nat} (X : Matrix (Fin s) (Fin n) ℝ) (N : Fin n → Pt d → ℝ) (u : Pt d) : Pt s := fun i => ∑ a, X i a * N a u

/-- The Jacobian matrix `∂x_i/∂u_k` of a mapping. -/
noncomputable def jac {s d : Nat} (x : Pt d → Pt s) (u : Pt d) : Matrix (Fin s) (Fin d) ℝ := fun i k => pd (fun v => x v i) k u

/-- `F` is the function `N` of the parameters, seen as a function of the physical coordinates near `x(u)`. -/
def Pulls {s d : Nat} (x : Pt d → Pt s) (u : Pt d) (N : Pt d → ℝ) (F : Pt s → ℝ) : Prop := ∀ᶠ v in nhds u, F (x v) = N v

end IFEM.Spec
