import Mathlib.Algebra.Polynomial.Derivative
import Mathlib.MeasureTheory.Integral.IntervalIntegral.Basic
import Mathlib.LinearAlgebra.Matrix.Charpoly.Basic

/-!
# Legendre polynomials and the rules of Gauss and Lobatto
-/
namespace IFEM.Spec
open Polynomial

/-- The Legendre polynomial of degree `n`, by the formula of Rodrigues: `P_n = 1/(2^n n!) d^n/dx^n (x^2-1)^n`. -/
noncomputable def legendre (n : Nat) : ℝ[X] := C (1 / (2^n * (n.factorial : ℝ))) * derivative^[n] ((X^2 - 1)^n)

/-- `re`, `im` are the real and imaginary parts of the eigenvalues of `A`, each repeated according to its (algebraic) multiplicity, in any order. -/
def Eigenvalues {n : Nat} (A : Matrix (Fin n) (Fin n) ℝ) (re im : List ℝ) : Prop :=
  re.length = n ∧ im.length = n ∧
  (A.map (fun a : ℝ => (a : ℂ))).charpoly = (List.map (fun ab : ℝ × ℝ => (X - C ((ab.1 : ℂ) + ab.2 * Complex.I) : ℂ[X])) (re.zip im)).prod

/-- `x`, `w` are the coordinates and weights of an `n`-point rule on `[-1,1]` with increasing points including both ends, and positive weights, which integrates
polynomials of degree `0, ..., 2n-3` exactly. -/
structure LobattoRule (n : Nat) (x w : List ℝ) : Prop where
  points : x.length = n
  weights : w.length = n
  first : x.getD 0 0 = -1
  last : x.getD (n-1) 0 = 1
  increasing : ∀ i j, i < j → j < n → x.getD i 0 < x.getD j 0
  positive : ∀ i, i < n → 0 < w.getD i 0
  exact : ∀ f : ℝ[X], f.natDegree + 2 < 2*n → (∑ i ∈ Finset.range n, w.getD i 0 * f.eval (x.getD i 0)) = ∫ s in (-1 : ℝ)..1, f.eval s

end IFEM.Spec
