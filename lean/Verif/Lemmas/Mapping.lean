import Verif.Spec.Mapping
import Mathlib.Analysis.Calculus.FDeriv.Comp
import Mathlib.Analysis.Calculus.FDeriv.Mul
import Mathlib.Analysis.Calculus.FDeriv.Add
import Mathlib.Analysis.Calculus.FDeriv.Pi
import Mathlib.Analysis.Calculus.FDeriv.Congr
import Mathlib.Analysis.Calculus.FDeriv.Symmetric
import Mathlib.Analysis.Calculus.ContDiff.Basic
import Mathlib.Analysis.Calculus.ContDiff.Operations
import Mathlib.Analysis.Calculus.InverseFunctionTheorem.ContDiff
import Mathlib.LinearAlgebra.Matrix.ToLin
import Mathlib.LinearAlgebra.Matrix.NonsingularInverse
/-!
# Lemmas on partial derivatives
-/
namespace IFEM.Lem
open IFEM.Spec
open scoped Topology

variable {d s n : Nat}

theorem linear_sum (L : Pt s →L[ℝ] ℝ) (w : Pt s) : L w = ∑ i, L (Pi.single i 1) * w i := by
  have : w = ∑ i, w i • (Pi.single i (1 : ℝ) : Pt s) := by
    funext j
    rw [Finset.sum_apply, Finset.sum_eq_single j]
    · simp
    · intro b _ hb
      simp [Pi.single_eq_of_ne hb.symm]
    · simp
  conv_lhs => rw [this]
  rw [map_sum]
  refine Finset.sum_congr rfl fun i _ => ?_
  rw [map_smul, smul_eq_mul, mul_comm]

/-- The chain rule. -/
theorem pd_comp {G : Pt s → ℝ} {x : Pt d → Pt s} {u : Pt d} (hG : DifferentiableAt ℝ G (x u)) (hx : ∀ i, DifferentiableAt ℝ (fun v => x v i) u) (k : Fin d) :
    pd (fun v => G (x v)) k u = ∑ i, pd G i (x u) * pd (fun v => x v i) k u := by
  unfold pd
  have hx' : DifferentiableAt ℝ x u := differentiableAt_pi.mpr hx
  have : fderiv ℝ (fun v => G (x v)) u = (fderiv ℝ G (x u)).comp (fderiv ℝ x u) := fderiv_comp u hG hx'
  rw [this, ContinuousLinearMap.comp_apply, linear_sum]
  refine Finset.sum_congr rfl fun i _ => ?_
  congr 1
  rw [fderiv_pi hx]; rfl

theorem pd_congr {f g : Pt d → ℝ} {u : Pt d} (h : f =ᶠ[𝓝 u] g) (k : Fin d) : pd f k u = pd g k u := by
  unfold pd; rw [h.fderiv_eq]

theorem pd_eventually {f g : Pt d → ℝ} {u : Pt d} (h : f =ᶠ[𝓝 u] g) (k : Fin d) : pd f k =ᶠ[𝓝 u] pd g k := by
  filter_upwards [h.eventuallyEq_nhds] with v hv
  exact pd_congr hv k

theorem pd_sum {ι : Type} (t : Finset ι) {f : ι → Pt d → ℝ} {u : Pt d} (h : ∀ i ∈ t, DifferentiableAt ℝ (f i) u) (k : Fin d) :
    pd (fun v => ∑ i ∈ t, f i v) k u = ∑ i ∈ t, pd (f i) k u := by
  unfold pd
  rw [fderiv_fun_sum h, ContinuousLinearMap.sum_apply]

theorem pd_mul {f g : Pt d → ℝ} {u : Pt d} (hf : DifferentiableAt ℝ f u) (hg : DifferentiableAt ℝ g u) (k : Fin d) :
    pd (fun v => f v * g v) k u = f u * pd g k u + g u * pd f k u := by
  unfold pd
  rw [fderiv_fun_mul hf hg]; rfl

theorem pd_const_mul {f : Pt d → ℝ} {u : Pt d} (hf : DifferentiableAt ℝ f u) (a : ℝ) (k : Fin d) : pd (fun v => a * f v) k u = a * pd f k u := by
  unfold pd
  rw [fderiv_const_mul hf]; rfl

theorem pd_sub {f g : Pt d → ℝ} {u : Pt d} (hf : DifferentiableAt ℝ f u) (hg : DifferentiableAt ℝ g u) (k : Fin d) :
    pd (fun v => f v - g v) k u = pd f k u - pd g k u := by
  unfold pd
  rw [fderiv_fun_sub hf hg]; rfl

theorem pd_add {f g : Pt d → ℝ} {u : Pt d} (hf : DifferentiableAt ℝ f u) (hg : DifferentiableAt ℝ g u) (k : Fin d) :
    pd (fun v => f v + g v) k u = pd f k u + pd g k u := by
  unfold pd
  rw [fderiv_fun_add hf hg]; rfl

/-- Partial derivatives lose one order of differentiability. -/
theorem pd_contDiffAt {f : Pt d → ℝ} {u : Pt d} {m : ℕ} (h : ContDiffAt ℝ ((m : ℕ∞) + 1) f u) (k : Fin d) : ContDiffAt ℝ (m : ℕ∞) (pd f k) u := by
  have h1 : ContDiffAt ℝ (m : ℕ∞) (fderiv ℝ f) u := h.fderiv_right (by norm_cast)
  exact h1.clm_apply contDiffAt_const

theorem geo_diff {N : Fin n → Pt d → ℝ} {u : Pt d} (h : ∀ a, DifferentiableAt ℝ (N a) u) (X : Matrix (Fin s) (Fin n) ℝ) (i : Fin s) :
    DifferentiableAt ℝ (fun v => geo X N v i) u := by
  unfold geo
  exact DifferentiableAt.fun_sum fun a _ => (h a).const_mul _

/-- The Jacobian matrix is the product of the coordinates and the derivatives. -/
theorem jac_geo {N : Fin n → Pt d → ℝ} {u : Pt d} (h : ∀ a, DifferentiableAt ℝ (N a) u) (X : Matrix (Fin s) (Fin n) ℝ) :
    jac (geo X N) u = X * (Matrix.of fun a k => pd (N a) k u) := by
  ext i k
  rw [Matrix.mul_apply]
  show pd (fun v => ∑ a, X i a * N a v) k u = _
  rw [pd_sum _ fun a _ => (h a).const_mul _]
  exact Finset.sum_congr rfl fun a _ => pd_const_mul (h a) _ k

/-- The symmetry of second derivatives. -/
theorem pd_symm {f : Pt d → ℝ} {u : Pt d} (h : ContDiffAt ℝ 2 f u) (k l : Fin d) : pd (pd f l) k u = pd (pd f k) l u := by
  have hs := h.isSymmSndFDerivAt (by simp)
  have hd : DifferentiableAt ℝ (fderiv ℝ f) u := by
    have h1 : ContDiffAt ℝ 1 (fderiv ℝ f) u := h.fderiv_right (by norm_num)
    exact h1.differentiableAt (by simp)
  have key : ∀ a b : Fin d, pd (pd f b) a u = fderiv ℝ (fderiv ℝ f) u (Pi.single a 1) (Pi.single b 1) := by
    intro a b
    unfold pd
    rw [fderiv_clm_apply hd (by fun_prop)]
    simp
  rw [key, key]
  exact hs _ _

end IFEM.Lem
