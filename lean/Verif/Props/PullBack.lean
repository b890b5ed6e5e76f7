import Verif.Props.Mapping
import Mathlib.Analysis.Calculus.InverseFunctionTheorem.ContDiff
import Mathlib.Topology.Algebra.Module.FiniteDimension
import Mathlib.LinearAlgebra.Determinant
import Mathlib.LinearAlgebra.Matrix.ToLin
/-!
# C61: functions of the physical coordinates exist
-/
namespace IFEM.Props
open IFEM IFEM.Spec IFEM.Lem IFEM.Mapping
open scoped Topology

variable {d : Nat}

/-- At a point where the Jacobian determinant is nonzero, every smooth function of the parameters is a smooth function of the physical coordinates nearby, so what is said above about such functions is not said of nothing. -/
theorem C61_pull_back {x : Pt d → Pt d} {u : Pt d} {k : ℕ} (hk : 1 ≤ k) (hx : ∀ i, ContDiffAt ℝ k (fun v => x v i) u) (hdet : (jac x u).det ≠ 0) {N : Pt d → ℝ} (hN : ContDiffAt ℝ k N u) :
    ∃ F, ContDiffAt ℝ k F (x u) ∧ Pulls x u N F := by
  have hk0 : ((k : ℕ∞) : WithTop ℕ∞) ≠ 0 := by
    intro h
    have : k = 0 := by exact_mod_cast h
    omega
  have hxc : ContDiffAt ℝ k x u := contDiffAt_pi.mpr hx
  have hxd : DifferentiableAt ℝ x u := hxc.differentiableAt hk0
  have hlin : (fderiv ℝ x u : Pt d →ₗ[ℝ] Pt d) = Matrix.toLin' (jac x u) := by
    apply LinearMap.pi_ext'
    intro j
    ext i
    simp only [LinearMap.comp_apply, LinearMap.coe_single, ContinuousLinearMap.coe_coe, Matrix.toLin'_apply, Matrix.mulVec_single_one]
    show fderiv ℝ x u (Pi.single j 1) i = jac x u i j
    unfold jac pd
    rw [fderiv_pi (φ := fun i v => x v i) (fun i => (hx i).differentiableAt hk0)]
    rfl
  have hD : (fderiv ℝ x u).det ≠ 0 := by
    rw [ContinuousLinearMap.det, hlin, LinearMap.det_toLin']
    exact hdet
  have hf : HasFDerivAt x (((fderiv ℝ x u).toContinuousLinearEquivOfDetNeZero hD : Pt d ≃L[ℝ] Pt d) : Pt d →L[ℝ] Pt d) u := by
    rw [ContinuousLinearMap.coe_toContinuousLinearEquivOfDetNeZero]
    exact hxd.hasFDerivAt
  have hloc := hxc.to_localInverse hf hk0
  refine ⟨fun y => N (hxc.localInverse hf hk0 y), ?_, ?_⟩
  · refine ContDiffAt.comp (x u) (g := N) ?_ hloc
    rw [hxc.localInverse_apply_image hf hk0]
    exact hN
  · have hs := hxc.hasStrictFDerivAt' hf hk0
    filter_upwards [hs.eventually_left_inverse] with v hv
    exact congrArg N hv

end IFEM.Props
