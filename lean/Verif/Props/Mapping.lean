import Verif.Lemmas.Mapping
import Verif.Model.Mapping
import Verif.Props.MatrixDet
import Mathlib.Tactic.IntervalCases
import Mathlib.Topology.Algebra.Module.FiniteDimension
/-!
# C61: derivatives with respect to physical coordinates
-/
namespace IFEM.Props
open IFEM IFEM.Spec IFEM.Lem IFEM.Mapping
open scoped Topology

variable {d s n : Nat}

theorem inverse_small {m : Mat ℝ} {A : Matrix (Fin d) (Fin d) ℝ} (h : Rep m A) (hd : 1 ≤ d ∧ d ≤ 3) (tol : ℝ) (ht : 0 ≤ tol) (hdet : tol < |A.det|) (h9 : A.det ≠ -999) :
    InvertedBy m tol A := by
  obtain ⟨h1, h3⟩ := hd
  interval_cases d
  · exact C60_inverse1 h tol ht hdet h9
  · exact C60_inverse2 h tol ht hdet h9
  · exact C60_inverse3 h tol ht hdet h9

theorem det_small {m : Mat ℝ} {A : Matrix (Fin d) (Fin d) ℝ} (h : Rep m A) (hd : 1 ≤ d ∧ d ≤ 3) : m.det = A.det := by
  obtain ⟨h1, h3⟩ := hd
  interval_cases d
  · exact C60_det1 h
  · exact C60_det2 h
  · exact C60_det3 h

theorem epsZ_pos : 0 < epsZ := by unfold epsZ; positivity

/-- The chain rule for a function that is given by its values in the parameter domain. -/
theorem pulled_gradient {x : Pt d → Pt d} {u : Pt d} {N : Pt d → ℝ} {F : Pt d → ℝ} (hx : ∀ i, DifferentiableAt ℝ (fun v => x v i) u) (hF : DifferentiableAt ℝ F (x u))
    (h : Pulls x u N F) (k : Fin d) : pd N k u = ∑ i, pd F i (x u) * jac x u i k := by
  rw [← pd_congr h k, pd_comp hF hx k]; rfl

theorem pulled_gradient_inv {x : Pt d → Pt d} {u : Pt d} {N : Pt d → ℝ} {F : Pt d → ℝ} (hx : ∀ i, DifferentiableAt ℝ (fun v => x v i) u) (hF : DifferentiableAt ℝ F (x u))
    (h : Pulls x u N F) {B : Matrix (Fin d) (Fin d) ℝ} (hB : jac x u * B = 1) (j : Fin d) : ∑ k, pd N k u * B k j = pd F j (x u) := by
  have e1 : ∀ k, pd N k u * B k j = ∑ i, pd F i (x u) * (jac x u i k * B k j) := by
    intro k
    rw [pulled_gradient hx hF h k, Finset.sum_mul]
    exact Finset.sum_congr rfl fun i _ => by ring
  rw [Finset.sum_congr rfl fun k _ => e1 k, Finset.sum_comm]
  have e2 : ∀ i, ∑ k, pd F i (x u) * (jac x u i k * B k j) = pd F i (x u) * (1 : Matrix (Fin d) (Fin d) ℝ) i j := by
    intro i
    rw [← Finset.mul_sum, ← hB, Matrix.mul_apply]
  rw [Finset.sum_congr rfl fun i _ => e2 i, Finset.sum_eq_single j]
  · simp
  · intro b _ hb; simp [Matrix.one_apply_ne hb]
  · simp

/-- The functions of the physical coordinates that the results speak of exist: near a point with regular Jacobian every function of the parameters is one of the physical coordinates, as smooth as the mapping. -/
theorem C61_pullback_exists {x : Pt d → Pt d} {u : Pt d} {N : Pt d → ℝ} {m : ℕ} (hx : ContDiffAt ℝ ((m : ℕ∞) + 1) x u) (hN : ContDiffAt ℝ ((m : ℕ∞) + 1) N u)
    (hJ : (jac x u).det ≠ 0) : ∃ F : Pt d → ℝ, ContDiffAt ℝ ((m : ℕ∞) + 1) F (x u) ∧ Pulls x u N F := by
  have hd : DifferentiableAt ℝ x u := hx.differentiableAt (by simp)
  have hxi : ∀ i, DifferentiableAt ℝ (fun v => x v i) u := differentiableAt_pi.mp hd
  have hmat : ∀ w, fderiv ℝ x u w = (jac x u).mulVec w := by
    intro w
    funext i
    have : fderiv ℝ x u w i = fderiv ℝ (fun v => x v i) u w := by rw [fderiv_pi hxi]; rfl
    rw [this, linear_sum]; rfl
  have hu : IsUnit (jac x u).det := isUnit_iff_ne_zero.mpr hJ
  let e : Pt d ≃ₗ[ℝ] Pt d := LinearEquiv.ofLinear (Matrix.mulVecLin (jac x u)) (Matrix.mulVecLin (jac x u)⁻¹)
    (by rw [← Matrix.mulVecLin_mul, Matrix.mul_nonsing_inv _ hu, Matrix.mulVecLin_one])
    (by rw [← Matrix.mulVecLin_mul, Matrix.nonsing_inv_mul _ hu, Matrix.mulVecLin_one])
  let e' : Pt d ≃L[ℝ] Pt d := e.toContinuousLinearEquiv
  have hf' : HasFDerivAt x (e' : Pt d →L[ℝ] Pt d) u := by
    have : (e' : Pt d →L[ℝ] Pt d) = fderiv ℝ x u := by
      ext1 w
      rw [hmat w]; rfl
    rw [this]; exact hd.hasFDerivAt
  have hn : ((m : ℕ∞) + 1 : WithTop ℕ∞) ≠ 0 := by simp
  have hl := hx.to_localInverse hf' hn
  have hleft : ∀ᶠ v in 𝓝 u, hx.localInverse hf' hn (x v) = v := (hx.hasStrictFDerivAt' hf' hn).eventually_left_inverse
  refine ⟨fun y => N (hx.localInverse hf' hn y), ?_, ?_⟩
  · have h0 : hx.localInverse hf' hn (x u) = u := hleft.self_of_nhds
    exact ContDiffAt.comp (x u) (by rw [h0]; exact hN) hl
  · filter_upwards [hleft] with v hv
    rw [hv]

/-- `Jacobian` returns the determinant of the Jacobian matrix, its inverse, and the derivatives of the basis functions with respect to the physical coordinates. -/
theorem C61_jacobian {J0 D0 X dNdu : Mat ℝ} {X' : Matrix (Fin d) (Fin n) ℝ} {N : Fin n → Pt d → ℝ} {u : Pt d} (hd : 1 ≤ d ∧ d ≤ 3)
    (hX : Rep X X') (hN : ∀ a, DifferentiableAt ℝ (N a) u) (hNu : Rep dNdu (Matrix.of fun a k => pd (N a) k u)) (hJ0 : J0.WF) (hD0 : D0.WF)
    (hdet : epsZ < |(jac (geo X' N) u).det|) (h9 : (jac (geo X' N) u).det ≠ -999) :
    ∃ Ji D Ji' D', jacobian J0 D0 X dNdu true = some ((jac (geo X' N) u).det, Ji, D) ∧ Rep Ji Ji' ∧ jac (geo X' N) u * Ji' = 1 ∧ Rep D D' ∧
      ∀ a F, DifferentiableAt ℝ F (geo X' N u) → Pulls (geo X' N) u (N a) F → ∀ j, D' a j = pd F j (geo X' N u) := by
  obtain ⟨J, hJ1, hJ2⟩ := C60_multiply (C := J0) (A := X) (B := dNdu) (tA := false) (tB := false) hX hNu hJ0 1
  rw [one_smul, ← jac_geo hN X'] at hJ2
  obtain ⟨i1, B, i2, i3, i4⟩ := inverse_small hJ2 hd epsZ (le_of_lt epsZ_pos) hdet h9
  obtain ⟨D, hD1, hD2⟩ := C60_multiply (C := D0) (A := dNdu) (B := (J.inverse epsZ).2) (tA := false) (tB := false) hNu i2 hD0 1
  rw [one_smul] at hD2
  have hne : (jac (geo X' N) u).det ≠ 0 := fun e => by rw [e, abs_zero] at hdet; exact absurd hdet (not_lt.mpr (le_of_lt epsZ_pos))
  refine ⟨(J.inverse epsZ).2, D, B, _, ?_, i2, i3, hD2, ?_⟩
  · unfold jacobian
    rw [hJ1]
    simp only [Option.bind_eq_bind, Option.bind_some]
    rw [if_neg (by rw [hJ2.cols, hJ2.rows]; omega), if_neg (by rw [hJ2.cols, hJ2.rows]; omega)]
    unfold gradients
    simp only [i1]
    rw [if_neg (by simp), if_neg hne, hD1]; rfl
  · intro a F hF hP j
    rw [Matrix.mul_apply]
    exact pulled_gradient_inv (geo_diff hN X') hF hP i3 j

/-- At a singular point zero is returned and there are no derivatives. -/
theorem C61_jacobian_singular {J0 D0 X dNdu : Mat ℝ} {X' : Matrix (Fin d) (Fin n) ℝ} {N : Fin n → Pt d → ℝ} {u : Pt d} (hd : 1 ≤ d ∧ d ≤ 3)
    (hX : Rep X X') (hN : ∀ a, DifferentiableAt ℝ (N a) u) (hNu : Rep dNdu (Matrix.of fun a k => pd (N a) k u)) (hJ0 : J0.WF)
    (hdet : |(jac (geo X' N) u).det| ≤ epsZ) : ∃ J, jacobian J0 D0 X dNdu true = some (0, J, ⟨0, 0, []⟩) := by
  obtain ⟨J, hJ1, hJ2⟩ := C60_multiply (C := J0) (A := X) (B := dNdu) (tA := false) (tB := false) hX hNu hJ0 1
  rw [one_smul, ← jac_geo hN X'] at hJ2
  have hdd := det_small hJ2 hd
  have hinv := C60_inverse_singular J epsZ (by rw [hdd]; exact hdet) (by
    rw [hdd]
    intro e
    rw [e] at hdet
    have : epsZ < 999 := by unfold epsZ; norm_num
    rw [abs_neg, abs_of_pos (by norm_num)] at hdet
    exact absurd this (not_lt.mpr hdet))
  refine ⟨J, ?_⟩
  unfold jacobian
  rw [hJ1]
  simp only [Option.bind_eq_bind, Option.bind_some]
  rw [if_neg (by rw [hJ2.cols, hJ2.rows]; omega), if_neg (by rw [hJ2.cols, hJ2.rows]; omega)]
  unfold gradients
  simp only [hinv]
  rw [if_neg (by simp), if_pos trivial]

/-- For curves and surfaces in a space of higher dimension the length or area dilation `sqrt(det(JᵀJ))` is returned, and the derivatives stay those with respect to the parameters. -/
theorem C61_jacobian_manifold {J0 D0 X dNdu : Mat ℝ} {X' : Matrix (Fin s) (Fin n) ℝ} {N : Fin n → Pt d → ℝ} {u : Pt d} (hd : d = 1 ∧ (s = 2 ∨ s = 3) ∨ d = 2 ∧ s = 3)
    (hX : Rep X X') (hN : ∀ a, DifferentiableAt ℝ (N a) u) (hNu : Rep dNdu (Matrix.of fun a k => pd (N a) k u)) (hJ0 : J0.WF) (g : Bool) :
    ∃ J, Rep J (jac (geo X' N) u) ∧
      jacobian J0 D0 X dNdu g = some (Real.sqrt ((jac (geo X' N) u).transpose * jac (geo X' N) u).det, J, dNdu) := by
  obtain ⟨J, hJ1, hJ2⟩ := C60_multiply (C := J0) (A := X) (B := dNdu) (tA := false) (tB := false) hX hNu hJ0 1
  rw [one_smul, ← jac_geo hN X'] at hJ2
  refine ⟨J, hJ2, ?_⟩
  generalize hA : jac (geo X' N) u = A at hJ2
  unfold jacobian
  rw [hJ1]
  simp only [Option.bind_eq_bind, Option.bind_some]
  rcases hd with ⟨rfl, hs⟩ | ⟨rfl, rfl⟩
  · rw [if_pos ⟨hJ2.cols, by rw [hJ2.rows]; omega⟩]
    have := C60_getColumn hJ2 0
    simp only [Fin.val_zero, Nat.zero_add] at this
    rw [this]
    simp only [Option.map_some, V3.length, V3.ofList, Matrix.det_fin_one, Matrix.mul_apply, Matrix.transpose_apply]
    rcases hs with rfl | rfl
    · simp [List.ofFn_succ, Fin.sum_univ_two]
    · simp [List.ofFn_succ, Fin.sum_univ_three]
  · rw [if_neg (by rw [hJ2.cols]; omega), if_pos ⟨hJ2.cols, by rw [hJ2.rows]; omega⟩]
    have h1 := C60_getColumn hJ2 0
    have h2 := C60_getColumn hJ2 1
    simp only [Fin.val_zero, Nat.zero_add, Fin.val_one, Nat.reduceAdd] at h1 h2
    rw [h1, h2]
    simp only [Option.bind_some, Option.pure_def, V3.length, V3.ofList, V3.cross, Matrix.det_fin_two, Matrix.mul_apply, Matrix.transpose_apply, Fin.sum_univ_three]
    congr 3
    simp [List.ofFn_succ]
    ring

end IFEM.Props
