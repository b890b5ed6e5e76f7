import Verif.Props.MappingMore
import Mathlib.Analysis.Calculus.Deriv.Comp
import Mathlib.Analysis.Calculus.Deriv.Pow
import Mathlib.Analysis.Calculus.Deriv.Add
import Mathlib.Analysis.Calculus.Deriv.Mul
/-!
# C61: concrete cases, and the limits of the functions
-/
namespace IFEM.Props
open IFEM IFEM.Spec IFEM.Lem IFEM.Mapping
open scoped Topology

variable {d s n : Nat}

/-- For square elements in the plane the metric matrix is that of the coordinates `ξ_k = 2 u_k/h` of the element. -/
theorem C61_gmat_square {Ji G : Mat ℝ} {B : Matrix (Fin 2) (Fin 2) ℝ} (hJi : Rep Ji B) (hG : G.WF) (h : ℝ) :
    ∃ R, ∃ R' : Matrix (Fin 2) (Fin 2) ℝ, getGmat Ji (List.ofFn fun _ : Fin 2 => h) G = some R ∧ Rep R R' ∧ ∀ i j, R' i j = ∑ k, (2 / h * B k i) * (2 / h * B k j) := by
  obtain ⟨R, R', r1, r2, r3⟩ := C61_gmat hJi hG fun _ : Fin 2 => h
  refine ⟨R, R', r1, r2, fun i j => ?_⟩
  rw [r3 i j]
  exact Finset.sum_congr rfl fun k _ => by ring

theorem pd_coord (a k : Fin d) (u : Pt d) : pd (fun v => v a) k u = if a = k then 1 else 0 := by
  unfold pd
  have : (fun v : Pt d => v a) = (ContinuousLinearMap.proj (R := ℝ) (φ := fun _ : Fin d => ℝ) a) := rfl
  rw [this, ContinuousLinearMap.fderiv]
  simp [Pi.single_apply]

theorem coord_smooth (a : Fin d) (u : Pt d) {q : WithTop ℕ∞} : ContDiffAt ℝ q (fun v : Pt d => v a) u :=
  (ContinuousLinearMap.proj (R := ℝ) (φ := fun _ : Fin d => ℝ) a).contDiff.contDiffAt

/-- The mapping `x = 2 u` of the plane, given by the coordinates as basis functions. -/
def twice : Matrix (Fin 2) (Fin 2) ℝ := Matrix.of fun i a => if i = a then 2 else 0

theorem twice_rep : Rep (⟨2, 2, [2, 0, 0, 2]⟩ : Mat ℝ) twice := ⟨rfl, rfl, rfl, fun i j => by fin_cases i <;> fin_cases j <;> simp [twice]⟩

theorem ident_rep (u : Pt 2) : Rep (⟨2, 2, [1, 0, 0, 1]⟩ : Mat ℝ) (Matrix.of fun a k => pd (fun v : Pt 2 => v a) k u) :=
  ⟨rfl, rfl, rfl, fun i j => by fin_cases i <;> fin_cases j <;> simp [pd_coord]⟩

theorem twice_jac (u : Pt 2) : jac (geo twice fun a v => v a) u = twice := by
  rw [jac_geo (fun a => (coord_smooth (q := 1) a u).differentiableAt (by simp)) twice]
  ext i j
  rw [Matrix.mul_apply, Fin.sum_univ_two]
  fin_cases i <;> fin_cases j <;> simp [twice, pd_coord]

theorem twice_det : twice.det = 4 := by rw [Matrix.det_fin_two]; simp [twice]; norm_num

/-- A concrete case of `C61_jacobian` and `C61_jacobian_face2`. -/
example (u : Pt 2) : ∃ Ji D, jacobian ⟨0, 0, []⟩ ⟨0, 0, []⟩ ⟨2, 2, [2, 0, 0, 2]⟩ ⟨2, 2, [1, 0, 0, 1]⟩ true = some (4, Ji, D) := by
  obtain ⟨Ji, D, _, _, h, _⟩ := C61_jacobian (J0 := ⟨0, 0, []⟩) (D0 := ⟨0, 0, []⟩) (by omega) twice_rep
    (fun a => (coord_smooth (q := 1) a u).differentiableAt (by simp)) (ident_rep u) rfl rfl
    (by rw [twice_jac, twice_det]; unfold epsZ; norm_num) (by rw [twice_jac, twice_det]; norm_num)
  rw [twice_jac, twice_det] at h
  exact ⟨Ji, D, h⟩

example (u : Pt 2) : ∃ Ji D, ∃ m : Pt 2, jacobianFace ⟨0, 0, []⟩ ⟨0, 0, []⟩ ⟨2, 2, [2, 0, 0, 2]⟩ ⟨2, 2, [1, 0, 0, 1]⟩ 1 2 = some (Real.sqrt 4, V3.ofList (List.ofFn m), Ji, D) ∧ m = ![1, 0] := by
  have hcol : (jac (geo twice fun a v => v a) u).col 1 ⬝ᵥ (jac (geo twice fun a v => v a) u).col 1 = 4 := by
    rw [twice_jac]
    simp [dotProduct, Fin.sum_univ_two, twice]
    norm_num
  obtain ⟨Ji, D, _, _, m, h, hn, _⟩ := C61_jacobian_face2 (J0 := ⟨0, 0, []⟩) (D0 := ⟨0, 0, []⟩) twice_rep
    (fun a => (coord_smooth (q := 1) a u).differentiableAt (by simp)) (ident_rep u) rfl rfl
    (by rw [twice_jac, twice_det]; unfold epsZ; norm_num) (by rw [twice_jac, twice_det]; norm_num) 0 1 (by decide)
    (by
      rw [hcol]
      have : (1 : ℝ) ≤ Real.sqrt 4 := Real.one_le_sqrt.mpr (by norm_num)
      exact lt_of_lt_of_le (by norm_num) this)
  rw [hcol] at h
  refine ⟨Ji, D, m, h, ?_⟩
  have h1 := hn.unit
  have h2 := hn.orth
  have h3 := hn.out
  rw [twice_jac] at h2 h3
  simp [dotProduct, Fin.sum_univ_two, twice] at h1 h2 h3
  have h4 : m 0 = 1 := by
    rw [h2] at h1
    have : (m 0 - 1) * (m 0 + 1) = 0 := by linear_combination h1
    rcases mul_eq_zero.mp this with e | e
    · linarith
    · linarith
  funext i
  fin_cases i
  · exact h4
  · exact h2

/-- `JacobianGradient` adds to matrices that already have the right size: a reused argument keeps its old content. -/
theorem C61_counterexample_reused : jacobianGradient ⟨1, 1, [1]⟩ ⟨1, 1, 1, fun _ _ _ => 0⟩ [⟨1, 1, [5]⟩] = [⟨1, 1, [5]⟩] := by
  simp [jacobianGradient, jacGradStep, Mat.resize, Mat.add, Mat.pairs]

/-- In one dimension `detJacGradient` returns zero, whatever the second derivative of the mapping is. -/
theorem C61_counterexample_line (h : ℝ) : detJacGradient ⟨1, 1, [1]⟩ ⟨1, 1, [1]⟩ ⟨1, 1, 1, fun _ _ _ => h⟩ [] = some [0] := by
  simp [detJacGradient, detGradEntry, Mat.mulVec, Mat.pairs, Mat.opGet?, Mat.get?]

theorem pd_line {g : ℝ → ℝ} {g' : ℝ} (u : Pt 1) (h : HasDerivAt g g' (u 0)) : pd (fun v : Pt 1 => g (v 0)) 0 u = g' := by
  unfold pd
  have hp : HasFDerivAt (fun v : Pt 1 => v 0) (ContinuousLinearMap.proj (R := ℝ) (φ := fun _ : Fin 1 => ℝ) 0) u :=
    (ContinuousLinearMap.proj (R := ℝ) (φ := fun _ : Fin 1 => ℝ) 0).hasFDerivAt
  have := (h.comp_hasFDerivAt (x := u) hp).fderiv
  have e : (fun v : Pt 1 => g (v 0)) = g ∘ fun v : Pt 1 => v 0 := rfl
  rw [e, this]
  simp

/-- The polynomial `u + u³` and its derivatives. -/
theorem cubic_pd : pd (fun v : Pt 1 => v 0 + v 0 ^ 3) 0 = (fun v : Pt 1 => 1 + 3 * v 0 ^ 2) ∧ pd (fun v : Pt 1 => 1 + 3 * v 0 ^ 2) 0 = (fun v : Pt 1 => 6 * v 0) ∧
    pd (fun v : Pt 1 => 6 * v 0) 0 = fun _ => 6 := by
  refine ⟨?_, ?_, ?_⟩
  · funext u
    refine pd_line (g := fun t => t + t ^ 3) u ?_
    simpa using (hasDerivAt_id (u 0)).fun_add (hasDerivAt_pow 3 (u 0))
  · funext u
    refine pd_line (g := fun t => 1 + 3 * t ^ 2) u ?_
    have := ((hasDerivAt_pow 2 (u 0)).const_mul 3).const_add 1
    rw [show 6 * u 0 = 3 * (((2 : ℕ) : ℝ) * u 0 ^ (2 - 1)) by norm_num; ring]
    exact this
  · funext u
    refine pd_line (g := fun t => 6 * t) u ?_
    simpa using (hasDerivAt_id (u 0)).const_mul 6

/-- For curved mappings `Hessian2` is not the third derivative with respect to the physical coordinates: with `x = u + u³` and the function `F(x) = x`, whose third derivative is zero, it returns 6 at `u = 0`. -/
theorem C61_counterexample_curved : let x : Pt 1 → Pt 1 := fun v _ => v 0 + v 0 ^ 3
    let N : Pt 1 → ℝ := fun v => v 0 + v 0 ^ 3
    let F : Pt 1 → ℝ := fun y => y 0
    Pulls x 0 N F ∧ jac x 0 = 1 ∧ pd (pd (pd F 0) 0) 0 (x 0) = 0 ∧ (hessian2 ⟨0, 0, 0, 0, fun _ _ _ _ => 0⟩ ⟨1, 1, [1]⟩ ⟨1, 1, 1, 1, fun _ _ _ _ => pd (pd (pd N 0) 0) 0 0⟩).2.get 1 1 1 1 = 6 := by
  obtain ⟨c1, c2, c3⟩ := cubic_pd
  refine ⟨Filter.Eventually.of_forall fun v => rfl, ?_, ?_, ?_⟩
  · ext i k
    rw [Subsingleton.elim i 0, Subsingleton.elim k 0]
    show pd (fun v : Pt 1 => v 0 + v 0 ^ 3) 0 0 = 1
    rw [c1]
    simp
  · have e1 : pd (fun y : Pt 1 => y 0) 0 = fun _ => 1 := by
      funext u
      rw [pd_coord]; simp
    have e2 : pd (fun _ : Pt 1 => (1 : ℝ)) 0 = fun _ => 0 := by
      funext u
      unfold pd
      simp
    have e3 : pd (fun _ : Pt 1 => (0 : ℝ)) 0 = fun _ => 0 := by
      funext u
      unfold pd
      simp
    dsimp only
    rw [e1, e2, e3]
  · rw [c1, c2, c3]
    simp [hessian2, Mat.val, Mat.get?]

end IFEM.Props
