import Verif.Props.Tensor
import Mathlib.Tactic.LinearCombination
import Mathlib.Tactic.Positivity
import Mathlib.Analysis.SpecialFunctions.Trigonometric.Basic

/-!
# C68: tensors — rotations and local axes
-/
namespace IFEM.Tens
open IFEM.Mapping Matrix

/-- A tensor which is a proper rotation. -/
def IsRotation (T : Tensor) : Prop := ∃ R : Matrix (Fin 3) (Fin 3) ℝ, T = ofMat R ∧ Rᵀ*R = 1 ∧ R.det = 1

/-- The matrix of the product `a ×`. -/
def skew (a : V3) : Matrix (Fin 3) (Fin 3) ℝ := !![0, -a.z, a.y; a.z, 0, -a.x; -a.y, a.x, 0]

/-- Rodrigues' formula: the rotation about `a` by the angle `|a|`. -/
noncomputable def rodrigues (a : V3) : Matrix (Fin 3) (Fin 3) ℝ :=
  Real.cos a.length • (1 : Matrix (Fin 3) (Fin 3) ℝ) + (Real.sin a.length/a.length) • skew a + ((1 - Real.cos a.length)/a.length^2) • vecMulVec (vec a) (vec a)

theorem len_sq (a : V3) : a.length^2 = a.x*a.x + a.y*a.y + a.z*a.z := by
  rw [V3.length, Real.sq_sqrt]
  have := mul_self_nonneg a.x; have := mul_self_nonneg a.y; have := mul_self_nonneg a.z; positivity

theorem len_nonneg (a : V3) : 0 ≤ a.length := Real.sqrt_nonneg _

theorem epsZ_pos : 0 < epsZ := by rw [epsZ]; positivity

/-- The tensor of a unit quaternion. -/
theorem quat_rotation (q0 x y z : ℝ) (h : q0*q0 + x*x + y*y + z*z = 1) :
    IsRotation ⟨3, false, [2*(x*x + q0*q0) - 1, 2*(y*x + z*q0), 2*(z*x - y*q0), 2*(x*y - z*q0), 2*(y*y + q0*q0) - 1, 2*(z*y + x*q0), 2*(x*z + y*q0), 2*(y*z - x*q0), 2*(z*z + q0*q0) - 1]⟩ := by
  refine ⟨!![2*(x*x + q0*q0) - 1, 2*(x*y - z*q0), 2*(x*z + y*q0); 2*(y*x + z*q0), 2*(y*y + q0*q0) - 1, 2*(y*z - x*q0); 2*(z*x - y*q0), 2*(z*y + x*q0), 2*(z*z + q0*q0) - 1], ?_, ?_, ?_⟩
  · rw [ofMat3_eq]; simp
  · have hx : q0*q0 = 1 - x*x - y*y - z*z := by linarith
    have h2 : q0^2 = 1 - x*x - y*y - z*z := by linarith
    ext i j
    fin_cases i <;> fin_cases j <;> simp [Matrix.mul_apply, Fin.sum_univ_three] <;> ring_nf <;> (try rw [show q0^4 = (q0^2)^2 by ring]) <;> rw [h2] <;> ring
  · have h2 : q0^2 = 1 - x*x - y*y - z*z := by linarith
    rw [det_fin_three]; simp
    ring_nf
    rw [show q0^6 = (q0^2)^3 by ring, show q0^4 = (q0^2)^2 by ring, h2]
    ring

theorem normalized (q0 x y z : ℝ) (h : 0 < q0*q0 + x*x + y*y + z*z) :
    let l := Real.sqrt (q0*q0 + x*x + y*y + z*z)
    q0/l*(q0/l) + x/l*(x/l) + y/l*(y/l) + z/l*(z/l) = 1 := by
  intro l
  have hl : l^2 = q0*q0 + x*x + y*y + z*z := Real.sq_sqrt h.le
  have hp : 0 < l := Real.sqrt_pos.2 h
  have : q0/l*(q0/l) + x/l*(x/l) + y/l*(y/l) + z/l*(z/l) = (q0*q0 + x*x + y*y + z*z)/l^2 := by field_simp
  rw [this, hl, div_self h.ne']

/-- The factor of the imaginary part. -/
theorem quat_pos (a : V3) (f : ℝ) (h : a.length < epsZ ∨ f = Real.sin (1/2*a.length)/a.length) :
    0 < Real.cos (1/2*a.length)*Real.cos (1/2*a.length) + a.x*f*(a.x*f) + a.y*f*(a.y*f) + a.z*f*(a.z*f) := by
  have hs := Real.sin_sq_add_cos_sq (1/2*a.length)
  have hn : 0 ≤ a.x*f*(a.x*f) + a.y*f*(a.y*f) + a.z*f*(a.z*f) := by
    have := mul_self_nonneg (a.x*f); have := mul_self_nonneg (a.y*f); have := mul_self_nonneg (a.z*f); linarith
  have small (h : a.length < epsZ) : 0 < Real.cos (1/2*a.length) := by
    apply Real.cos_pos_of_mem_Ioo
    have h0 := len_nonneg a
    have : epsZ < 1 := by rw [epsZ]; norm_num
    have := Real.two_le_pi
    constructor <;> linarith
  rcases h with h | h
  · have := mul_pos (small h) (small h); linarith
  · by_cases h0 : a.length < epsZ
    · have := mul_pos (small h0) (small h0); linarith
    · have hp : 0 < a.length := lt_of_lt_of_le epsZ_pos (not_lt.1 h0)
      have e : a.x*f*(a.x*f) + a.y*f*(a.y*f) + a.z*f*(a.z*f) = f^2*a.length^2 := by rw [len_sq]; ring
      have e2 : f^2*a.length^2 = Real.sin (1/2*a.length)^2 := by rw [h]; field_simp
      nlinarith

/-- **C68 (rotation tensors).**  The tensor of three angles is a proper rotation, for all angles. -/
theorem C68_rotation (a : V3) : IsRotation (ofAngles a) := by
  rw [ofAngles]
  apply quat_rotation
  apply normalized
  apply quat_pos
  split_ifs with h
  · exact Or.inl h
  · exact Or.inr rfl

/-- Without the normalization, which does nothing then. -/
theorem ofAngles_eq (a : V3) (h : epsZ ≤ a.length) : ofAngles a = ofMat (rodrigues a) := by
  have hp : 0 < a.length := lt_of_lt_of_le epsZ_pos h
  have hs := Real.sin_sq_add_cos_sq (1/2*a.length)
  have hl := len_sq a
  rw [ofAngles]
  dsimp only
  rw [if_neg (not_lt.2 h)]
  have e1 : Real.cos (1/2*a.length)*Real.cos (1/2*a.length) + a.x*(Real.sin (1/2*a.length)/a.length)*(a.x*(Real.sin (1/2*a.length)/a.length)) + a.y*(Real.sin (1/2*a.length)/a.length)*(a.y*(Real.sin (1/2*a.length)/a.length)) + a.z*(Real.sin (1/2*a.length)/a.length)*(a.z*(Real.sin (1/2*a.length)/a.length)) = 1 := by
    have e : Real.cos (1/2*a.length)*Real.cos (1/2*a.length) + a.x*(Real.sin (1/2*a.length)/a.length)*(a.x*(Real.sin (1/2*a.length)/a.length)) + a.y*(Real.sin (1/2*a.length)/a.length)*(a.y*(Real.sin (1/2*a.length)/a.length)) + a.z*(Real.sin (1/2*a.length)/a.length)*(a.z*(Real.sin (1/2*a.length)/a.length))
      = Real.cos (1/2*a.length)^2 + (a.x*a.x + a.y*a.y + a.z*a.z)*(Real.sin (1/2*a.length)/a.length)^2 := by ring
    have e3 : ∀ s : ℝ, a.length^2*(s/a.length)^2 = s^2 := by intro s; field_simp
    rw [e, ← hl, e3]
    linarith
  rw [e1, Real.sqrt_one]
  simp only [div_one]
  have c2 : Real.cos a.length = 2*Real.cos (1/2*a.length)^2 - 1 := by
    rw [← Real.cos_two_mul]; ring_nf
  have s2 : Real.sin a.length = 2*Real.sin (1/2*a.length)*Real.cos (1/2*a.length) := by
    rw [← Real.sin_two_mul]; ring_nf
  set s := Real.sin (1/2*a.length)
  set c := Real.cos (1/2*a.length)
  set L := a.length
  have hc : 1 - Real.cos L = 2*s^2 := by rw [c2]; linarith
  rw [ofMat3_eq, rodrigues]
  show (⟨3, false, _⟩ : Tensor) = ⟨3, false, _⟩
  rw [show a.length = L from rfl, hc, c2, s2]
  simp [skew, vecMulVec, vec]
  refine ⟨?_, ?_, ?_, ?_, ?_, ?_, ?_, ?_, ?_⟩ <;> field_simp <;> ring

/-- **C68 (Rodrigues).**  The tensor of three angles not all negligible is the rotation about the axis they form, by the angle which is its length, right-handed; that of three zeros is the unit tensor. -/
theorem C68_rodrigues (a : V3) : (epsZ ≤ a.length → ofAngles a = ofMat (rodrigues a)) ∧ (a = ⟨0, 0, 0⟩ → ofAngles a = ofMat (1 : Matrix (Fin 3) (Fin 3) ℝ)) := by
  refine ⟨ofAngles_eq a, ?_⟩
  rintro rfl
  have : (⟨0, 0, 0⟩ : V3).length = 0 := by simp [V3.length]
  rw [ofMat3_eq, ofAngles, this]
  simp [epsZ_pos]
  norm_num

/-- **C68 (rotation vector).**  For angles below a half turn the rotation vector of the rotation tensor is the vector of angles. -/
theorem C68_rotVec (a : V3) (h : epsZ ≤ a.length) (hpi : a.length < Real.pi) : (ofAngles a).rotVec = a := by
  have hp : 0 < a.length := lt_of_lt_of_le epsZ_pos h
  have hl := len_sq a
  have hsin : 0 < Real.sin a.length := Real.sin_pos_of_pos_of_lt_pi hp hpi
  have hcos : Real.cos a.length < 1 := by
    rcases lt_or_eq_of_le (Real.cos_le_one a.length) with h' | h'
    · exact h'
    · have := Real.sin_sq_add_cos_sq a.length; rw [h'] at this; nlinarith
  rw [ofAngles_eq a h]
  have htr : (ofMat (rodrigues a)).trace = 1 + 2*Real.cos a.length := by
    rw [(C68_trace_det.1 _ (by norm_num) (by norm_num)).1, rodrigues]
    simp [Matrix.trace, Fin.sum_univ_three, skew, vecMulVec, vec]
    field_simp
    rw [hl]; ring
  rw [Tensor.rotVec, htr]
  have e : 1/2*(1 + 2*Real.cos a.length) - 1/2 = Real.cos a.length := by ring
  have gt : (1 : ℝ) > 1 - |Real.sin a.length| := by rw [abs_of_pos hsin]; linarith
  have n3 : (ofMat (rodrigues a)).n = 3 := by rw [ofMat3_eq]
  simp only [n3, e, if_pos hcos, Real.arccos_cos hp.le hpi.le, if_pos gt]
  rw [if_neg (by norm_num), if_neg (by norm_num)]
  have g := C68_components.2.2.1 (rodrigues a)
  rw [show (ofMat (rodrigues a)).get 3 2 = _ from g 2 1, show (ofMat (rodrigues a)).get 2 3 = _ from g 1 2, show (ofMat (rodrigues a)).get 1 3 = _ from g 0 2,
    show (ofMat (rodrigues a)).get 3 1 = _ from g 2 0, show (ofMat (rodrigues a)).get 2 1 = _ from g 1 0, show (ofMat (rodrigues a)).get 1 2 = _ from g 0 1]
  obtain ⟨x, y, z⟩ := a
  simp [rodrigues, skew, vecMulVec, vec]
  refine ⟨?_, ?_, ?_⟩ <;> field_simp <;> ring

example : ∃ a : V3, epsZ ≤ a.length ∧ a.length < Real.pi ∧ a.x ≠ 0 ∧ a.y ≠ 0 := by
  refine ⟨⟨1, 1, 1⟩, ?_, ?_, one_ne_zero, one_ne_zero⟩
  · rw [V3.length, epsZ]; apply Real.le_sqrt_of_sq_le; norm_num
  · rw [V3.length]
    have : Real.sqrt (1*1 + 1*1 + 1*1) < 2 := by rw [Real.sqrt_lt' (by norm_num)]; norm_num
    exact lt_of_lt_of_le this Real.two_le_pi

/-- **C68 (counterexample, plane rotation vector).**  The rotation vector of the quarter turn in the plane of angle π/2 has the length 4π/(3√3). -/
theorem C68_rotVec_counterexample : ((ofMat !![0, -1; 1, 0] : Tensor).rotVec).z = 2*Real.pi/3*(2/Real.sqrt 3) ∧ (2*Real.pi/3*(2/Real.sqrt 3) ≠ Real.pi/2) := by
  constructor
  · have ht : (ofMat (!![0, -1; 1, 0] : Matrix (Fin 2) (Fin 2) ℝ)).trace = 0 := by
      rw [(C68_trace_det.1 _ (by norm_num) (by norm_num)).1]; simp [Matrix.trace, Fin.sum_univ_two]
    have n2 : (ofMat (!![0, -1; 1, 0] : Matrix (Fin 2) (Fin 2) ℝ)).n = 2 := by rw [ofMat2_eq]
    have g := C68_components.2.1 !![0, -1; 1, 0]
    rw [Tensor.rotVec, ht]
    have e : Real.arccos (1/2*0 - 1/2) = 2*Real.pi/3 := by
      rw [show (1/2*0 - 1/2 : ℝ) = -(1/2) by norm_num, Real.arccos_neg, ← Real.cos_pi_div_three, Real.arccos_cos (by positivity) (by have := Real.pi_pos; linarith)]; ring
    have s : Real.sin (2*Real.pi/3) = Real.sqrt 3/2 := by
      rw [show 2*Real.pi/3 = Real.pi - Real.pi/3 by ring, Real.sin_pi_sub, Real.sin_pi_div_three]
    have p3 : 0 < Real.sqrt 3 := Real.sqrt_pos.2 (by norm_num)
    have gt : (1 : ℝ) > 1 - |Real.sqrt 3/2| := by rw [abs_of_pos (by positivity)]; linarith
    simp only [n2, if_pos (show (1/2*0 - 1/2 : ℝ) < 1 by norm_num), e, s, if_pos gt]
    rw [if_neg (by norm_num), if_pos (by norm_num)]
    rw [show (ofMat (!![0, -1; 1, 0] : Matrix (Fin 2) (Fin 2) ℝ)).get 2 1 = _ from g 1 0, show (ofMat (!![0, -1; 1, 0] : Matrix (Fin 2) (Fin 2) ℝ)).get 1 2 = _ from g 0 1]
    simp
    field_simp
    norm_num
  · intro h
    have p3 : 0 < Real.sqrt 3 := Real.sqrt_pos.2 (by norm_num)
    have := Real.pi_pos
    have h3 : Real.sqrt 3^2 = 3 := Real.sq_sqrt (by norm_num)
    field_simp at h
    nlinarith

/-- **C68 (rotation of a tensor).**  `rotate` multiplies by the rotation about an axis from the right: by `alpha` about the axes 1 and 3, by `-alpha` about the axis 2. -/
theorem C68_rotate (M : Matrix (Fin 3) (Fin 3) ℝ) (alpha : ℝ) (h : epsZ ≤ |alpha|) :
    (ofMat M).rotate alpha 1 = mul (ofMat M) (ofAngles ⟨alpha, 0, 0⟩) ∧
    (ofMat M).rotate alpha 2 = mul (ofMat M) (ofAngles ⟨0, -alpha, 0⟩) ∧
    (ofMat M).rotate alpha 3 = mul (ofMat M) (ofAngles ⟨0, 0, alpha⟩) ∧
    ∀ axis, 3 < axis → (ofMat M).rotate alpha axis = ofMat M := by
  have l1 : (⟨alpha, 0, 0⟩ : V3).length = |alpha| := by simp [V3.length, Real.sqrt_mul_self_eq_abs]
  have l2 : (⟨0, -alpha, 0⟩ : V3).length = |alpha| := by simp [V3.length, Real.sqrt_mul_self_eq_abs]
  have l3 : (⟨0, 0, alpha⟩ : V3).length = |alpha| := by simp [V3.length, Real.sqrt_mul_self_eq_abs]
  have hne : alpha ≠ 0 := by
    rintro rfl; rw [abs_zero] at h; exact absurd epsZ_pos (not_lt.2 h)
  have hsin : Real.sin |alpha|/|alpha| = Real.sin alpha/alpha := by
    rcases abs_cases alpha with ⟨h1, _⟩ | ⟨h1, _⟩ <;> rw [h1]
    rw [Real.sin_neg, neg_div_neg_eq]
  have hsq : |alpha|^2 = alpha^2 := sq_abs alpha
  rw [ofAngles_eq _ (by rw [l1]; exact h), ofAngles_eq _ (by rw [l2]; exact h), ofAngles_eq _ (by rw [l3]; exact h)]
  rw [(C68_products (by norm_num) (by norm_num) _ _).1, (C68_products (by norm_num) (by norm_num) _ _).1, (C68_products (by norm_num) (by norm_num) _ _).1]
  refine ⟨?_, ?_, ?_, ?_⟩
  · have r : rodrigues ⟨alpha, 0, 0⟩ = !![1, 0, 0; 0, Real.cos alpha, -Real.sin alpha; 0, Real.sin alpha, Real.cos alpha] := by
      rw [rodrigues, l1, hsin, hsq, Real.cos_abs]
      ext i j; fin_cases i <;> fin_cases j <;> simp [skew, vecMulVec, vec] <;> field_simp
      ring
    rw [r]
    simp [ofMat3_eq, Tensor.rotate, rotRow, Tensor.put, Tensor.get, Tensor.at, Tensor.index, List.range_succ, Matrix.mul_apply, Fin.sum_univ_three]
    refine ⟨?_, ?_, ?_, ?_, ?_, ?_⟩ <;> ring
  · have r : rodrigues ⟨0, -alpha, 0⟩ = !![Real.cos alpha, 0, -Real.sin alpha; 0, 1, 0; Real.sin alpha, 0, Real.cos alpha] := by
      rw [rodrigues, l2, hsin, hsq, Real.cos_abs]
      ext i j; fin_cases i <;> fin_cases j <;> simp [skew, vecMulVec, vec] <;> field_simp
      ring
    rw [r]
    simp [ofMat3_eq, Tensor.rotate, rotRow, Tensor.put, Tensor.get, Tensor.at, Tensor.index, List.range_succ, Matrix.mul_apply, Fin.sum_univ_three]
    refine ⟨?_, ?_, ?_, ?_, ?_, ?_⟩ <;> ring
  · have r : rodrigues ⟨0, 0, alpha⟩ = !![Real.cos alpha, -Real.sin alpha, 0; Real.sin alpha, Real.cos alpha, 0; 0, 0, 1] := by
      rw [rodrigues, l3, hsin, hsq, Real.cos_abs]
      ext i j; fin_cases i <;> fin_cases j <;> simp [skew, vecMulVec, vec] <;> field_simp
      ring
    rw [r]
    simp [ofMat3_eq, Tensor.rotate, rotRow, Tensor.put, Tensor.get, Tensor.at, Tensor.index, List.range_succ, Matrix.mul_apply, Fin.sum_univ_three]
    refine ⟨?_, ?_, ?_, ?_, ?_, ?_⟩ <;> ring
  · intro axis hx
    unfold Tensor.rotate
    have n3 : (ofMat M).n = 3 := by rw [ofMat3_eq]
    rw [if_neg (by omega)]

end IFEM.Tens
