import Verif.Props.TensorInv
import Mathlib.Analysis.Matrix.Spectrum
import Mathlib.LinearAlgebra.Matrix.Charpoly.Basic
import Mathlib.Analysis.SpecialFunctions.Trigonometric.Basic

/-!
# C68: tensors — principal values
-/
namespace IFEM.Tens
open IFEM.Mapping Matrix Polynomial

theorem charpoly_eval3 (A : Matrix (Fin 3) (Fin 3) ℝ) (h : A.IsSymm) (t : ℝ) : A.charpoly.eval t =
    (t - A 0 0)*((t - A 1 1)*(t - A 2 2) - A 1 2*A 1 2) - A 0 1*(A 0 1*(t - A 2 2) + A 1 2*A 0 2) - A 0 2*(A 0 1*A 1 2 + A 0 2*(t - A 1 1)) := by
  rw [eval_charpoly, det_fin_three]
  simp [sym_le h 0 1, sym_le h 0 2, sym_le h 1 2]
  ring

/-- The three eigenvalues of a symmetric matrix. -/
theorem eigs3 (A : Matrix (Fin 3) (Fin 3) ℝ) (h : A.IsSymm) : ∃ l1 l2 l3 : ℝ, ∀ t, A.charpoly.eval t = (t - l1)*(t - l2)*(t - l3) := by
  have hh : A.IsHermitian := by
    apply IsHermitian.ext; intro i j; simpa using sym_le h i j
  refine ⟨hh.eigenvalues 0, hh.eigenvalues 1, hh.eigenvalues 2, fun t => ?_⟩
  rw [hh.charpoly_eq, Fin.prod_univ_three]
  simp

/-- The discriminant of a symmetric matrix without trace is not negative. -/
theorem disc_nonneg (s1 s2 s3 s4 s5 s6 : ℝ) (h0 : s1 + s2 + s3 = 0) :
    27*(s1*s2*s3 + (s4 + s4)*s5*s6 + s1*(s4*s4 - s5*s5) + s2*(s4*s4 - s6*s6))^2 ≤ 4*((s1*s1 + s2*s2 + s3*s3)/2 + s4*s4 + s5*s5 + s6*s6)^3 := by
  have hs : (!![s1, s4, s6; s4, s2, s5; s6, s5, s3] : Matrix (Fin 3) (Fin 3) ℝ).IsSymm := by
    apply IsSymm.ext; intro i j; fin_cases i <;> fin_cases j <;> rfl
  obtain ⟨l1, l2, l3, hl⟩ := eigs3 _ hs
  have e (t : ℝ) := (charpoly_eval3 _ hs t).symm.trans (hl t)
  have e0 := e 0
  have e1 := e 1
  have e2 := e (-1)
  simp at e0 e1 e2
  have g3 : s3 = -s1 - s2 := by linarith
  subst g3
  have t0 : l1 + l2 + l3 = 0 := by linarith
  have g : l3 = -l1 - l2 := by linarith
  subst g
  set J3 := s1*s2*(-s1-s2) + (s4 + s4)*s5*s6 + s1*(s4*s4 - s5*s5) + s2*(s4*s4 - s6*s6) with hJ3
  set J2 := (s1*s1 + s2*s2 + (-s1-s2)*(-s1-s2))/2 + s4*s4 + s5*s5 + s6*s6 with hJ2
  have j3 : J3 = l1*l2*(-l1 - l2) := by rw [hJ3]; linarith
  have j2 : J2 = l1^2 + l1*l2 + l2^2 := by rw [hJ2]; linarith
  rw [j3, j2]
  have := sq_nonneg ((l1 - l2)*(2*l1 + l2)*(l1 + 2*l2))
  nlinarith [this]

/-- The cosine formula for the roots of `t³ - b2 t - b3`. -/
theorem cubic (b2 b3 : ℝ) (h : 0 < b2) (hd : 27*b3^2 ≤ 4*b2^3) (t : ℝ) :
    let c1 := 2*Real.sqrt (b2/3)
    let c2 := 4*b3
    let c3 := c1*c1*c1
    let al := atan2 (Real.sqrt |c3*c3 - c2*c2|) c2/3
    (t - c1*Real.cos al)*(t - c1*Real.cos (al - Real.pi*2/3))*(t - c1*Real.cos (al + Real.pi*2/3)) = t^3 - b2*t - b3 := by
  intro c1 c2 c3 al
  have hb : 0 < b2/3 := by positivity
  have hq : Real.sqrt (b2/3)^2 = b2/3 := Real.sq_sqrt hb.le
  have hp : 0 < Real.sqrt (b2/3) := Real.sqrt_pos.2 hb
  have hc1 : c1^2 = 4*b2/3 := by show (2*Real.sqrt (b2/3))^2 = _; rw [mul_pow, hq]; ring
  have hc1p : 0 < c1 := by positivity
  have hc3 : 0 < c3 := by positivity
  have hc33 : c3*c3 = 64*b2^3/27 := by
    have : c3*c3 = (c1^2)^3 := by show c1*c1*c1*(c1*c1*c1) = _; ring
    rw [this, hc1]; ring
  have hge : 0 ≤ c3*c3 - c2*c2 := by rw [hc33]; show 0 ≤ 64*b2^3/27 - 4*b3*(4*b3); nlinarith
  have hcos : Real.cos (3*al) = c2/c3 := by
    have e : 3*al = Complex.arg ⟨c2, Real.sqrt |c3*c3 - c2*c2|⟩ := by show 3*(atan2 _ c2/3) = _; rw [atan2]; ring
    have nrm : ‖(⟨c2, Real.sqrt |c3*c3 - c2*c2|⟩ : ℂ)‖ = c3 := by
      rw [Complex.norm_def, Complex.normSq_mk, abs_of_nonneg hge, Real.mul_self_sqrt hge]
      rw [show c2*c2 + (c3*c3 - c2*c2) = c3*c3 by ring, Real.sqrt_mul_self hc3.le]
    rw [e, Complex.cos_arg, nrm]
    intro h0
    rw [h0, norm_zero] at nrm
    linarith
  rw [Real.cos_three_mul] at hcos
  have hs := Real.sin_sq_add_cos_sq al
  have k1 : Real.cos (Real.pi*2/3) = -(1/2) := by
    rw [show Real.pi*2/3 = Real.pi - Real.pi/3 by ring, Real.cos_pi_sub, Real.cos_pi_div_three]
  have k2 : Real.sin (Real.pi*2/3) = Real.sqrt 3/2 := by
    rw [show Real.pi*2/3 = Real.pi - Real.pi/3 by ring, Real.sin_pi_sub, Real.sin_pi_div_three]
  have k3 : Real.sqrt 3^2 = 3 := Real.sq_sqrt (by norm_num)
  rw [Real.cos_sub, Real.cos_add, k1, k2]
  have hfin : c1^3*(4*Real.cos al^3 - 3*Real.cos al) = 4*b3 := by
    rw [hcos]; have : c1^3 = c3 := by show c1^3 = c1*c1*c1; ring
    rw [this]; field_simp; rfl
  set C := Real.cos al
  set S := Real.sin al
  have hS : S^2 = 1 - C^2 := by linarith
  have : (t - c1*C)*(t - c1*(C*(-(1/2)) + S*(Real.sqrt 3/2)))*(t - c1*(C*(-(1/2)) - S*(Real.sqrt 3/2)))
      = t^3 - c1^2*(3/4)*t*(C^2 + S^2*(Real.sqrt 3^2/3)) - c1^3*(C*(C^2 - Real.sqrt 3^2*S^2)/4) + t*c1^2*S^2*((3 - Real.sqrt 3^2)/4) - t*c1^2*S^2*((3 - Real.sqrt 3^2)/4) := by ring
  rw [this, k3, hS, hc1]
  have : c1^3*(C*(C^2 - 3*(1 - C^2))/4) = b3 := by linarith
  rw [this]
  ring

/-- The three exchanges sort the values. -/
theorem sort3_spec (p : V3) : (sort3 p).y ≤ (sort3 p).x ∧ (sort3 p).z ≤ (sort3 p).y ∧
    ∀ t : ℝ, (t - (sort3 p).x)*(t - (sort3 p).y)*(t - (sort3 p).z) = (t - p.x)*(t - p.y)*(t - p.z) := by
  obtain ⟨x, y, z⟩ := p
  rw [sort3]
  dsimp only
  split_ifs <;> dsimp only at * <;> refine ⟨by linarith, by linarith, fun t => by ring⟩

theorem poly3 {P : ℝ[X]} {p : V3} (h : ∀ t, P.eval t = (t - p.x)*(t - p.y)*(t - p.z)) : P = (X - C p.x)*(X - C p.y)*(X - C p.z) := by
  apply Polynomial.funext
  intro t
  rw [h]; simp

/-- **C68 (principal values).**  In three dimensions, and for a plane tensor with the component 33: unless the deviator is negligible compared to the mean value, the three numbers computed
are the eigenvalues of the tensor with their multiplicities, in decreasing order if asked for. -/
theorem C68_principal (A : Matrix (Fin 3) (Fin 3) ℝ) (hd : 1/10^12*(A.trace/3)^2 < 1/2*ddot (dev A) (dev A)) (sorted : Bool) :
    (A.IsSymm → ∃ p, principal (ofSym3 A) sorted = some p ∧ A.charpoly = (X - C p.x)*(X - C p.y)*(X - C p.z) ∧ (sorted = true → p.y ≤ p.x ∧ p.z ≤ p.y)) ∧
    (Plane A → ∃ p, principal (ofSym33 A) sorted = some p ∧ A.charpoly = (X - C p.x)*(X - C p.y)*(X - C p.z) ∧ (sorted = true → p.y ≤ p.x ∧ p.z ≤ p.y)) := by
  have core (b1 s1 s2 s3 s4 s5 s6 : ℝ) (h0 : s1 + s2 + s3 = 0) (hb : 1/10^12*b1*b1 < (s1*s1 + s2*s2 + s3*s3)/2 + s4*s4 + s5*s5 + s6*s6)
      (hp : ∀ t, A.charpoly.eval t = (t - b1)^3 - ((s1*s1 + s2*s2 + s3*s3)/2 + s4*s4 + s5*s5 + s6*s6)*(t - b1) - (s1*s2*s3 + (s4 + s4)*s5*s6 + s1*(s4*s4 - s5*s5) + s2*(s4*s4 - s6*s6))) :
      let b2 := (s1*s1 + s2*s2 + s3*s3)/2 + s4*s4 + s5*s5 + s6*s6
      let b3 := s1*s2*s3 + (s4 + s4)*s5*s6 + s1*(s4*s4 - s5*s5) + s2*(s4*s4 - s6*s6)
      let c1 := 2*Real.sqrt (b2/3)
      let c2 := 4*b3
      let c3 := c1*c1*c1
      let al := atan2 (Real.sqrt |c3*c3 - c2*c2|) c2/3
      let pi23 := Real.pi*2/3
      let p : V3 := ⟨b1 + c1*Real.cos al, b1 + c1*Real.cos (al - pi23), b1 + c1*Real.cos (al + pi23)⟩
      ∃ q, some (if sorted then sort3 p else p) = some q ∧ A.charpoly = (X - C q.x)*(X - C q.y)*(X - C q.z) ∧ (sorted = true → q.y ≤ q.x ∧ q.z ≤ q.y) := by
    intro b2 b3 c1 c2 c3 al pi23 p
    have hb2 : 0 < b2 := lt_of_le_of_lt (by have := mul_self_nonneg b1; nlinarith) hb
    have hcub (t : ℝ) : (t - p.x)*(t - p.y)*(t - p.z) = A.charpoly.eval t := by
      rw [hp]
      have := cubic b2 b3 hb2 (disc_nonneg s1 s2 s3 s4 s5 s6 h0) (t - b1)
      rw [← this]
      show (t - (b1 + _))*(t - (b1 + _))*(t - (b1 + _)) = _
      simp only [sub_sub]
      rfl
    refine ⟨_, rfl, ?_, ?_⟩
    · apply poly3
      intro t
      rw [← hcub]
      cases sorted with
      | false => rfl
      | true => exact ((sort3_spec p).2.2 t).symm
    · intro hs
      subst hs
      exact ⟨(sort3_spec p).1, (sort3_spec p).2.1⟩
  constructor
  · intro h
    have hb : 1/10^12*(A.trace/3)*(A.trace/3) < ((A 0 0 - A.trace/3)*(A 0 0 - A.trace/3) + (A 1 1 - A.trace/3)*(A 1 1 - A.trace/3) + (A 2 2 - A.trace/3)*(A 2 2 - A.trace/3))/2 + A 0 1*A 0 1 + A 1 2*A 1 2 + A 0 2*A 0 2 := by
      have e : 1/2*ddot (dev A) (dev A) = ((A 0 0 - A.trace/3)*(A 0 0 - A.trace/3) + (A 1 1 - A.trace/3)*(A 1 1 - A.trace/3) + (A 2 2 - A.trace/3)*(A 2 2 - A.trace/3))/2 + A 0 1*A 0 1 + A 1 2*A 1 2 + A 0 2*A 0 2 := by
        simp [ddot, dev, Fin.sum_univ_three, sym_le h 0 1, sym_le h 0 2, sym_le h 1 2]; ring
      rw [e] at hd
      calc _ = 1/10^12*(A.trace/3)^2 := by ring
        _ < _ := hd
    have := core (A.trace/3) _ _ _ _ _ _ (by simp [Matrix.trace, Fin.sum_univ_three]; ring) hb (by
      intro t
      rw [charpoly_eval3 A h]
      simp [Matrix.trace, Fin.sum_univ_three]
      ring)
    rw [principal]
    have htr := (C68_trace_det.2.1 A h).1
    simp only [htr]
    rw [if_neg (by simp [ofSym3]), if_neg (by simp [ofSym3])]
    simp only [Tensor.at, ofSym3, List.getD_cons_zero, List.getD_cons_succ, if_pos (show 3 > 2 by norm_num)]
    rw [if_neg (not_le.2 hb)]
    exact this
  · intro h
    have hb : 1/10^12*(A.trace/3)*(A.trace/3) < ((A 0 0 - A.trace/3)*(A 0 0 - A.trace/3) + (A 1 1 - A.trace/3)*(A 1 1 - A.trace/3) + (A 2 2 - A.trace/3)*(A 2 2 - A.trace/3))/2 + A 0 1*A 0 1 + 0*0 + 0*0 := by
      have e : 1/2*ddot (dev A) (dev A) = ((A 0 0 - A.trace/3)*(A 0 0 - A.trace/3) + (A 1 1 - A.trace/3)*(A 1 1 - A.trace/3) + (A 2 2 - A.trace/3)*(A 2 2 - A.trace/3))/2 + A 0 1*A 0 1 + 0*0 + 0*0 := by
        simp [ddot, dev, Fin.sum_univ_three, sym_le h.1 0 1, sym_le h.1 0 2, sym_le h.1 1 2, h.2.1, h.2.2]; ring
      rw [e] at hd
      calc _ = 1/10^12*(A.trace/3)^2 := by ring
        _ < _ := hd
    have := core (A.trace/3) _ _ _ _ _ _ (by simp [Matrix.trace, Fin.sum_univ_three]; ring) hb (by
      intro t
      rw [charpoly_eval3 A h.1, h.2.1, h.2.2]
      simp [Matrix.trace, Fin.sum_univ_three]
      ring)
    rw [principal]
    have htr := (C68_trace_det.2.2.2 A h).1
    simp only [htr]
    rw [if_neg (by simp [ofSym33]), if_neg (by simp [ofSym33])]
    simp only [Tensor.back, Tensor.at, ofSym33, List.getD_cons_zero, List.getD_cons_succ, if_neg (show ¬ 2 > 2 by norm_num), List.length_cons, List.length_nil]
    rw [if_neg (not_le.2 hb)]
    exact this

example : ∃ A : Matrix (Fin 3) (Fin 3) ℝ, A.IsSymm ∧ 1/10^12*(A.trace/3)^2 < 1/2*ddot (dev A) (dev A) ∧ A 0 1 ≠ 0 ∧ A 1 2 ≠ 0 := by
  refine ⟨!![2, 1, 0; 1, 2, 1; 0, 1, 3], ?_, ?_, ?_, ?_⟩
  · apply IsSymm.ext; intro i j; fin_cases i <;> fin_cases j <;> rfl
  · simp [ddot, dev, Matrix.trace, Fin.sum_univ_three]; norm_num
  · simp
  · simp

/-- **C68 (principal values in the plane).**  A plane tensor without the component 33: the two eigenvalues, the larger one first, always. -/
theorem C68_principal_plane (A : Matrix (Fin 2) (Fin 2) ℝ) (h : A.IsSymm) (sorted : Bool) :
    ∃ p, principal (ofSym2 A) sorted = some p ∧ A.charpoly = (X - C p.x)*(X - C p.y) ∧ p.y ≤ p.x ∧ p.z = 0 := by
  have hev (t : ℝ) : A.charpoly.eval t = (t - A 0 0)*(t - A 1 1) - A 0 1*A 0 1 := by
    rw [eval_charpoly, det_fin_two]; simp [sym_le h 0 1]
  have fin {p q : ℝ} (h1 : p + q = A 0 0 + A 1 1) (h2 : p*q = A 0 0*A 1 1 - A 0 1*A 0 1) : A.charpoly = (X - C p)*(X - C q) := by
    apply Polynomial.funext
    intro t
    rw [hev]; simp
    linear_combination t*h1 - h2
  rw [principal]
  have e0 : (ofSym2 A).at 0 = A 0 0 := rfl
  have e1 : (ofSym2 A).at 1 = A 1 1 := rfl
  have e2 : (ofSym2 A).at 2 = A 0 1 := rfl
  simp only [e0, e1, e2]
  rw [if_neg (by simp [ofSym2]), if_pos (by simp [ofSym2])]
  have hP : (A 0 0 + A 1 1)*(A 0 0 + A 1 1) - 4*(A 0 0*A 1 1 - A 0 1*A 0 1) = (A 0 0 - A 1 1)^2 + 4*(A 0 1)^2 := by ring
  rw [hP]
  split_ifs with h1 h2
  · refine ⟨_, rfl, ?_, ?_, rfl⟩
    · apply fin
      · ring
      · have := Real.sq_sqrt h1.le
        dsimp only
        linear_combination (-1/4)*this
    · have := Real.sqrt_nonneg ((A 0 0 - A 1 1)^2 + 4*(A 0 1)^2)
      dsimp only; linarith
  · refine ⟨_, rfl, ?_, le_refl _, rfl⟩
    have z : (A 0 0 - A 1 1)^2 + 4*(A 0 1)^2 = 0 := le_antisymm (not_lt.1 h1) (by positivity)
    apply fin
    · ring
    · dsimp only; linear_combination (1/4)*z
  · exact absurd (lt_of_lt_of_le (by norm_num : -(1/10^16 : ℝ) < 0) (by positivity)) h2

/-- **C68 (counterexample, hydrostatic tensors).**  For the unit tensor the principal values computed are zero. -/
theorem C68_principal_counterexample (sorted : Bool) : principal (ofSym3 1) sorted = some ⟨0, 0, 0⟩ := by
  have htr : (ofSym3 1).trace = 3 := by simp [ofSym3, Tensor.trace, Tensor.at]; norm_num
  rw [principal]
  simp only [htr]
  rw [if_neg (by simp [ofSym3]), if_neg (by simp [ofSym3])]
  simp [ofSym3, Tensor.at]

end IFEM.Tens
