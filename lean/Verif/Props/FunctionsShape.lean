import Verif.Props.Functions
/-!
# C71 (third part): shapes, and the queries `isZero` and `isConstant`
-/
namespace IFEM.Fn
noncomputable section
open Classical

/-! ## Shapes -/

/-- **C71** The quadratic function vanishes at its two roots, has its stated extreme value
halfway between them, and lies strictly below it (for a positive value) elsewhere. -/
theorem C71_quadratic (d : Fin 3) (mx a b : ℝ) (hab : a ≠ b) (P : Pt) :
    (P.X d = a → (RealFunc.quad d mx a b).evaluate P = 0) ∧
    (P.X d = b → (RealFunc.quad d mx a b).evaluate P = 0) ∧
    (P.X d = (a+b)/2 → (RealFunc.quad d mx a b).evaluate P = mx) ∧
    (0 < mx → P.X d ≠ (a+b)/2 → (RealFunc.quad d mx a b).evaluate P < mx) := by
  have hne : (a-b)/2*((a-b)/2) ≠ 0 := by
    have : (a-b)/2 ≠ 0 := div_ne_zero (sub_ne_zero.2 hab) two_ne_zero
    exact mul_ne_zero this this
  have hpos : 0 < (a-b)/2*((a-b)/2) := lt_of_le_of_ne (mul_self_nonneg _) hne.symm
  refine ⟨fun h => ?_, fun h => ?_, fun h => ?_, fun hm h => ?_⟩
  · simp [RealFunc.evaluate, h]
  · simp [RealFunc.evaluate, h]
  · simp only [RealFunc.evaluate]
    rw [h, div_eq_iff hne]; ring
  · simp only [RealFunc.evaluate]
    rw [div_lt_iff₀ hpos]
    have h2 : 0 < (P.X d - (a+b)/2)*(P.X d - (a+b)/2) := by
      rcases lt_or_gt_of_ne (sub_ne_zero.2 h) with h' | h'
      · exact mul_pos_of_neg_of_neg h' h'
      · exact mul_pos h' h'
    have h3 := mul_pos hm h2
    nlinarith

/-- **C71** The pair of rotation functions moves a point by a rotation about the centre: the
displaced point has the same distance to the centre, and its displacement is the rotation of
its arm by `A*t` minus the arm. -/
theorem C71_rotation (A x0 y0 t : ℝ) (X : Fin 3 → ℝ) :
    let u := (RealFunc.rotZ true A x0 y0).evaluate ⟨X, some t⟩
    let v := (RealFunc.rotZ false A x0 y0).evaluate ⟨X, some t⟩
    X 0 + u = x0 + (X 0 - x0)*Real.cos (A*t) - (X 1 - y0)*Real.sin (A*t) ∧
    X 1 + v = y0 + (X 0 - x0)*Real.sin (A*t) + (X 1 - y0)*Real.cos (A*t) ∧
    (X 0 + u - x0)^2 + (X 1 + v - y0)^2 = (X 0 - x0)^2 + (X 1 - y0)^2 := by
  have hu : (RealFunc.rotZ true A x0 y0).evaluate ⟨X, some t⟩ =
      (X 0 - x0)*Real.cos (A*t) - (X 1 - y0)*Real.sin (A*t) - (X 0 - x0) := by
    simp [RealFunc.evaluate, rotValue]
  have hv : (RealFunc.rotZ false A x0 y0).evaluate ⟨X, some t⟩ =
      (X 0 - x0)*Real.sin (A*t) + (X 1 - y0)*Real.cos (A*t) - (X 1 - y0) := by
    simp [RealFunc.evaluate, rotValue]
  dsimp only
  rw [hu, hv]
  refine ⟨by ring, by ring, ?_⟩
  have := Real.sin_sq_add_cos_sq (A*t)
  linear_combination ((X 0 - x0)^2 + (X 1 - y0)^2)*this

/-- **C71** A point without a time is not moved by the rotation functions. -/
theorem C71_rotation_static (rX : Bool) (A x0 y0 : ℝ) (X : Fin 3 → ℝ) (i : ℕ) :
    (RealFunc.rotZ rX A x0 y0).evaluate ⟨X, none⟩ = 0 ∧
    (RealFunc.rotZ rX A x0 y0).deriv ⟨X, none⟩ i = 0 := by
  simp [RealFunc.evaluate, RealFunc.deriv]

/-- **C71** The step functions have their value exactly on the closed interval, rectangle or
(widened by the tolerance) box, and vanish outside. -/
theorem C71_steps (d : Fin 3) (fv a b c e eps : ℝ) (A B : Fin 3 → ℝ) (P : Pt) :
    (RealFunc.stepX d fv a b).evaluate P = (if P.X d ∈ Set.Icc a b then fv else 0) ∧
    (RealFunc.stepXY fv b e a c).evaluate P =
      (if P.X 0 ∈ Set.Icc a b ∧ P.X 1 ∈ Set.Icc c e then fv else 0) ∧
    (RealFunc.stepXYZ fv A B eps).evaluate P =
      (if ∀ i, P.X i ∈ Set.Icc (A i - eps) (B i + eps) then fv else 0) := by
  refine ⟨?_, ?_, ?_⟩
  · simp only [RealFunc.evaluate, Set.mem_Icc]
    by_cases h : P.X d < a ∨ P.X d > b
    · rw [if_pos h, if_neg]
      rintro ⟨h1, h2⟩
      rcases h with h | h <;> linarith
    · rw [if_neg h, if_pos]
      rw [not_or, not_lt, not_lt] at h
      exact h
  · simp only [RealFunc.evaluate, Set.mem_Icc]
    by_cases h : P.X 0 < a ∨ P.X 0 > b ∨ P.X 1 < c ∨ P.X 1 > e
    · rw [if_pos h, if_neg]
      rintro ⟨⟨h1, h2⟩, h3, h4⟩
      rcases h with h | h | h | h <;> linarith
    · rw [if_neg h, if_pos]
      simp only [not_or, not_lt] at h
      exact ⟨⟨h.1, h.2.1⟩, h.2.2⟩
  · simp only [RealFunc.evaluate]
    have : inside P.X A B eps ↔ ∀ i, P.X i ∈ Set.Icc (A i - eps) (B i + eps) := by
      unfold inside
      refine forall_congr' (fun i => ?_)
      rw [not_or, not_lt, not_lt, Set.mem_Icc]
      constructor
      · rintro ⟨h1, h2⟩; exact ⟨by linarith, by linarith⟩
      · rintro ⟨h1, h2⟩; exact ⟨by linarith, by linarith⟩
    simp only [this]

/-- **C71** An interpolated function is the table in its coordinate, multiplied by `t/ramp`
before the end of a positive ramp-up time. -/
theorem C71_interpolate (lf : LinearFunc) (d : Fin 3) (ramp t : ℝ) (X : Fin 3 → ℝ) :
    (RealFunc.interp lf d ramp).evaluate ⟨X, none⟩ = lf.evaluate (X d) ∧
    (ramp ≤ 0 ∨ ramp ≤ t → (RealFunc.interp lf d ramp).evaluate ⟨X, some t⟩ = lf.evaluate (X d)) ∧
    (0 < ramp → t ≤ ramp →
      (RealFunc.interp lf d ramp).evaluate ⟨X, some t⟩ = lf.evaluate (X d)*(t/ramp)) := by
  refine ⟨?_, fun h => ?_, fun h1 h2 => ?_⟩
  · simp [RealFunc.evaluate, inRamp]
  · simp only [RealFunc.evaluate]
    rw [if_neg]
    rintro ⟨h1, h2⟩
    rcases h with h | h <;> linarith
  · simp only [RealFunc.evaluate]
    by_cases h : t < ramp
    · rw [if_pos ⟨h1, h⟩]; rfl
    · have : t = ramp := le_antisymm h2 (not_lt.1 h)
      rw [if_neg (fun hc => h hc.2), this, div_self h1.ne', mul_one]

/-- **C71** `StepXY x0 y0` is announced as the step on `[-inf,x0]x[-inf,y0]`; the lower bounds
are in fact -1 (finding F113). -/
theorem C71_step_xy_counterexample :
    (∃ X : Fin 3 → ℝ, X 0 ≤ 1 ∧ X 1 ≤ 1 ∧ (parseStepXY 5 1 1).evaluate ⟨X, none⟩ = 0) ∧
    ∀ (A x0 y0 : ℝ) (P : Pt), (parseStepXY A x0 y0).evaluate P =
      if -1 ≤ P.X 0 ∧ P.X 0 ≤ x0 ∧ -1 ≤ P.X 1 ∧ P.X 1 ≤ y0 then A else 0 := by
  refine ⟨⟨![-2,0,0], by norm_num, by norm_num, ?_⟩, fun A x0 y0 P => ?_⟩
  · simp only [parseStepXY, RealFunc.evaluate]
    rw [if_pos]
    left; norm_num
  · simp only [parseStepXY, RealFunc.evaluate]
    by_cases h : -1 ≤ P.X 0 ∧ P.X 0 ≤ x0 ∧ -1 ≤ P.X 1 ∧ P.X 1 ≤ y0
    · rw [if_pos h, if_neg]
      rintro (h' | h' | h' | h') <;> linarith [h.1, h.2.1, h.2.2.1, h.2.2.2]
    · rw [if_neg h, if_pos]
      by_contra hc
      simp only [not_or, not_lt, gt_iff_lt] at hc
      exact h ⟨hc.1, hc.2.1, hc.2.2.1, hc.2.2.2⟩

/-! ## `isZero` -/

/-- **C71** A function of one argument that says it is zero has values within the tolerance:
zero exactly unless it is a linear function or table. -/
theorem C71_scalar_zero (f : ScalarFunc) (h : f.isZero = true) (x : ℝ)
    (hs : ∀ lf, f = .linear lf → Ascending lf) :
    |f.evaluate x| ≤ zTol*max zTol |x| ∧
    ((∀ lf, f ≠ .linear lf) → f.evaluate x = 0) := by
  have hz : 0 ≤ zTol := by unfold zTol; norm_num
  have hm : 0 ≤ zTol*max zTol |x| := mul_nonneg hz (le_trans hz (le_max_left _ _))
  cases f with
  | linear lf =>
    refine ⟨?_, fun hc => absurd rfl (hc lf)⟩
    have ha := hs lf rfl
    simp only [ScalarFunc.isZero, LinearFunc.isZero, decide_eq_true_eq] at h
    obtain ⟨h1, h2, h3⟩ := h
    have hsc : |lf.scale| ≤ zTol := abs_le.2 ⟨by linarith, h2⟩
    simp only [ScalarFunc.evaluate]
    by_cases hne : lf.fvals = []
    · unfold LinearFunc.evaluate
      rw [if_pos hne, abs_mul]
      exact mul_le_mul hsc (le_max_right _ _) (abs_nonneg _) hz
    · obtain ⟨y, hy, h4, h5⟩ := C71_table_bounds lf hne ha (-zTol) zTol (by
        intro i hi
        have := h1 (lf.fvals.getD i (0,0)) (by
          rw [List.getD, List.getElem?_eq_getElem hi]; simp)
        rw [not_or, not_lt, not_lt] at this
        exact ⟨this.2, this.1⟩) x
      rw [hy, abs_mul]
      exact mul_le_mul hsc (le_trans (abs_le.2 ⟨h4, h5⟩) (le_max_left _ _)) (abs_nonneg _) hz
  | const v =>
    have : v = 0 := by simpa [ScalarFunc.isZero] using h
    subst this
    simpa [ScalarFunc.evaluate] using hm
  | ramp fval xmax =>
    have : fval = 0 := by simpa [ScalarFunc.isZero] using h
    subst this
    simpa [ScalarFunc.evaluate] using hm
  | dirac amp xmax =>
    have : amp = 0 := by simpa [ScalarFunc.isZero] using h
    subst this
    simpa [ScalarFunc.evaluate] using hm
  | step amp xmax =>
    have : amp = 0 := by simpa [ScalarFunc.isZero] using h
    subst this
    simpa [ScalarFunc.evaluate] using hm
  | sine s f p =>
    have : s = 0 := by simpa [ScalarFunc.isZero] using h
    subst this
    simpa [ScalarFunc.evaluate] using hm

/-- No part of the function is a linear function or table (those are zero up to a tolerance). -/
def RealFunc.NoTable : RealFunc → Prop
  | .constTime tf => ∀ lf, tf ≠ .linear lf
  | .spaceTime sf tf => sf.NoTable ∧ ∀ lf, tf ≠ .linear lf
  | .interp _ _ _ => False
  | _ => True

/-- **C71** A function of space that says it is zero vanishes everywhere. -/
theorem C71_zero (f : RealFunc) (h : f.isZero = true) (hn : f.NoTable) (P : Pt) :
    f.evaluate P = 0 := by
  induction f with
  | const v => simpa [RealFunc.isZero, RealFunc.evaluate] using h
  | constTime tf => exact (C71_scalar_zero tf h _ (fun lf e => absurd e (hn lf))).2 hn
  | spaceTime sf tf ih =>
    simp only [RealFunc.isZero, Bool.or_eq_true] at h
    simp only [RealFunc.evaluate]
    rcases h with h | h
    · rw [ih h hn.1, zero_mul]
    · rw [(C71_scalar_zero tf h _ (fun lf e => absurd e (hn.2 lf))).2 hn.2, mul_zero]
  | linear d a b =>
    simp only [RealFunc.isZero, Bool.and_eq_true, decide_eq_true_eq] at h
    simp [RealFunc.evaluate, h.1, h.2]
  | quad d mx a b =>
    have : mx = 0 := by simpa [RealFunc.isZero] using h
    simp [RealFunc.evaluate, this]
  | rotZ rX A x0 y0 =>
    have : A = 0 := by simpa [RealFunc.isZero] using h
    subst this
    simp only [RealFunc.evaluate]
    cases P.t with
    | none => rfl
    | some t => cases rX <;> simp [rotValue]
  | stepX d fv x0 x1 =>
    have : fv = 0 := by simpa [RealFunc.isZero] using h
    simp [RealFunc.evaluate, this]
  | stepXY fv x1 y1 x0 y0 =>
    have : fv = 0 := by simpa [RealFunc.isZero] using h
    simp [RealFunc.evaluate, this]
  | stepXYZ fv X0 X1 eps =>
    have : fv = 0 := by simpa [RealFunc.isZero] using h
    simp [RealFunc.evaluate, this]
  | interp lf d ramp => exact absurd hn (by simp [RealFunc.NoTable])

/-- **C71** A table of zeros does not say that it is zero (finding F110). -/
theorem C71_zero_counterexample :
    let f := LinearFunc.ofVectors [0, 1] [0, 0]
    f.isZero = false ∧ ∀ x, f.evaluate x = 0 := by
  intro f
  have ha : Ascending f := by
    intro i j hij hj
    have hj2 : j < 2 := hj
    have hi2 : i < 2 := by omega
    interval_cases j <;> interval_cases i <;> first
      | omega
      | simp [f, LinearFunc.px, LinearFunc.ofVectors]
  constructor
  · simp only [f, LinearFunc.isZero, LinearFunc.ofVectors, decide_eq_false_iff_not]
    rintro ⟨_, h, _⟩
    unfold zTol at h
    norm_num at h
  · intro x
    obtain ⟨y, hy, h1, h2⟩ := C71_table_bounds f (by simp [f, LinearFunc.ofVectors]) ha 0 0 (by
      intro i hi
      have hi2 : i < 2 := hi
      interval_cases i <;> simp [f, LinearFunc.pf, LinearFunc.ofVectors]) x
    rw [hy, le_antisymm h2 h1, mul_zero]

/-! ## `isConstant` -/

/-- No step or Dirac function of time occurs (finding F109), and the space factor of a product
says it is constant. -/
def RealFunc.Plain : RealFunc → Prop
  | .constTime tf => ∀ a x, tf ≠ .dirac a x ∧ tf ≠ .step a x
  | .spaceTime sf tf => sf.Plain ∧ sf.isConstant = true ∧ ∀ a x, tf ≠ .dirac a x ∧ tf ≠ .step a x
  | _ => True

/-- **C71** A function of one argument that says it is constant has the same value for all
non-negative arguments, step and Dirac functions excepted. -/
theorem C71_scalar_constant (f : ScalarFunc) (h : f.isConstant = true)
    (hp : ∀ a x, f ≠ .dirac a x ∧ f ≠ .step a x) (s t : ℝ) (hs : 0 ≤ s) (ht : 0 ≤ t) :
    f.evaluate s = f.evaluate t := by
  cases f with
  | const v => rfl
  | linear lf =>
    have hl : lf.fvals.length = 1 := by
      simpa [ScalarFunc.isConstant, LinearFunc.isConstant] using h
    have hne : lf.fvals ≠ [] := by intro h'; rw [h'] at hl; simp at hl
    have ha : Ascending lf := by
      intro i j hij hj
      have : i = j := by omega
      rw [this]
    simp only [ScalarFunc.evaluate]
    rw [(C71_table_outside lf hne ha s).2.2 hl, (C71_table_outside lf hne ha t).2.2 hl]
  | ramp fval xmax =>
    have : xmax ≤ 0 := by simpa [ScalarFunc.isConstant] using h
    simp only [ScalarFunc.evaluate]
    rw [if_neg (by linarith), if_neg (by linarith)]
  | dirac a x => exact absurd rfl (hp a x).1
  | step a x => exact absurd rfl (hp a x).2
  | sine sc f p =>
    have : sc = 0 := by simpa [ScalarFunc.isConstant] using h
    simp [ScalarFunc.evaluate, this]

/-- **C71** A function of space that says it is constant does not vary in time. -/
theorem C71_constant (f : RealFunc) (h : f.isConstant = true) (hp : f.Plain) (X : Fin 3 → ℝ)
    (s t : Option ℝ) (hs : 0 ≤ s.getD 0) (ht : 0 ≤ t.getD 0) :
    f.evaluate ⟨X, s⟩ = f.evaluate ⟨X, t⟩ := by
  induction f with
  | const v => rfl
  | constTime tf => exact C71_scalar_constant tf h hp _ _ hs ht
  | spaceTime sf tf ih =>
    simp only [RealFunc.evaluate]
    rw [ih hp.2.1 hp.1]
    congr 1
    exact C71_scalar_constant tf h hp.2.2 _ _ hs ht
  | linear d a b => rfl
  | quad d mx a b => rfl
  | rotZ rX A x0 y0 =>
    have hA : A = 0 := by simpa [RealFunc.isConstant] using h
    subst hA
    cases s <;> cases t <;> cases rX <;> simp [RealFunc.evaluate, rotValue]
  | stepX d fv x0 x1 => rfl
  | stepXY fv x1 y1 x0 y0 => rfl
  | stepXYZ fv X0 X1 eps => rfl
  | interp lf d ramp =>
    have hr : ramp ≤ 0 := by simpa [RealFunc.isConstant] using h
    have key : ∀ s, ¬ inRamp ⟨X, s⟩ ramp := by
      intro s
      cases s with
      | none => exact id
      | some s => rintro ⟨h1, _⟩; linarith
    simp only [RealFunc.evaluate]
    rw [if_neg (key s), if_neg (key t)]

/-! ## Prescribed values -/

/-- **C71** If no prescribed value is reported as time dependent, the prescribed coefficients
are the same at all non-negative times; a coefficient is the value of its function there. -/
theorem C71_prescribed (codes : List ℤ) (func : ℤ → Option RealFunc)
    (hd : hasTimeDependentDirichlet codes func = false) (c : ℤ) (hc : c ∈ codes) (f : RealFunc)
    (hf : func c = some f) (hp : f.Plain) (X : Fin 3 → ℝ) (s t : ℝ) (hs : 0 ≤ s) (ht : 0 ≤ t) :
    dirichletCoeff f X s false = dirichletCoeff f X t false ∧
    (f.NoTable → dirichletCoeff f X s false = f.evaluate ⟨X, some s⟩) := by
  have hcon : f.isConstant = true := by
    unfold hasTimeDependentDirichlet at hd
    rw [List.any_eq_false] at hd
    have := hd c hc
    rw [hf] at this
    simpa using this
  constructor
  · unfold dirichletCoeff
    by_cases hz : f.isZero = true
    · simp [hz]
    · simp only [hz, if_false, Bool.false_eq_true]
      exact C71_constant f hcon hp X (some s) (some t) hs ht
  · intro hn
    unfold dirichletCoeff
    by_cases hz : f.isZero = true
    · rw [if_pos hz, C71_zero f hz hn]
    · simp [hz]

/-- **C71** The tangent coefficient of a prescribed value is its time derivative. -/
theorem C71_prescribed_tangent (f : RealFunc) (X : Fin 3 → ℝ) (t : ℝ) (h : f.TimeRegularAt t)
    (hn : f.NoTable) :
    HasDerivAt (fun s => dirichletCoeff f X s false) (dirichletCoeff f X t true) t := by
  unfold dirichletCoeff
  by_cases hz : f.isZero = true
  · simp only [hz, if_true]; exact hasDerivAt_const _ _
  · simp only [hz, if_false, if_true, Bool.false_eq_true]
    exact C71_time_derivative f X t h

/-- **C71** A prescribed value that is a step (or an impulse) in time is reported as not time dependent, although
the coefficient jumps (finding F109). -/
theorem C71_constant_counterexample :
    ∀ f ∈ [RealFunc.constTime (.step 2 1), RealFunc.constTime (.dirac 2 1)],
    hasTimeDependentDirichlet [7] (fun _ => some f) = false ∧
    ∀ X, dirichletCoeff f X 0 false = 0 ∧ dirichletCoeff f X 1 false = 2 := by
  intro f hf
  rcases List.mem_cons.1 hf with rfl | hf
  · refine ⟨by simp [hasTimeDependentDirichlet, RealFunc.isConstant, ScalarFunc.isConstant], ?_⟩
    intro X
    simp [dirichletCoeff, RealFunc.isZero, ScalarFunc.isZero, RealFunc.evaluate,
      ScalarFunc.evaluate, Pt.time]
  · obtain rfl := List.mem_singleton.1 hf
    refine ⟨by simp [hasTimeDependentDirichlet, RealFunc.isConstant, ScalarFunc.isConstant], ?_⟩
    intro X
    simp [dirichletCoeff, RealFunc.isZero, ScalarFunc.isZero, RealFunc.evaluate,
      ScalarFunc.evaluate, Pt.time]
    norm_num

/-- Non-vacuity: a ramped quadratic inflow profile at a point, its value, its derivatives and
the tangent coefficient. -/
theorem C71_example :
    let f := RealFunc.spaceTime (.quad 1 6 0 2) (.ramp 1 4)
    let X : Fin 3 → ℝ := ![5, 1/2, 0]
    f.evaluate ⟨X, some 2⟩ = 9/4 ∧ f.gradient ⟨X, some 2⟩ 1 = 3 ∧ f.gradient ⟨X, some 2⟩ 0 = 0 ∧
    f.hessian ⟨X, some 2⟩ 1 1 = -6 ∧ dirichletCoeff f X 2 true = 9/8 ∧
    f.isConstant = false ∧ f.RegularAt X ∧ f.TimeRegularAt 2 ∧ f.NoTable := by
  refine ⟨?_, ?_, ?_, ?_, ?_, ?_, ?_, ?_, ?_⟩
  · simp only [RealFunc.evaluate, ScalarFunc.evaluate, Pt.time, Option.getD_some]
    norm_num
  · simp only [RealFunc.gradient, RealFunc.deriv, ScalarFunc.evaluate, Pt.time, Option.getD_some]
    norm_num
  · simp only [RealFunc.gradient, RealFunc.deriv, ScalarFunc.evaluate, Pt.time, Option.getD_some]
    norm_num
  · simp only [RealFunc.hessian, RealFunc.dderiv, ScalarFunc.evaluate, Pt.time, Option.getD_some]
    norm_num
  · simp only [dirichletCoeff, RealFunc.isZero, ScalarFunc.isZero, RealFunc.timeDerivative,
      RealFunc.deriv, RealFunc.evaluate, ScalarFunc.deriv, Pt.time, Option.getD_some]
    norm_num
  · simp [RealFunc.isConstant, ScalarFunc.isConstant]
  · simp [RealFunc.RegularAt]
  · refine ⟨fun _ _ _ => rfl, ?_⟩
    simp [ScalarFunc.RegularAt]
  · simp [RealFunc.NoTable]

end
end IFEM.Fn
