import Verif.Props.FunctionsTable
import Mathlib.Analysis.SpecialFunctions.Trigonometric.Basic
import Mathlib.Analysis.Calculus.Deriv.Mul
/-!
# C71 (second part): functions of time and space

A function of time or space reports derivatives that are the derivatives of its value, a zero
or constant function is what it says, and each class has the shape its documentation promises.
-/
namespace IFEM.Fn
noncomputable section
open Classical

/-! ## Specification -/

/-- The argument is not at a kink or jump of the function, and no division by zero occurs. -/
def ScalarFunc.RegularAt : ScalarFunc → ℝ → Prop
  | .const _, _ => True
  | .linear f, x => Ascending f ∧ ∀ i < f.fvals.length, x ≠ f.px i
  | .ramp _ xmax, x => x ≠ xmax ∧ (xmax = 0 → 0 < x)
  | .dirac _ xmax, x => |x - xmax| ≠ 1/10^4
  | .step _ xmax, x => x ≠ xmax
  | .sine _ _ _, _ => True

/-- The point is not on a face where the function jumps or has a kink in space. -/
def RealFunc.RegularAt : RealFunc → (Fin 3 → ℝ) → Prop
  | .const _, _ => True
  | .constTime _, _ => True
  | .spaceTime sf _, X => sf.RegularAt X
  | .linear _ _ _, _ => True
  | .quad _ _ a b, _ => a ≠ b
  | .rotZ _ _ _ _, _ => True
  | .stepX d _ x0 x1, X => X d ≠ x0 ∧ X d ≠ x1
  | .stepXY _ x1 y1 x0 y0, X => X 0 ≠ x0 ∧ X 0 ≠ x1 ∧ X 1 ≠ y0 ∧ X 1 ≠ y1
  | .stepXYZ _ X0 X1 eps, X => ∀ i, X i + eps ≠ X0 i ∧ X i - eps ≠ X1 i
  | .interp lf d _, X => Ascending lf ∧ ∀ i < lf.fvals.length, X d ≠ lf.px i

/-- The value does not depend on the time. -/
def Static (f : RealFunc) : Prop := ∀ X s t, f.evaluate ⟨X, s⟩ = f.evaluate ⟨X, t⟩

/-- The time is not at a kink or jump, the factor in space of a product does not depend on the
time, and the function is not a rotation (finding F111). -/
def RealFunc.TimeRegularAt : RealFunc → ℝ → Prop
  | .constTime tf, t => tf.RegularAt t
  | .spaceTime sf tf, t => Static sf ∧ tf.RegularAt t
  | .rotZ _ A _ _, _ => A = 0
  | .interp _ _ ramp, t => t ≠ ramp
  | _, _ => True

/-- The point with coordinate `i` replaced. -/
def Pt.at' (P : Pt) (i : Fin 3) (s : ℝ) : Pt := ⟨Function.update P.X i s, P.t⟩

/-! ## Functions of one argument -/

/-- **C71** Away from its kinks and jumps a function of one argument reports its derivative. -/
theorem C71_scalar_derivative (f : ScalarFunc) (x : ℝ) (h : f.RegularAt x) :
    HasDerivAt f.evaluate (f.deriv x) x := by
  cases f with
  | const v => exact hasDerivAt_const x v
  | linear f => exact C71_table_derivative f h.1 x h.2
  | ramp fval xmax =>
    obtain ⟨h1, h2⟩ := h
    rcases lt_or_gt_of_ne h1 with hlt | hgt
    · have hd : (ScalarFunc.ramp fval xmax).deriv x = fval/xmax := by
        simp [ScalarFunc.deriv, hlt]
      rw [hd]
      have base : HasDerivAt (fun y => fval*y/xmax) (fval/xmax) x := by
        have := ((hasDerivAt_id x).const_mul fval).div_const xmax
        simpa using this
      refine base.congr_of_eventuallyEq ?_
      filter_upwards [Iio_mem_nhds hlt] with y hy
      simp [ScalarFunc.evaluate, Set.mem_Iio.1 hy]
    · have hd : (ScalarFunc.ramp fval xmax).deriv x = 0 := by
        simp [ScalarFunc.deriv, not_lt.2 hgt.le]
      rw [hd]
      refine (hasDerivAt_const x fval).congr_of_eventuallyEq ?_
      filter_upwards [Ioi_mem_nhds hgt] with y hy
      simp [ScalarFunc.evaluate, not_lt.2 (Set.mem_Ioi.1 hy).le]
  | dirac amp xmax =>
    have hc : Continuous (fun y : ℝ => |y - xmax|) := by fun_prop
    rcases lt_or_gt_of_ne h with hlt | hgt
    · refine (hasDerivAt_const x amp).congr_of_eventuallyEq ?_
      filter_upwards [(hc.tendsto x).eventually_lt_const hlt] with y hy
      simp only [ScalarFunc.evaluate]; rw [if_pos hy]
    · refine (hasDerivAt_const x 0).congr_of_eventuallyEq ?_
      filter_upwards [(hc.tendsto x).eventually_const_lt hgt] with y hy
      simp only [ScalarFunc.evaluate]; rw [if_neg (not_lt.2 (le_of_lt hy))]
  | step amp xmax =>
    rcases lt_or_gt_of_ne h with hlt | hgt
    · refine (hasDerivAt_const x 0).congr_of_eventuallyEq ?_
      filter_upwards [Iio_mem_nhds hlt] with y hy
      simp only [ScalarFunc.evaluate]; rw [if_neg (not_le.2 hy)]
    · refine (hasDerivAt_const x amp).congr_of_eventuallyEq ?_
      filter_upwards [Ioi_mem_nhds hgt] with y hy
      simp only [ScalarFunc.evaluate]; rw [if_pos (le_of_lt hy)]
  | sine s f p =>
    have h1 : HasDerivAt (fun y => f*y + p) f x := by
      simpa using ((hasDerivAt_id x).const_mul f).add_const p
    have h2 := (h1.sin).const_mul s
    refine h2.congr_deriv ?_
    simp only [ScalarFunc.deriv]; ring

/-- **C71** The ramp starts at zero, reaches its value at the end of the ramp and keeps it; in
between it is proportional to the time. -/
theorem C71_ramp (fval xmax x : ℝ) (hm : 0 < xmax) :
    (ScalarFunc.ramp fval xmax).evaluate 0 = 0 ∧
    (xmax ≤ x → (ScalarFunc.ramp fval xmax).evaluate x = fval) ∧
    (x ≤ xmax → (ScalarFunc.ramp fval xmax).evaluate x = fval*(x/xmax)) := by
  refine ⟨?_, fun h => ?_, fun h => ?_⟩
  · simp [ScalarFunc.evaluate, hm]
  · simp [ScalarFunc.evaluate, not_lt.2 h]
  · simp only [ScalarFunc.evaluate]
    by_cases hx : x < xmax
    · rw [if_pos hx, mul_div_assoc]
    · have : x = xmax := le_antisymm h (not_lt.1 hx)
      rw [if_neg hx, this, div_self hm.ne', mul_one]

/-- **C71** The step is zero before its time and has its amplitude from then on; the Dirac
function is non-zero only in a window of 10⁻⁴ around its time. -/
theorem C71_step_dirac (amp xmax x : ℝ) :
    (x < xmax → (ScalarFunc.step amp xmax).evaluate x = 0) ∧
    (xmax ≤ x → (ScalarFunc.step amp xmax).evaluate x = amp) ∧
    (ScalarFunc.dirac amp xmax).evaluate xmax = amp ∧
    ((x ≤ xmax - 1/10^4 ∨ xmax + 1/10^4 ≤ x) → (ScalarFunc.dirac amp xmax).evaluate x = 0) := by
  refine ⟨fun h => ?_, fun h => ?_, ?_, fun h => ?_⟩
  · simp only [ScalarFunc.evaluate]; rw [if_neg (not_le.2 h)]
  · simp only [ScalarFunc.evaluate]; rw [if_pos h]
  · simp [ScalarFunc.evaluate]
  · simp only [ScalarFunc.evaluate]
    rw [if_neg]
    rw [not_lt, le_abs]
    rcases h with h | h
    · right; linarith
    · left; linarith

/-! ## Derivatives in space -/

theorem at_same (P : Pt) (i : Fin 3) (s : ℝ) : (P.at' i s).X i = s := by simp [Pt.at']
theorem at_other (P : Pt) (i d : Fin 3) (s : ℝ) (h : d ≠ i) : (P.at' i s).X d = P.X d := by
  simp [Pt.at', h]
theorem at_time (P : Pt) (i : Fin 3) (s : ℝ) : (P.at' i s).time = P.time := rfl
theorem at_inRamp (P : Pt) (i : Fin 3) (s r : ℝ) : inRamp (P.at' i s) r ↔ inRamp P r := Iff.rfl
theorem at_self (P : Pt) (i : Fin 3) : P.at' i (P.X i) = P := by simp [Pt.at']

/-- The coordinate `d` as a function of the replaced coordinate. -/
theorem at_coord (P : Pt) (i d : Fin 3) :
    HasDerivAt (fun s => (P.at' i s).X d) (if d = i then 1 else 0) (P.X i) := by
  by_cases h : d = i
  · subst h; simp only [at_same, if_true]; exact hasDerivAt_id _
  · simp only [at_other P i d _ h, if_neg h]; exact hasDerivAt_const _ _

theorem at_cont (P : Pt) (i d : Fin 3) :
    Filter.Tendsto (fun s => (P.at' i s).X d) (nhds (P.X i)) (nhds (P.X d)) := by
  have := (at_coord P i d).continuousAt.tendsto
  simpa [at_self] using this

/-- A condition that is locally constant gives a function with derivative zero. -/
theorem ite_local (g : ℝ → ℝ) (x : ℝ) (p : ℝ → Prop) (a b : ℝ)
    (hg : ∀ s, g s = if p s then a else b)
    (hp : (∀ᶠ s in nhds x, p s) ∨ (∀ᶠ s in nhds x, ¬ p s)) : HasDerivAt g 0 x := by
  rcases hp with h | h
  · refine (hasDerivAt_const x a).congr_of_eventuallyEq ?_
    filter_upwards [h] with s hs
    rw [hg, if_pos hs]
  · refine (hasDerivAt_const x b).congr_of_eventuallyEq ?_
    filter_upwards [h] with s hs
    rw [hg, if_neg hs]

/-- A strict comparison with a continuous quantity is locally constant. -/
theorem lt_local (g : ℝ → ℝ) (x v c : ℝ) (hg : Filter.Tendsto g (nhds x) (nhds v)) (h : v ≠ c) :
    (∀ᶠ s in nhds x, g s < c) ∨ (∀ᶠ s in nhds x, ¬ g s < c) := by
  rcases lt_or_gt_of_ne h with h | h
  · exact Or.inl (hg.eventually_lt_const h)
  · exact Or.inr ((hg.eventually_const_lt h).mono (fun s hs => not_lt.2 (le_of_lt hs)))

theorem gt_local (g : ℝ → ℝ) (x v c : ℝ) (hg : Filter.Tendsto g (nhds x) (nhds v)) (h : v ≠ c) :
    (∀ᶠ s in nhds x, g s > c) ∨ (∀ᶠ s in nhds x, ¬ g s > c) := by
  rcases lt_or_gt_of_ne h with h | h
  · exact Or.inr ((hg.eventually_lt_const h).mono (fun s hs => not_lt.2 (le_of_lt hs)))
  · exact Or.inl (hg.eventually_const_lt h)

theorem or_local {x : ℝ} {p q : ℝ → Prop}
    (hp : (∀ᶠ s in nhds x, p s) ∨ (∀ᶠ s in nhds x, ¬ p s))
    (hq : (∀ᶠ s in nhds x, q s) ∨ (∀ᶠ s in nhds x, ¬ q s)) :
    (∀ᶠ s in nhds x, p s ∨ q s) ∨ (∀ᶠ s in nhds x, ¬ (p s ∨ q s)) := by
  rcases hp with hp | hp
  · exact Or.inl (hp.mono fun s h => Or.inl h)
  · rcases hq with hq | hq
    · exact Or.inl (hq.mono fun s h => Or.inr h)
    · right
      filter_upwards [hp, hq] with s h1 h2
      exact not_or.2 ⟨h1, h2⟩

/-- **C71** Away from the faces where a function jumps, direction 1, 2 and 3 of `deriv` is the
partial derivative of the value in x, y and z. -/
theorem C71_space_derivative (f : RealFunc) (P : Pt) (i : Fin 3) (h : f.RegularAt P.X) :
    HasDerivAt (fun s => f.evaluate (P.at' i s)) (f.deriv P (i.val + 1)) (P.X i) := by
  induction f with
  | const v => exact hasDerivAt_const _ _
  | constTime tf =>
    simp only [RealFunc.deriv, RealFunc.evaluate, at_time]
    rw [if_pos (by omega)]
    exact hasDerivAt_const _ _
  | spaceTime sf tf ih =>
    simp only [RealFunc.deriv, RealFunc.evaluate, at_time]
    rw [if_pos (by omega)]
    exact (ih h).mul_const _
  | linear d a b =>
    have e := ((at_coord P i d).const_mul a).add_const b
    simp only [RealFunc.deriv, RealFunc.evaluate]
    refine e.congr_deriv ?_
    by_cases hd : d = i
    · subst hd; simp
    · have : ¬ i.val + 1 = d.val + 1 := by
        intro h'; exact hd (Fin.ext (by omega))
      rw [if_neg hd, if_neg this, mul_zero]
  | quad d mx a b =>
    have e := ((((at_coord P i d).const_sub a).const_mul mx).mul
      ((at_coord P i d).sub_const b)).div_const (((a-b)/2)*((a-b)/2))
    simp only [RealFunc.deriv, RealFunc.evaluate]
    refine e.congr_deriv ?_
    simp only [at_self]
    by_cases hd : d = i
    · subst hd
      simp only [if_true, ne_eq, not_true_eq_false, if_false]
      congr 1
      ring
    · have : i.val + 1 ≠ d.val + 1 := by
        intro h'; exact hd (Fin.ext (by omega))
      rw [if_neg hd, if_pos this]
      ring
  | rotZ rX A x0 y0 =>
    obtain ⟨X, t⟩ := P
    cases t with
    | none =>
      simp only [RealFunc.deriv, RealFunc.evaluate, Pt.at', ite_self]
      exact hasDerivAt_const _ _
    | some t =>
      have e0 := ((at_coord ⟨X, some t⟩ i 0).sub_const x0)
      have e1 := ((at_coord ⟨X, some t⟩ i 1).sub_const y0)
      have hev : (fun s => (RealFunc.rotZ rX A x0 y0).evaluate (Pt.at' ⟨X, some t⟩ i s)) =
          fun s => rotValue rX ((Pt.at' ⟨X, some t⟩ i s).X 0 - x0)
            ((Pt.at' ⟨X, some t⟩ i s).X 1 - y0) (A*t) := by
        funext s; simp [RealFunc.evaluate, Pt.at']
      rw [hev]
      cases rX with
      | true =>
        have e := ((e0.mul_const (Real.cos (A*t))).sub (e1.mul_const (Real.sin (A*t)))).sub e0
        simp only [rotValue, if_true]
        refine e.congr_deriv ?_
        fin_cases i <;> simp [RealFunc.deriv]
      | false =>
        have e := ((e0.mul_const (Real.sin (A*t))).add (e1.mul_const (Real.cos (A*t)))).sub e1
        simp only [rotValue]
        refine e.congr_deriv ?_
        fin_cases i <;> simp [RealFunc.deriv]
  | stepX d fv x0 x1 =>
    exact ite_local _ _ _ 0 fv (fun s => by simp only [RealFunc.evaluate]; congr)
      (or_local (lt_local _ _ _ _ (at_cont P i d) h.1) (gt_local _ _ _ _ (at_cont P i d) h.2))
  | stepXY fv x1 y1 x0 y0 =>
    exact ite_local _ _ _ 0 fv (fun s => by simp only [RealFunc.evaluate]; congr)
      (or_local (lt_local _ _ _ _ (at_cont P i 0) h.1)
        (or_local (gt_local _ _ _ _ (at_cont P i 0) h.2.1)
          (or_local (lt_local _ _ _ _ (at_cont P i 1) h.2.2.1)
            (gt_local _ _ _ _ (at_cont P i 1) h.2.2.2))))
  | stepXYZ fv X0 X1 eps =>
    have hk : ∀ d : Fin 3,
        (∀ᶠ s in nhds (P.X i), ((P.at' i s).X d + eps < X0 d ∨ (P.at' i s).X d - eps > X1 d)) ∨
        (∀ᶠ s in nhds (P.X i), ¬ ((P.at' i s).X d + eps < X0 d ∨ (P.at' i s).X d - eps > X1 d)) :=
      fun d => or_local (lt_local _ _ _ _ ((at_cont P i d).add_const eps) (h d).1)
        (gt_local _ _ _ _ ((at_cont P i d).sub_const eps) (h d).2)
    refine ite_local _ _ (fun s => inside (P.at' i s).X X0 X1 eps) fv 0
      (fun s => by simp only [RealFunc.evaluate]) ?_
    have h3 := or_local (hk 0) (or_local (hk 1) (hk 2))
    rcases h3 with h3 | h3
    · right
      filter_upwards [h3] with s hs hin
      rcases hs with hs | hs | hs
      · exact hin 0 hs
      · exact hin 1 hs
      · exact hin 2 hs
    · left
      filter_upwards [h3] with s hs d
      have h0 := fun hc => hs (Or.inl hc)
      have h1 := fun hc => hs (Or.inr (Or.inl hc))
      have h2 := fun hc => hs (Or.inr (Or.inr hc))
      fin_cases d
      · exact h0
      · exact h1
      · exact h2
  | interp lf d ramp =>
    simp only [RealFunc.deriv, RealFunc.evaluate, at_time, at_inRamp]
    by_cases hd : d = i
    · subst hd
      have e := C71_table_derivative lf h.1 (P.X d) h.2
      have hf : interpFactor lf d P (d.val + 1) = some (lf.deriv (P.X d)) := by
        simp [interpFactor]
      rw [hf]
      simp only [at_same]
      have h4 : d.val + 1 < 4 := by omega
      by_cases hr : inRamp P ramp
      · simp only [hr, if_true, h4]
        exact e.mul_const _
      · simp only [hr, if_false, show ¬ d.val + 1 > 3 by omega]
        exact e
    · have hf : interpFactor lf d P (i.val + 1) = none := by
        unfold interpFactor
        rw [if_neg (by intro h'; exact hd (Fin.ext (by omega))), if_neg (by omega)]
      rw [hf]
      simp only [at_other P i d _ hd]
      exact hasDerivAt_const _ _

/-- **C71** The gradient is the vector of the partial derivatives. -/
theorem C71_gradient (f : RealFunc) (P : Pt) (i : Fin 3) (h : f.RegularAt P.X) :
    HasDerivAt (fun s => f.evaluate (P.at' i s)) (f.gradient P i) (P.X i) :=
  C71_space_derivative f P i h

/-- **C71** The second derivatives reported do not depend on the order of the directions. -/
theorem C71_second_symmetric (f : RealFunc) (P : Pt) (d1 d2 : ℕ) :
    f.dderiv P d1 d2 = f.dderiv P d2 d1 := by
  induction f with
  | spaceTime sf tf ih =>
    simp only [RealFunc.dderiv, ih]
    by_cases h1 : d1 < 4 <;> by_cases h2 : d2 < 4 <;> simp [h1, h2]
  | quad d mx a b =>
    simp only [RealFunc.dderiv]
    by_cases h1 : d1 = d.val + 1 <;> by_cases h2 : d2 = d.val + 1 <;> simp [h1, h2]
  | _ => rfl

/-- **C71** Away from the jumps the second derivatives are the partial derivatives of the first
ones; so the Hessian is the matrix of second derivatives, and symmetric. -/
theorem C71_second_derivative (f : RealFunc) (P : Pt) (i j : Fin 3) (h : f.RegularAt P.X) :
    HasDerivAt (fun s => f.deriv (P.at' j s) (i.val + 1)) (f.dderiv P (i.val + 1) (j.val + 1))
      (P.X j) := by
  induction f with
  | const v => exact hasDerivAt_const _ _
  | constTime tf =>
    simp only [RealFunc.deriv, show i.val + 1 < 4 by omega, if_true]
    exact hasDerivAt_const _ _
  | spaceTime sf tf ih =>
    simp only [RealFunc.deriv, RealFunc.dderiv, at_time, show i.val + 1 < 4 by omega,
      show j.val + 1 < 4 by omega, if_true, and_self]
    exact (ih h).mul_const _
  | linear d a b => exact hasDerivAt_const _ _
  | quad d mx a b =>
    simp only [RealFunc.deriv, RealFunc.dderiv]
    by_cases hi : i = d
    · subst hi
      simp only [ne_eq, not_true_eq_false, if_false, false_or]
      have e := ((((at_coord P j i).const_mul 2).const_sub (a+b)).const_mul mx).div_const
        (((a-b)/2)*((a-b)/2))
      refine e.congr_deriv ?_
      by_cases hj : i = j
      · subst hj; simp
      · have : ¬ j.val + 1 = i.val + 1 := by
          intro h'; exact hj (Fin.ext (by omega))
        simp [hj, this]
        intro h'; exact absurd (Fin.ext h').symm hj
    · have : i.val + 1 ≠ d.val + 1 := by
        intro h'; exact hi (Fin.ext (by omega))
      simp only [if_pos this, this, true_or, ne_eq, not_false_eq_true, if_true]
      exact hasDerivAt_const _ _
  | rotZ rX A x0 y0 =>
    simp only [RealFunc.deriv, RealFunc.dderiv, Pt.at']
    exact hasDerivAt_const _ _
  | stepX d fv x0 x1 => exact hasDerivAt_const _ _
  | stepXY fv x1 y1 x0 y0 => exact hasDerivAt_const _ _
  | stepXYZ fv X0 X1 eps => exact hasDerivAt_const _ _
  | interp lf d ramp =>
    have hev : ∀ᶠ s in nhds (P.X j), (RealFunc.interp lf d ramp).deriv (P.at' j s) (i.val+1) =
        (RealFunc.interp lf d ramp).deriv P (i.val+1) := by
      have hloc := (at_cont P j d).eventually (table_deriv_local lf h.1 (P.X d) h.2)
      filter_upwards [hloc] with s hs
      simp only [RealFunc.deriv, at_time, at_inRamp, interpFactor, hs,
        show ¬ i.val + 1 > 3 by omega, if_false]
    exact (hasDerivAt_const (P.X j) _).congr_of_eventuallyEq hev

/-- **C71** The Hessian is symmetric and holds the second partial derivatives. -/
theorem C71_hessian (f : RealFunc) (P : Pt) (i j : Fin 3) (h : f.RegularAt P.X) :
    f.hessian P i j = f.hessian P j i ∧
    HasDerivAt (fun s => f.gradient (P.at' j s) i) (f.hessian P i j) (P.X j) := by
  have e : f.hessian P i j = f.dderiv P (i.val+1) (j.val+1) := by
    unfold RealFunc.hessian
    by_cases hij : i.val ≤ j.val
    · rw [min_eq_left hij, max_eq_right hij]
    · have hji : j.val ≤ i.val := by omega
      rw [min_eq_right hji, max_eq_left hji, C71_second_symmetric]
  refine ⟨?_, ?_⟩
  · unfold RealFunc.hessian; rw [min_comm, max_comm]
  · rw [e]; exact C71_second_derivative f P i j h

/-! ## Derivatives in time -/

/-- **C71** Direction 4 is the derivative in time. -/
theorem C71_time_derivative (f : RealFunc) (X : Fin 3 → ℝ) (t : ℝ) (h : f.TimeRegularAt t) :
    HasDerivAt (fun s => f.evaluate ⟨X, some s⟩) (f.timeDerivative ⟨X, some t⟩) t := by
  cases f with
  | const v => exact hasDerivAt_const _ _
  | constTime tf => exact C71_scalar_derivative tf t h
  | spaceTime sf tf =>
    have e := (C71_scalar_derivative tf t h.2).const_mul (sf.evaluate ⟨X, some t⟩)
    refine e.congr_of_eventuallyEq (Filter.Eventually.of_forall (fun s => ?_))
    simp only [RealFunc.evaluate, Pt.time, Option.getD_some]
    rw [h.1 X (some s) (some t)]
  | linear d a b =>
    have hd : (RealFunc.linear d a b).timeDerivative ⟨X, some t⟩ = 0 := by
      simp only [RealFunc.timeDerivative, RealFunc.deriv]
      try (first | exact if_neg (by omega) | exact if_pos (by omega))
    rw [hd]
    simp only [RealFunc.evaluate]
    exact hasDerivAt_const _ _
  | quad d mx a b =>
    have hd : (RealFunc.quad d mx a b).timeDerivative ⟨X, some t⟩ = 0 := by
      simp only [RealFunc.timeDerivative, RealFunc.deriv]
      try (first | exact if_neg (by omega) | exact if_pos (by omega))
    rw [hd]
    simp only [RealFunc.evaluate]
    exact hasDerivAt_const _ _
  | rotZ rX A x0 y0 =>
    have hA : A = 0 := h
    subst hA
    refine (hasDerivAt_const t 0).congr_of_eventuallyEq (Filter.Eventually.of_forall (fun s => ?_))
    cases rX <;> simp [RealFunc.evaluate, rotValue]
  | stepX d fv x0 x1 =>
    have hd : (RealFunc.stepX d fv x0 x1).timeDerivative ⟨X, some t⟩ = 0 := by
      simp only [RealFunc.timeDerivative, RealFunc.deriv]
      try (first | exact if_neg (by omega) | exact if_pos (by omega))
    rw [hd]
    exact (hasDerivAt_const t ((RealFunc.stepX d fv x0 x1).evaluate ⟨X, some t⟩)).congr_of_eventuallyEq
      (Filter.Eventually.of_forall (fun s => rfl))
  | stepXY fv x1 y1 x0 y0 =>
    have hd : (RealFunc.stepXY fv x1 y1 x0 y0).timeDerivative ⟨X, some t⟩ = 0 := by
      simp only [RealFunc.timeDerivative, RealFunc.deriv]
      try (first | exact if_neg (by omega) | exact if_pos (by omega))
    rw [hd]
    exact (hasDerivAt_const t ((RealFunc.stepXY fv x1 y1 x0 y0).evaluate ⟨X, some t⟩)).congr_of_eventuallyEq
      (Filter.Eventually.of_forall (fun s => rfl))
  | stepXYZ fv X0 X1 eps =>
    have hd : (RealFunc.stepXYZ fv X0 X1 eps).timeDerivative ⟨X, some t⟩ = 0 := by
      simp only [RealFunc.timeDerivative, RealFunc.deriv]
      try (first | exact if_neg (by omega) | exact if_pos (by omega))
    rw [hd]
    exact (hasDerivAt_const t ((RealFunc.stepXYZ fv X0 X1 eps).evaluate ⟨X, some t⟩)).congr_of_eventuallyEq
      (Filter.Eventually.of_forall (fun s => rfl))
  | interp lf d ramp =>
    have hf : interpFactor lf d ⟨X, some t⟩ 4 = some (lf.evaluate (X d)) := by
      unfold interpFactor; rw [if_neg (by omega), if_pos (by omega)]
    have hd : (RealFunc.interp lf d ramp).timeDerivative ⟨X, some t⟩ =
        if inRamp ⟨X, some t⟩ ramp then lf.evaluate (X d)*(1/ramp) else 0 := by
      simp only [RealFunc.timeDerivative, RealFunc.deriv, hf]
      norm_num
    rw [hd]
    have h' : t ≠ ramp := h
    by_cases hr : 0 < ramp
    · rcases lt_or_gt_of_ne h' with hlt | hgt
      · rw [if_pos ⟨hr, hlt⟩]
        have base : HasDerivAt (fun s => lf.evaluate (X d)*(s/ramp))
            (lf.evaluate (X d)*(1/ramp)) t :=
          ((hasDerivAt_id t).div_const ramp).const_mul _
        refine base.congr_of_eventuallyEq ?_
        filter_upwards [Iio_mem_nhds hlt] with s hs
        simp only [RealFunc.evaluate]
        rw [if_pos ⟨hr, hs⟩]; rfl
      · rw [if_neg (fun hc => not_lt.2 hgt.le hc.2)]
        refine (hasDerivAt_const t (lf.evaluate (X d))).congr_of_eventuallyEq ?_
        filter_upwards [Ioi_mem_nhds hgt] with s hs
        simp only [RealFunc.evaluate]
        rw [if_neg (fun hc => not_lt.2 (le_of_lt hs) hc.2)]
    · rw [if_neg (fun hc => hr hc.1)]
      refine (hasDerivAt_const t (lf.evaluate (X d))).congr_of_eventuallyEq
        (Filter.Eventually.of_forall (fun s => ?_))
      simp only [RealFunc.evaluate]
      rw [if_neg (fun hc => hr hc.1)]

/-- **C71** For a product of a function of space and one of time, the mixed second derivative
is the time derivative of the space derivative. -/
theorem C71_mixed_derivative (sf : RealFunc) (tf : ScalarFunc) (X : Fin 3 → ℝ) (t : ℝ)
    (i : Fin 3) (hs : ∀ s s', sf.deriv ⟨X, s⟩ (i.val+1) = sf.deriv ⟨X, s'⟩ (i.val+1))
    (ht : tf.RegularAt t) :
    HasDerivAt (fun s => (RealFunc.spaceTime sf tf).deriv ⟨X, some s⟩ (i.val+1))
      ((RealFunc.spaceTime sf tf).dderiv ⟨X, some t⟩ (i.val+1) 4) t := by
  have e := (C71_scalar_derivative tf t ht).const_mul (sf.deriv ⟨X, some t⟩ (i.val+1))
  have hd : (RealFunc.spaceTime sf tf).dderiv ⟨X, some t⟩ (i.val+1) 4 =
      sf.deriv ⟨X, some t⟩ (i.val+1) * tf.deriv t := by
    simp [RealFunc.dderiv, show i.val + 1 < 4 by omega, Pt.time]
  rw [hd]
  refine e.congr_of_eventuallyEq (Filter.Eventually.of_forall (fun s => ?_))
  simp only [RealFunc.deriv, show i.val + 1 < 4 by omega, if_true, Pt.time, Option.getD_some]
  rw [hs (some s) (some t)]

/-- **C71** The time derivative of a rotation is always reported as zero, although the value
varies: at a quarter turn the point (1,0) has moved by -1 in x (finding F111).  The second
derivative in time of a sine is reported as zero too. -/
theorem C71_time_derivative_counterexample :
    (∀ P, (RealFunc.rotZ true 1 0 0).timeDerivative P = 0) ∧
    (RealFunc.rotZ true 1 0 0).evaluate ⟨![1,0,0], some (Real.pi/2)⟩ = -1 ∧
    (RealFunc.rotZ true 1 0 0).evaluate ⟨![1,0,0], some 0⟩ = 0 ∧
    (∀ P, (RealFunc.spaceTime (.const 1) (.sine 1 1 0)).dderiv P 4 4 = 0) ∧
    HasDerivAt (fun s => (RealFunc.spaceTime (.const 1) (.sine 1 1 0)).deriv ⟨![0,0,0], some s⟩ 4)
      (-1) (Real.pi/2) := by
  refine ⟨fun P => ?_, ?_, ?_, fun P => ?_, ?_⟩
  · simp [RealFunc.timeDerivative, RealFunc.deriv]
  · simp [RealFunc.evaluate, rotValue]
  · simp [RealFunc.evaluate, rotValue]
  · simp [RealFunc.dderiv]
  · have := Real.hasDerivAt_cos (Real.pi/2)
    rw [Real.sin_pi_div_two] at this
    refine this.congr_of_eventuallyEq (Filter.Eventually.of_forall (fun s => ?_))
    simp [RealFunc.deriv, ScalarFunc.deriv, RealFunc.evaluate, Pt.time]

end
end IFEM.Fn
