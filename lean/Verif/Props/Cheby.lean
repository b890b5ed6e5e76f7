import Verif.Lemmas.ChebyDeriv
import Mathlib.Analysis.SpecialFunctions.Trigonometric.Chebyshev.Basic
import Mathlib.Data.Fin.VecNotation
import Mathlib.Tactic.FinCases

/-!
# C83: Chebyshev functions are the expansions they claim to be, and their derivatives are exact
-/

namespace IFEM.Cheby

open Polynomial Finset

/-- C83.  The polynomials of the two kinds are the Chebyshev polynomials, for all numbers and all
points of any field. -/
theorem C83_polynomials {K : Type} [Field K] (n : Nat) (x : K) :
    evalPol1 (n : Int) x = (Chebyshev.T K n).eval x ∧
    evalPol2 (n : Int) x = (Chebyshev.U K n).eval x :=
  ⟨evalPol1_eq n x, evalPol2_eq n x⟩

/-- C83.  In terms of angles. -/
theorem C83_cosine (n : Nat) (θ : ℝ) :
    evalPol1 (n : Int) (Real.cos θ) = Real.cos (n * θ) ∧
    evalPol2 (n : Int) (Real.cos θ) * Real.sin θ = Real.sin ((n + 1) * θ) := by
  rw [evalPol1_eq, evalPol2_eq]
  exact ⟨by simpa using Chebyshev.T_real_cos θ n, by simpa using Chebyshev.U_real_cos θ n⟩

/-- C83.  Numbers below zero are treated like zero. -/
theorem C83_negative {K : Type} [Field K] (n : Int) (hn : n ≤ 0) (x : K) :
    evalPol1 n x = 1 ∧ evalPol2 n x = 1 ∧ evalDer1 n x = 0 := by
  have : n.toNat = 0 := by omega
  simp [evalPol1, evalPol2, this, pol1, pol2, evalDer1, hn]

/-- C83.  The first derivatives are those of the polynomials; for the second kind everywhere but at
the two ends, where the formula divides by zero. -/
theorem C83_first_derivatives {K : Type} [Field K] (n : Nat) (x : K) :
    evalDer1 (n : Int) x = (derivative (Chebyshev.T K n)).eval x ∧
    (x ≠ 1 → x ≠ -1 → evalDer2 (n : Int) x = (derivative (Chebyshev.U K n)).eval x) := by
  refine ⟨evalDer1_eq n x, fun h1 h2 => evalDer2_eq n x ?_⟩
  intro h
  rcases mul_self_eq_one_iff.mp h with h | h
  · exact h1 h
  · exact h2 h

/-- C83.  The second derivative of the first kind is exact at the point itself, or at the end of
the interval if that is closer than `10⁻⁶`. -/
theorem C83_second_derivative {K : Type} [Field K] [LinearOrder K] [IsStrictOrderedRing K]
    (n : Nat) (x : K) :
    eval2Der1 (n : Int) x = (derivative (derivative (Chebyshev.T K n))).eval (Spec.Cheby.snap x) :=
  eval2Der1_eq n x

/-- Every direction with more than one polynomial has a domain. -/
def DomainOk {K : Type} (F : Func K) : Prop := ∀ c, 1 < F.n c → F.lo c ≠ F.hi c

/-- The coefficients of a list of numbers, the first direction running fastest. -/
def ofList {K : Type} [Zero K] (n : Fin 3 → Nat) (nums : List K) (i j k : Nat) : K :=
  nums.getD (i + n 0 * (j + n 1 * k)) 0

theorem evaluate_expansion {K : Type} [Field K] (F : Func K) (hF : Wf F) (hd : DomainOk F)
    (X : Fin 3 → K) :
    evaluate F X = Spec.Cheby.expansion F.n F.lo F.hi (ofList F.n F.coefs) X := by
  have hv : ∀ d, fac F X (fun _ => dirVal) d 0 = 1 := fun d => fac_val F X _ d rfl
  have key : ∀ d i, i ∈ range (F.n d) → fac F X (fun _ => dirVal) d i =
      (Chebyshev.T K i).eval (Spec.Cheby.natural (F.lo d) (F.hi d) (X d)) := by
    intro d i hi
    have hi' := Finset.mem_range.mp hi
    by_cases h1 : 1 < F.n d
    · simp only [fac, dirVal, evalPol1_eq, mul_one]
      rw [coord_natural F X d (hd d h1)]
    · have : i = 0 := by omega
      subst this
      rw [hv d]; simp
  rw [evaluate, evaluateTP_eq F hF X _ (fun _ => hv 1) (fun _ => hv 2), Spec.Cheby.expansion]
  apply Finset.sum_congr rfl
  intro i hi
  apply Finset.sum_congr rfl
  intro j hj
  apply Finset.sum_congr rfl
  intro k hk
  rw [key 0 i hi, key 1 j hj, key 2 k hk]
  rfl

/-- C83.  A function read from numbers is the expansion with these coefficients: one polynomial in
a direction given with none, the first direction running fastest, zeros for missing numbers. -/
theorem C83_value {K : Type} [Field K] (n : Fin 3 → Nat) (lo hi : Fin 3 → K) (nums : List K)
    (hd : ∀ c, 1 < n c → lo c ≠ hi c) (X : Fin 3 → K) :
    evaluate (read n lo hi nums) X = Spec.Cheby.expansion (fun c => max 1 (n c)) lo hi
      (ofList (fun c => max 1 (n c)) nums) X := by
  have hm : (read n lo hi nums).n = fun c => max 1 (n c) := by
    funext c
    simp only [read]
    split <;> omega
  rw [evaluate_expansion _ (wf_read n lo hi nums) (by
    intro c hc
    rw [hm] at hc
    exact hd c (by dsimp only at hc; omega)), hm]
  unfold Spec.Cheby.expansion
  apply Finset.sum_congr rfl
  intro i hi'
  apply Finset.sum_congr rfl
  intro j hj
  apply Finset.sum_congr rfl
  intro k hk
  have hi2 : i < max 1 (n 0) := Finset.mem_range.mp hi'
  have hj2 : j < max 1 (n 1) := Finset.mem_range.mp hj
  have hk2 : k < max 1 (n 2) := Finset.mem_range.mp hk
  clear hi' hj hk
  congr 1
  have hm0 := congrFun hm 0
  have hm1 := congrFun hm 1
  have hm2 := congrFun hm 2
  simp only [ofList]
  generalize max 1 (n 0) = a at *
  generalize max 1 (n 1) = b at *
  generalize max 1 (n 2) = d at *
  have hlt : i + a * (j + b * k) < a * b * d := by
    have e1 : j + b * k < b * d := by
      calc j + b * k < b + b * k := by omega
        _ = b * (k + 1) := by ring
        _ ≤ b * d := Nat.mul_le_mul_left _ hk2
    calc i + a * (j + b * k) < a + a * (j + b * k) := by omega
      _ = a * (j + b * k + 1) := by ring
      _ ≤ a * (b * d) := Nat.mul_le_mul_left _ e1
      _ = a * b * d := by ring
  have hc : (read n lo hi nums).coefs =
      nums.take (a*b*d) ++ List.replicate (a*b*d - nums.length) 0 := by
    rw [← hm0, ← hm1, ← hm2]; rfl
  rw [hc]
  simp only [List.getD_eq_getElem?_getD]
  generalize i + a * (j + b * k) = m at *
  by_cases hlen : m < nums.length
  · rw [List.getElem?_append_left (by rw [List.length_take]; omega), List.getElem?_take_of_lt hlt]
  · rw [List.getElem?_append_right (by rw [List.length_take]; omega), List.length_take,
      List.getElem?_eq_none (l := nums) (by omega), List.getElem?_replicate]
    split <;> rfl

/-- C83.  Without a file the function and its derivatives are zero. -/
theorem C83_no_file {K : Type} [Field K] [LinearOrder K] (lo hi X : Fin 3 → K) (c d : Fin 3) :
    evaluate (noFile lo hi) X = 0 ∧ deriv (noFile lo hi) X c = 0 ∧
    dderiv (noFile lo hi) X c d = 0 := by
  refine ⟨?_, ?_, ?_⟩
  · simp [evaluate, evaluateTP, noFile, inner]
  · simp [deriv, evaluateTP, noFile, inner]
  · simp [dderiv, evaluateTP, noFile, inner]

theorem deriv_evaluate (F : Func ℝ) (hF : Wf F) (X : Fin 3 → ℝ) (c : Fin 3) :
    HasDerivAt (fun t => evaluate F (Function.update X c t)) (deriv F X c) (X c) := by
  have hv : ∀ d, F.n d = 1 → ∀ X, fac F X (fun _ => dirVal) d 0 = 1 :=
    fun d _ X => fac_val F X _ d rfl
  unfold deriv
  by_cases hc : F.n c = 1
  · rw [if_pos hc]
    have : (fun t => evaluate F (Function.update X c t)) = fun _ => evaluate F X := by
      funext t
      exact tp_const F hF X c t _ hc hv
    rw [this]
    exact hasDerivAt_const _ _
  · rw [if_neg hc]
    apply tp_deriv F hF X c (X c) (fun _ => dirVal)
    · intro d hd; rw [if_neg (Ne.symm hd)]
    · intro i
      exact der1_fac F X c (fun _ => dirVal) (fun d => if c = d then dirDer F c else dirVal)
        rfl (if_pos rfl) i
    · exact hv
    · intro d hd
      apply fac_val
      rw [if_neg]
      rintro rfl
      exact hc hd

theorem dderiv_deriv (F : Func ℝ) (hF : Wf F) (X : Fin 3 → ℝ) (c1 c2 : Fin 3) (x' : ℝ)
    (hx' : if c1 = c2 ∧ 1 < F.n c1
      then coord F (Function.update X c2 x') c2 = Spec.Cheby.snap (coord F X c2)
      else x' = X c2) :
    HasDerivAt (fun t => deriv F (Function.update X c2 t) c1) (dderiv F X c1 c2) x' := by
  unfold dderiv
  by_cases h1 : F.n c1 = 1
  · rw [if_pos (Or.inl h1)]
    simp only [deriv, if_pos h1]
    exact hasDerivAt_const _ _
  have hv1 : ∀ d, F.n d = 1 → ∀ X, fac F X (fun d => if c1 = d then dirDer F c1 else dirVal) d 0
      = 1 := by
    intro d hd X
    apply fac_val
    rw [if_neg]
    rintro rfl
    exact h1 hd
  by_cases h2 : F.n c2 = 1
  · rw [if_pos (Or.inr h2)]
    have : (fun t => deriv F (Function.update X c2 t) c1) = fun _ => deriv F X c1 := by
      funext t
      simp only [deriv, if_neg h1]
      exact tp_const F hF X c2 t _ h2 hv1
    rw [this]
    exact hasDerivAt_const _ _
  rw [if_neg (by tauto)]
  simp only [deriv, if_neg h1]
  by_cases h12 : c1 = c2
  · subst h12
    rw [if_pos rfl]
    by_cases hn : 1 < F.n c1
    · rw [if_pos ⟨rfl, hn⟩] at hx'
      apply tp_deriv F hF X c1 x'
      · intro d hd; rw [if_neg (Ne.symm hd), if_neg (Ne.symm hd)]
      · intro i
        exact der2_fac F X c1 (fun d => if c1 = d then dirDer F c1 else dirVal)
          (fun d => if c1 = d then dirDer2 F c1 else dirVal) x' hx' (if_pos rfl) (if_pos rfl) i
      · exact hv1
      · intro d hd
        apply fac_val
        rw [if_neg]
        rintro rfl
        exact h1 hd
    · -- no coefficients at all
      have h0 : F.n c1 = 0 := by omega
      have hz : ∀ X g, evaluateTP F X g = 0 := by
        intro X g
        have hl : F.coefs = [] := by
          apply List.length_eq_zero_iff.mp
          have hF' : F.coefs.length = F.n 0 * F.n 1 * F.n 2 := hF
          rw [hF']
          have hc : c1 = 0 ∨ c1 = 1 ∨ c1 = 2 := by omega
          rcases hc with rfl | rfl | rfl <;> simp [h0]
        unfold evaluateTP
        rw [hl]
        simp [inner]
      simp only [hz]
      exact hasDerivAt_const _ _
  · rw [if_neg h12]
    rw [if_neg (fun h => h12 h.1)] at hx'
    subst hx'
    apply tp_deriv F hF X c2 (X c2)
    · intro d hd
      by_cases hd1 : c1 = d
      · rw [if_pos hd1, if_pos hd1]
      · rw [if_neg hd1, if_neg hd1, if_neg (Ne.symm hd)]
    · intro i
      apply der1_fac
      · rw [if_neg h12]
      · rw [if_neg h12, if_pos rfl]
    · exact hv1
    · intro d hd
      apply fac_val
      rw [if_neg, if_neg]
      · rintro rfl; exact h2 hd
      · rintro rfl; exact h1 hd

/-- C83.  The first derivative returned is the derivative of the expansion along the coordinate, at
every point and for every function read. -/
theorem C83_derivative (F : Func ℝ) (hF : Wf F) (hd : DomainOk F) (X : Fin 3 → ℝ) (c : Fin 3) :
    HasDerivAt (fun t => Spec.Cheby.expansion F.n F.lo F.hi (ofList F.n F.coefs)
      (Function.update X c t)) (deriv F X c) (X c) := by
  have := deriv_evaluate F hF X c
  simpa only [evaluate_expansion F hF hd] using this

theorem deriv_expansion (F : Func ℝ) (hF : Wf F) (hd : DomainOk F) (X : Fin 3 → ℝ) (c : Fin 3) :
    _root_.deriv (fun s => Spec.Cheby.expansion F.n F.lo F.hi (ofList F.n F.coefs)
      (Function.update X c s)) (X c) = deriv F X c :=
  (C83_derivative F hF hd X c).deriv

/-- C83.  The mixed second derivative returned is the derivative along the second coordinate of the
derivative along the first. -/
theorem C83_mixed (F : Func ℝ) (hF : Wf F) (hd : DomainOk F) (X : Fin 3 → ℝ) (c1 c2 : Fin 3)
    (h12 : c1 ≠ c2) :
    HasDerivAt (fun t => _root_.deriv (fun s => Spec.Cheby.expansion F.n F.lo F.hi
        (ofList F.n F.coefs) (Function.update (Function.update X c2 t) c1 s))
        ((Function.update X c2 t) c1)) (dderiv F X c1 c2) (X c2) := by
  have := dderiv_deriv F hF X c1 c2 (X c2) (by rw [if_neg (fun h => h12 h.1)])
  simpa only [deriv_expansion F hF hd] using this

/-- C83.  The second derivative returned along one coordinate is that of the expansion at the point,
or at the end of the domain if the natural coordinate is closer to it than `10⁻⁶`. -/
theorem C83_second (F : Func ℝ) (hF : Wf F) (hd : DomainOk F) (X : Fin 3 → ℝ) (c : Fin 3) (x' : ℝ)
    (hx' : 1 < F.n c → Spec.Cheby.natural (F.lo c) (F.hi c) x' =
      Spec.Cheby.snap (Spec.Cheby.natural (F.lo c) (F.hi c) (X c)))
    (hx1 : F.n c ≤ 1 → x' = X c) :
    HasDerivAt (fun t => _root_.deriv (fun s => Spec.Cheby.expansion F.n F.lo F.hi
        (ofList F.n F.coefs) (Function.update X c s)) t) (dderiv F X c c) x' := by
  have h := dderiv_deriv F hF X c c x' (by
    by_cases hn : 1 < F.n c
    · rw [if_pos ⟨rfl, hn⟩, coord_natural F _ c (hd c hn), coord_natural F _ c (hd c hn),
        Function.update_self]
      exact hx' hn
    · rw [if_neg (fun h => hn h.2)]; exact hx1 (by omega))
  have e : ∀ t, _root_.deriv (fun s => Spec.Cheby.expansion F.n F.lo F.hi
        (ofList F.n F.coefs) (Function.update X c s)) t = deriv F (Function.update X c t) c := by
    intro t
    rw [← deriv_expansion F hF hd]
    simp
  simpa only [e] using h

/-- C83.  Away from the two ends, and exactly at them, the second derivative is exact. -/
theorem C83_second_exact (F : Func ℝ) (hF : Wf F) (hd : DomainOk F) (X : Fin 3 → ℝ) (c : Fin 3)
    (hx : X c = F.lo c ∨ X c = F.hi c ∨
      (|Spec.Cheby.natural (F.lo c) (F.hi c) (X c) - 1| ≥ 1/1000000 ∧
       |Spec.Cheby.natural (F.lo c) (F.hi c) (X c) + 1| ≥ 1/1000000)) :
    HasDerivAt (fun t => _root_.deriv (fun s => Spec.Cheby.expansion F.n F.lo F.hi
        (ofList F.n F.coefs) (Function.update X c s)) t) (dderiv F X c c) (X c) := by
  apply C83_second F hF hd X c (X c) _ (fun _ => rfl)
  intro hn
  have hne : F.hi c - F.lo c ≠ 0 := sub_ne_zero.mpr (Ne.symm (hd c hn))
  rcases hx with h | h | ⟨h1, h2⟩
  · have : Spec.Cheby.natural (F.lo c) (F.hi c) (X c) = -1 := by
      rw [h, Spec.Cheby.natural]; field_simp; ring
    rw [this, Spec.Cheby.snap, if_neg (by norm_num), if_pos (by norm_num)]
  · have : Spec.Cheby.natural (F.lo c) (F.hi c) (X c) = 1 := by
      rw [h, Spec.Cheby.natural]; field_simp; ring
    rw [this, Spec.Cheby.snap, if_pos (by norm_num)]
  · rw [Spec.Cheby.snap, if_neg (not_lt.mpr h1), if_neg (not_lt.mpr h2)]

/-- C83.  What `read` and a missing file give meets the hypothesis on the number of coefficients. -/
theorem C83_read_wf {K : Type} [Field K] (n : Fin 3 → Nat) (lo hi : Fin 3 → K) (nums : List K) :
    Wf (read n lo hi nums) ∧ Wf (noFile lo hi : Func K) :=
  ⟨wf_read n lo hi nums, wf_noFile lo hi⟩

end IFEM.Cheby
