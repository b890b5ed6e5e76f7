import Verif.Lemmas.Cheby
import Mathlib.Analysis.Calculus.Deriv.Polynomial
import Mathlib.Analysis.Calculus.Deriv.Add
import Mathlib.Analysis.Calculus.Deriv.Mul
import Mathlib.Analysis.Calculus.Deriv.Comp

/-! # Lemmas for C83: derivatives of the tensor product evaluation -/

namespace IFEM.Cheby

open Polynomial Finset

theorem fac_other {K : Type} [Field K] (F : Func K) (X : Fin 3 → K) (g g' : Fin 3 → Dir K)
    (c d : Fin 3) (t : K) (i : Nat) (hd : d ≠ c) (hg : g d = g' d) :
    fac F (Function.update X c t) g d i = fac F X g' d i := by
  simp [fac, coord, hd, hg]

theorem tp_deriv (F : Func ℝ) (hF : Wf F) (X : Fin 3 → ℝ) (c : Fin 3) (x' : ℝ)
    (g g' : Fin 3 → Dir ℝ) (hg : ∀ d, d ≠ c → g d = g' d)
    (h : ∀ i, HasDerivAt (fun t => fac F (Function.update X c t) g c i) (fac F X g' c i) x')
    (h1 : ∀ d, F.n d = 1 → ∀ X, fac F X g d 0 = 1) (h2 : ∀ d, F.n d = 1 → fac F X g' d 0 = 1) :
    HasDerivAt (fun t => evaluateTP F (Function.update X c t) g) (evaluateTP F X g') x' := by
  have hval : (fun t => evaluateTP F (Function.update X c t) g) = fun t =>
      ∑ i ∈ range (F.n 0), ∑ j ∈ range (F.n 1), ∑ k ∈ range (F.n 2),
      cf F i j k * (fac F (Function.update X c t) g 0 i * fac F (Function.update X c t) g 1 j *
        fac F (Function.update X c t) g 2 k) := by
    funext t
    rw [evaluateTP_eq F hF _ g (fun e => h1 1 e _) (fun e => h1 2 e _)]
  rw [hval, evaluateTP_eq F hF X g' (h2 1) (h2 2)]
  apply HasDerivAt.fun_sum
  intro i _
  apply HasDerivAt.fun_sum
  intro j _
  apply HasDerivAt.fun_sum
  intro k _
  apply HasDerivAt.const_mul
  have hc : c = 0 ∨ c = 1 ∨ c = 2 := by omega
  rcases hc with rfl | rfl | rfl
  · have e1 : ∀ t, fac F (Function.update X 0 t) g 1 j = fac F X g' 1 j :=
      fun t => fac_other F X g g' 0 1 t j (by decide) (hg 1 (by decide))
    have e2 : ∀ t, fac F (Function.update X 0 t) g 2 k = fac F X g' 2 k :=
      fun t => fac_other F X g g' 0 2 t k (by decide) (hg 2 (by decide))
    simp only [e1, e2]
    exact ((h i).mul_const _).mul_const _
  · have e1 : ∀ t, fac F (Function.update X 1 t) g 0 i = fac F X g' 0 i :=
      fun t => fac_other F X g g' 1 0 t i (by decide) (hg 0 (by decide))
    have e2 : ∀ t, fac F (Function.update X 1 t) g 2 k = fac F X g' 2 k :=
      fun t => fac_other F X g g' 1 2 t k (by decide) (hg 2 (by decide))
    simp only [e1, e2]
    exact ((h j).const_mul _).mul_const _
  · have e1 : ∀ t, fac F (Function.update X 2 t) g 0 i = fac F X g' 0 i :=
      fun t => fac_other F X g g' 2 0 t i (by decide) (hg 0 (by decide))
    have e2 : ∀ t, fac F (Function.update X 2 t) g 1 j = fac F X g' 1 j :=
      fun t => fac_other F X g g' 2 1 t j (by decide) (hg 1 (by decide))
    simp only [e1, e2]
    exact (h k).const_mul _

/-- A direction with a single coefficient and the plain polynomial does not matter. -/
theorem tp_const {K : Type} [Field K] (F : Func K) (hF : Wf F) (X : Fin 3 → K) (c : Fin 3) (t : K)
    (g : Fin 3 → Dir K) (hc : F.n c = 1) (h1 : ∀ d, F.n d = 1 → ∀ X, fac F X g d 0 = 1) :
    evaluateTP F (Function.update X c t) g = evaluateTP F X g := by
  rw [evaluateTP_eq F hF _ g (fun e => h1 1 e _) (fun e => h1 2 e _),
    evaluateTP_eq F hF X g (fun e => h1 1 e _) (fun e => h1 2 e _)]
  have key : ∀ d i, i ∈ range (F.n d) →
      fac F (Function.update X c t) g d i = fac F X g d i := by
    intro d i hi
    by_cases hd : d = c
    · subst hd
      rw [hc] at hi
      have : i = 0 := by simpa using hi
      subst this
      rw [h1 d hc, h1 d hc]
    · exact fac_other F X g g c d t i hd rfl
  apply Finset.sum_congr rfl
  intro i hi
  apply Finset.sum_congr rfl
  intro j hj
  apply Finset.sum_congr rfl
  intro k hk
  rw [key 0 i hi, key 1 j hj, key 2 k hk]

theorem fac_val {K : Type} [Field K] (F : Func K) (X : Fin 3 → K) (g : Fin 3 → Dir K) (d : Fin 3)
    (h : g d = dirVal) : fac F X g d 0 = 1 := by
  simp [fac, h, dirVal, evalPol1, pol1]

theorem coord_deriv (F : Func ℝ) (X : Fin 3 → ℝ) (c : Fin 3) (x' : ℝ) :
    HasDerivAt (fun t => coord F (Function.update X c t) c) (2 / (F.hi c - F.lo c)) x' := by
  have h : HasDerivAt (fun t : ℝ => -1 + 2 * (t - F.lo c) / (F.hi c - F.lo c))
      (2 * 1 / (F.hi c - F.lo c)) x' := by
    apply HasDerivAt.const_add
    apply HasDerivAt.div_const
    apply HasDerivAt.const_mul
    exact (hasDerivAt_id x').sub_const _
  simpa [coord] using h

theorem der1_fac (F : Func ℝ) (X : Fin 3 → ℝ) (c : Fin 3) (g g' : Fin 3 → Dir ℝ)
    (hg : g c = dirVal) (hg' : g' c = dirDer F c) (i : Nat) :
    HasDerivAt (fun t => fac F (Function.update X c t) g c i) (fac F X g' c i) (X c) := by
  have hc := coord_deriv F X c (X c)
  have hp := (Chebyshev.T ℝ (i : Int)).hasDerivAt (coord F (Function.update X c (X c)) c)
  have := hp.comp (X c) hc
  simp only [Function.comp_def, Function.update_eq_self] at this
  simp only [fac, hg, hg', dirVal, dirDer, evalPol1_eq, evalDer1_eq, mul_one]
  exact this

theorem der2_fac (F : Func ℝ) (X : Fin 3 → ℝ) (c : Fin 3) (g g' : Fin 3 → Dir ℝ) (x' : ℝ)
    (hx' : coord F (Function.update X c x') c = Spec.Cheby.snap (coord F X c))
    (hg : g c = dirDer F c) (hg' : g' c = dirDer2 F c) (i : Nat) :
    HasDerivAt (fun t => fac F (Function.update X c t) g c i) (fac F X g' c i) x' := by
  have hc := coord_deriv F X c x'
  have hp := (derivative (Chebyshev.T ℝ (i : Int))).hasDerivAt (coord F (Function.update X c x') c)
  have := (hp.comp x' hc).mul_const (2 / (F.hi c - F.lo c))
  simp only [Function.comp_def] at this
  simp only [fac, hg, hg', dirDer2, dirDer, eval2Der1_eq, evalDer1_eq]
  rw [← hx']
  have e : eval (coord F (Function.update X c x') c) (derivative (derivative
      (Chebyshev.T ℝ (i : Int)))) * (2 / (F.hi c - F.lo c)) * (2 / (F.hi c - F.lo c)) =
      eval (coord F (Function.update X c x') c) (derivative^[2] (Chebyshev.T ℝ (i : Int))) *
        (4 / (F.hi c - F.lo c)^2) := by
    rw [Function.iterate_succ, Function.iterate_one, Function.comp_apply, mul_assoc]
    congr 1
    rw [div_mul_div_comm]
    congr 1
    · norm_num
    · ring
  rw [e] at this
  exact this

end IFEM.Cheby
