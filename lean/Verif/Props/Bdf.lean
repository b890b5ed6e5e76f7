import Verif.Spec.Bdf
import Mathlib.Tactic.Ring
import Mathlib.Tactic.FieldSimp
import Mathlib.Tactic.LinearCombination
import Mathlib.Tactic.NormNum
/-!
# C28: backward difference formulas
-/
namespace IFEM.Props
open IFEM.Spec Polynomial Matrix
variable {K : Type} [Field K] [LinearOrder K] [IsStrictOrderedRing K]

/-! ## Polynomials -/

theorem poly3 (p : K[X]) (h : p.natDegree ≤ 3) :
    ∃ a b c d : K, p = C a + C b * X + C c * X^2 + C d * X^3 := by
  refine ⟨p.coeff 0, p.coeff 1, p.coeff 2, p.coeff 3, ?_⟩
  conv_lhs => rw [Polynomial.as_sum_range_C_mul_X_pow' p (n := 4) (by omega)]
  simp [Finset.sum_range_succ]

theorem coeff3 (a b c d : K) (n : Nat) (h : (C a + C b * X + C c * X^2 + C d * X^3 : K[X]).natDegree ≤ n) :
    (n ≤ 2 → d = 0) ∧ (n ≤ 1 → c = 0) ∧ (n ≤ 0 → b = 0) := by
  refine ⟨fun hn => ?_, fun hn => ?_, fun hn => ?_⟩
  · have := Polynomial.coeff_eq_zero_of_natDegree_lt (lt_of_le_of_lt h (show n < 3 by omega))
    simpa [Polynomial.coeff_C, Polynomial.coeff_X, Polynomial.coeff_X_pow] using this
  · have := Polynomial.coeff_eq_zero_of_natDegree_lt (lt_of_le_of_lt h (show n < 2 by omega))
    simpa [Polynomial.coeff_C, Polynomial.coeff_X, Polynomial.coeff_X_pow] using this
  · have := Polynomial.coeff_eq_zero_of_natDegree_lt (lt_of_le_of_lt h (show n < 1 by omega))
    simpa [Polynomial.coeff_C, Polynomial.coeff_X, Polynomial.coeff_X_pow] using this

/-! ## Runs -/

/-- Once started, a run of the first-order-equation scheme of order 1 keeps its coefficients. -/
theorem run1 (d0 : K) (hs : List K) :
    bdfRun (Bdf.make (K := K) 1) d0 hs = ⟨1, hs.length, [1, -1], [1, -1], []⟩ := by
  induction hs with
  | nil => simp [bdfRun, Bdf.make, Bdf.setOrder]
  | cons h hs ih => rw [bdfRun, ih]; simp [Bdf.advanceStep]

/-- Coefficients of a run of the scheme of order 2. -/
theorem run2 (d0 : K) (order : Int) (ho : 2 ≤ order) (hs : List K) (hpos : ∀ h ∈ hs, 0 < h) :
    ∃ c, bdfRun (Bdf.make (K := K) order) d0 hs = ⟨1, hs.length, c, [1, -1], []⟩ ∧ c.length = 3 ∧
      (hs.length ≤ 2 → c = [3/2, -2, 1/2]) ∧
      (∀ h1 h2 r, hs = h1 :: h2 :: r → r ≠ [] → c = [(1 + 2*(h1/h2)) / (h1/h2 + 1), -(h1/h2 + 1), (h1/h2)*(h1/h2) / (h1/h2 + 1)]) := by
  induction hs with
  | nil =>
    refine ⟨[3/2, -2, 1/2], ?_, rfl, fun _ => rfl, by simp⟩
    simp only [bdfRun, Bdf.make, Bdf.setOrder]
    rw [if_pos (by omega), if_neg (by decide), if_neg (by omega), if_neg (by omega)]
    rfl
  | cons h hs ih =>
    obtain ⟨c, e, hl, h2, -⟩ := ih (fun x hx => hpos x (List.mem_cons_of_mem _ hx))
    rw [bdfRun, e]
    simp only [Bdf.advanceStep]
    rw [if_neg (by simp)]
    match hs, h2, hpos with
    | [], h2, _ =>
      refine ⟨c, ?_, hl, fun _ => h2 (by simp), by simp⟩
      rw [if_neg (by simp)]
      rfl
    | [a], h2, _ =>
      refine ⟨c, ?_, hl, fun _ => h2 (by simp), ?_⟩
      · rw [if_neg (by simp)]; rfl
      · intro h1 h2' r he hr; simp only [List.cons.injEq] at he; exact absurd he.2.2.symm hr
    | a :: b :: r, h2, hpos =>
      refine ⟨[(1 + 2*(h/a)) / (h/a + 1), -(h/a + 1), (h/a)*(h/a) / (h/a + 1)], ?_, ?_, ?_, ?_⟩
      · rw [if_pos]
        · simp
        · refine ⟨by simp only [List.length_cons]; omega, trivial, hl, hpos h (by simp), ?_⟩
          exact hpos a (by simp)
      · rfl
      · simp
      · intro h1 h2' r' he hr
        simp only [List.cons.injEq] at he
        obtain ⟨e1, e2, -⟩ := he
        rw [e1, e2]

/-! ## C28 -/

/-- **C28** (order 1). The scheme of order 1 always is of order 1, and exact for polynomials of degree one, whatever the step size
history. -/
theorem C28_bdf1 (d0 dt : K) (hs : List K) :
    (bdfRun (Bdf.make 1) d0 (dt :: hs)).getOrder = 1 ∧ Exact1 (bdfRun (Bdf.make 1) d0 (dt :: hs)).getCoefs 1 dt hs := by
  rw [run1]
  refine ⟨by simp [Bdf.getOrder], ?_⟩
  have hc : (Bdf.getCoefs (⟨1, (dt :: hs).length, [1, -1], [1, -1], []⟩ : Bdf K)) = [1, -1] := by
    simp only [Bdf.getCoefs]; rw [if_pos trivial, ite_self]
  rw [hc]
  refine ⟨by simp, fun p t hp => ?_⟩
  obtain ⟨a, b, c, d, rfl⟩ := poly3 p (by omega)
  obtain ⟨hd, hcz, -⟩ := coeff3 a b c d 1 hp
  rw [hd (by omega), hcz (by omega)]
  cases hs <;> simp [weighted, backTimes] <;> ring

/-- **C28** (order 2). From the third step on, the scheme is exact for quadratic polynomials for every history of positive step
sizes; the first step is a first order step, which is exact for linear polynomials; the second step is exact for quadratic
polynomials if it has the same size as the first one. -/
theorem C28_bdf2 (order : Int) (ho : 2 ≤ order) (d0 dt : K) (hs : List K) (hpos : ∀ h ∈ dt :: hs, 0 < h)
    (h2 : ∀ h, hs = [h] → h = dt) :
    (bdfRun (Bdf.make order) d0 (dt :: hs)).getOrder = (if hs = [] then 1 else 2) ∧
    Exact1 (bdfRun (Bdf.make order) d0 (dt :: hs)).getCoefs (bdfRun (Bdf.make order) d0 (dt :: hs)).getOrder.toNat dt hs := by
  obtain ⟨c, e, hl, hc2, hc3⟩ := run2 d0 order ho (dt :: hs) hpos
  rw [e]
  have hdt : dt ≠ 0 := ne_of_gt (hpos dt (by simp))
  match hs, hpos, h2, hc2, hc3 with
  | [], _, _, _, _ =>
    refine ⟨by simp [Bdf.getOrder], ?_⟩
    have hc : Bdf.getCoefs (⟨1, [dt].length, c, [1, -1], []⟩ : Bdf K) = [1, -1] := by simp [Bdf.getCoefs]
    rw [hc]
    refine ⟨by simp, fun p t hp => ?_⟩
    have hp' : p.natDegree ≤ 1 := by simpa [Bdf.getOrder] using hp
    obtain ⟨a, b, c, d, rfl⟩ := poly3 p (by omega)
    obtain ⟨hd, hcz, -⟩ := coeff3 a b c d 1 hp'
    rw [hd (by omega), hcz (by omega)]
    simp [weighted, backTimes]; ring
  | [h], _, h2, hc2, _ =>
    obtain rfl := h2 h rfl
    rw [hc2 (by simp)]
    refine ⟨by simp [Bdf.getOrder], ?_⟩
    have hc : Bdf.getCoefs (⟨1, [h, h].length, [3/2, -2, 1/2], [1, -1], []⟩ : Bdf K) = [3/2, -2, 1/2] := by simp [Bdf.getCoefs]
    rw [hc]
    refine ⟨by simp, fun p t hp => ?_⟩
    have hp' : p.natDegree ≤ 2 := by simpa [Bdf.getOrder] using hp
    obtain ⟨a, b, c, d, rfl⟩ := poly3 p (by omega)
    obtain ⟨hd, -⟩ := coeff3 a b c d 2 hp'
    rw [hd (by omega)]
    simp [weighted, backTimes]; field_simp; ring
  | h1 :: h2' :: r, hpos, _, _, hc3 =>
    have hh1 : 0 < h1 := hpos h1 (by simp)
    have hdtp : 0 < dt := hpos dt (by simp)
    rw [hc3 dt h1 (h2' :: r) rfl (by simp)]
    have hs : ¬ (((dt :: h1 :: h2' :: r).length : Nat) : Int) < 2 := by simp only [List.length_cons]; omega
    refine ⟨?_, ?_⟩
    · simp only [Bdf.getOrder]; rw [if_neg (by simp only [List.length_cons]; omega)]; simp
    have hord : (Bdf.getOrder (⟨1, (dt :: h1 :: h2' :: r).length, [(1 + 2*(dt/h1)) / (dt/h1 + 1), -(dt/h1 + 1), (dt/h1)*(dt/h1) / (dt/h1 + 1)], [1, -1], []⟩ : Bdf K)).toNat = 2 := by
      simp only [Bdf.getOrder]; rw [if_neg (by simp only [List.length_cons]; omega)]; simp
    have hc : Bdf.getCoefs (⟨1, (dt :: h1 :: h2' :: r).length, [(1 + 2*(dt/h1)) / (dt/h1 + 1), -(dt/h1 + 1), (dt/h1)*(dt/h1) / (dt/h1 + 1)], [1, -1], []⟩ : Bdf K) =
        [(1 + 2*(dt/h1)) / (dt/h1 + 1), -(dt/h1 + 1), (dt/h1)*(dt/h1) / (dt/h1 + 1)] := by
      simp only [Bdf.getCoefs]; rw [if_pos trivial, if_neg hs]
    rw [hc, hord]
    refine ⟨by simp, fun p t hp => ?_⟩
    obtain ⟨a, b, c, d, rfl⟩ := poly3 p (by omega)
    obtain ⟨hd, -⟩ := coeff3 a b c d 2 hp
    rw [hd (by omega)]
    have hne : dt / h1 + 1 ≠ 0 := ne_of_gt (by positivity)
    have hne2 : dt + h1 ≠ 0 := ne_of_gt (by positivity)
    have hh : h1 ≠ 0 := ne_of_gt hh1
    simp [weighted, backTimes]
    field_simp
    ring

/-- **C28 fails** (F17) for the second step if it has another size than the first one. -/
theorem C28_counterexample_second_step : ¬ Exact1 (bdfRun (Bdf.make (K := Rat) 2) 1 [2, 1]).getCoefs 2 2 [1] := by
  intro h
  have := h.2 (X^2) 3 (by simp)
  simp [weighted, backTimes, bdfRun, Bdf.make, Bdf.setOrder, Bdf.advanceStep, Bdf.getCoefs] at this
  norm_num at this

/-- **C28** (stationary problem). A scheme of order zero never advances and has the single coefficient one. -/
theorem C28_stationary (order : Int) (ho : order = 0) (d0 : K) (hs : List K) (dt dtn : K) :
    (bdfRun (Bdf.make order) d0 hs).getCoefs = [1] ∧ ((bdfRun (Bdf.make order) d0 hs).advanceStep dt dtn).1 = false ∧
    (bdfRun (Bdf.make order) d0 hs).getOrder = 0 := by
  subst ho
  have : bdfRun (Bdf.make (K := K) 0) d0 hs = ⟨1, 0, [1], [1], []⟩ := by
    induction hs with
    | nil => simp [bdfRun, Bdf.make, Bdf.setOrder]
    | cons h hs ih => rw [bdfRun, ih]; simp [Bdf.advanceStep]
  rw [this]
  simp [Bdf.getCoefs, Bdf.advanceStep, Bdf.getOrder]

/-- **C28** (extrapolation). Extrapolation to the new time from the previous values is exact for polynomials of degree below the order of
the current step, provided the last two steps have equal size (if there are two). -/
theorem C28_extrapolate (order : Int) (ho : 1 ≤ order) (d0 dt : K) (hs : List K) (hpos : ∀ h ∈ dt :: hs, 0 < h)
    (h2 : ∀ h r, hs = h :: r → h = dt) (p : K[X]) (t : K)
    (hp : (p.natDegree : Int) < (bdfRun (Bdf.make order) d0 (dt :: hs)).getOrder) :
    (bdfRun (Bdf.make order) d0 (dt :: hs)).extrapolate ((backTimes (t - dt) hs).map fun x => p.eval x) = some (p.eval t) := by
  by_cases h1 : order = 1
  · subst h1
    rw [run1] at hp ⊢
    have hp0 : p.natDegree ≤ 0 := by
      have : (Bdf.getOrder (⟨1, (dt :: hs).length, [1, -1], [1, -1], []⟩ : Bdf K)) = 1 := by simp [Bdf.getOrder]
      omega
    obtain ⟨a, b, c, d, rfl⟩ := poly3 p (by omega)
    obtain ⟨hd, hcz, hb⟩ := coeff3 a b c d 0 hp0
    rw [hd (by omega), hcz (by omega), hb (by omega)]
    cases hs <;> simp [Bdf.extrapolate, Bdf.getActualOrder, backTimes]
  · obtain ⟨c, e, hl, -, -⟩ := run2 d0 order (by omega) (dt :: hs) hpos
    rw [e] at hp ⊢
    match hs, h2 with
    | [], _ =>
      have hp0 : p.natDegree ≤ 0 := by
        simp [Bdf.getOrder] at hp; omega
      obtain ⟨a, b, c, d, rfl⟩ := poly3 p (by omega)
      obtain ⟨hd, hcz, hb⟩ := coeff3 a b c d 0 hp0
      rw [hd (by omega), hcz (by omega), hb (by omega)]
      simp [Bdf.extrapolate, backTimes]
    | h :: r, h2 =>
      obtain rfl := h2 h r rfl
      have hp0 : p.natDegree ≤ 1 := by
        simp only [Bdf.getOrder] at hp
        rw [if_neg (by simp only [List.length_cons]; omega)] at hp
        omega
      obtain ⟨a, b, c', d, rfl⟩ := poly3 p (by omega)
      obtain ⟨hd, hcz, -⟩ := coeff3 a b c' d 1 hp0
      rw [hd (by omega), hcz (by omega)]
      simp only [Bdf.extrapolate, Bdf.getActualOrder, hl]
      cases r <;>
      · simp only [backTimes, List.map_cons, List.getElem?_cons_zero]
        rw [if_pos ⟨by simp only [List.length_cons]; omega, by norm_num⟩]
        simp
        ring

/-! ### Second-order problems -/

/-- State of a run of the second-order-equation scheme. -/
theorem runD2 (order : Int) (ho : 1 ≤ order) (d0 : K) (s0 : Int) (hs : List K) :
    bdfRun (Bdf.makeD2 (K := K) order s0) d0 hs = { Bdf.makeD2 (K := K) order s0 with step := s0 + hs.length } := by
  induction hs with
  | nil => simp [bdfRun]; rfl
  | cons h hs ih =>
    rw [bdfRun, ih]
    have h1 : (Bdf.makeD2 (K := K) order s0).coefs1 = [2, -2] := by simp only [Bdf.makeD2]; rw [if_neg (by omega)]
    have hd : (Bdf.makeD2 (K := K) order s0).degree = 2 := rfl
    simp only [Bdf.advanceStep, h1, hd]
    rw [if_neg (by simp), if_neg (by simp)]
    simp only [List.length_cons, Bdf.mk.injEq, true_and, and_true]
    push_cast
    omega

/-- **C28** (second order problems, order 1). With constant step size: the first step is exact for quadratic polynomials with zero
initial derivative, the following steps for all quadratic polynomials. -/
theorem C28_bdfd2_order1 (d0 dt : K) (hs : List K) (hc : ∀ h ∈ hs, h = dt) :
    (hs = [] → Exact2Start (bdfRun (Bdf.makeD2 1 0) d0 (dt :: hs)).getCoefs 2 dt hs) ∧
    (hs ≠ [] → Exact2 (bdfRun (Bdf.makeD2 1 0) d0 (dt :: hs)).getCoefs 2 dt hs) := by
  rw [runD2 1 (by omega)]
  refine ⟨fun h => ?_, fun h => ?_⟩
  · subst h
    refine ⟨by simp [Bdf.makeD2, Bdf.getCoefs], fun p t hp h0 => ?_⟩
    obtain ⟨a, b, c, d, rfl⟩ := poly3 p (by omega)
    obtain ⟨hd, -⟩ := coeff3 a b c d 2 hp
    rw [hd (by omega)] at h0 ⊢
    simp [Bdf.makeD2, Bdf.getCoefs, weighted, backTimes] at h0 ⊢
    linear_combination (2 * dt) * h0
  · have hcs : Bdf.getCoefs { Bdf.makeD2 (K := K) 1 0 with step := 0 + ((dt :: hs).length : Int) } = [1, -2, 1] := by
      have hl : hs.length ≠ 0 := by simpa using h
      simp only [Bdf.getCoefs, Bdf.makeD2, Bdf.getActualOrder]
      rw [if_neg (by decide), if_neg (by simp only [List.length_cons]; omega), if_neg (by simp)]
      rfl
    rw [hcs]
    match hs, h, hc with
    | h1 :: r, _, hc =>
      obtain rfl := hc h1 (by simp)
      refine ⟨by simp, fun p t hp => ?_⟩
      obtain ⟨a, b, c, d, rfl⟩ := poly3 p (by omega)
      obtain ⟨hd, -⟩ := coeff3 a b c d 2 hp
      rw [hd (by omega)]
      cases r <;> simp [weighted, backTimes] <;> ring

/-- **C28** (second order problems, order 2). With constant step size: the first step is exact for quadratic, the second step for cubic
polynomials with zero initial derivative, the following steps for all cubic polynomials. -/
theorem C28_bdfd2_order2 (order : Int) (ho : 2 ≤ order) (d0 dt : K) (hs : List K) (hc : ∀ h ∈ hs, h = dt) :
    (hs.length = 0 → Exact2Start (bdfRun (Bdf.makeD2 order 0) d0 (dt :: hs)).getCoefs 2 dt hs) ∧
    (hs.length = 1 → Exact2Start (bdfRun (Bdf.makeD2 order 0) d0 (dt :: hs)).getCoefs 3 dt hs) ∧
    (hs.length ≥ 2 → Exact2 (bdfRun (Bdf.makeD2 order 0) d0 (dt :: hs)).getCoefs 3 dt hs) := by
  rw [runD2 order (by omega)]
  have e : Bdf.makeD2 (K := K) order 0 = ⟨2, 0, [2, -5, 4, -1], [2, -2], [5/2, -8, 11/2]⟩ := by
    simp only [Bdf.makeD2]
    rw [if_neg (by omega : ¬ order = 1), if_pos (by omega : order ≥ 2), if_neg (by omega : ¬ order < 1), if_pos (by omega : order > 1)]
  rw [e]
  refine ⟨fun h => ?_, fun h => ?_, fun h => ?_⟩
  · obtain rfl := List.length_eq_zero_iff.mp h
    refine ⟨by simp [Bdf.getCoefs], fun p t hp h0 => ?_⟩
    obtain ⟨a, b, c, d, rfl⟩ := poly3 p (by omega)
    obtain ⟨hd, -⟩ := coeff3 a b c d 2 hp
    rw [hd (by omega)] at h0 ⊢
    simp [Bdf.getCoefs, weighted, backTimes] at h0 ⊢
    linear_combination (2 * dt) * h0
  · obtain ⟨x, rfl⟩ := List.length_eq_one_iff.mp h
    obtain rfl := hc x (by simp)
    refine ⟨by simp [Bdf.getCoefs, Bdf.getActualOrder], fun p t hp h0 => ?_⟩
    obtain ⟨a, b, c, d, rfl⟩ := poly3 p (by omega)
    simp [Bdf.getCoefs, Bdf.getActualOrder, weighted, backTimes] at h0 ⊢
    linear_combination (-3 * x) * h0
  · have hcs : Bdf.getCoefs (⟨2, 0 + ((dt :: hs).length : Int), [2, -5, 4, -1], [2, -2], [5/2, -8, 11/2]⟩ : Bdf K) = [2, -5, 4, -1] := by
      simp only [Bdf.getCoefs]
      rw [if_neg (by decide), if_neg (by simp only [List.length_cons]; omega), if_neg (by simp only [List.length_cons]; omega)]
    rw [hcs]
    match hs, h, hc with
    | h1 :: h2 :: r, _, hc =>
      obtain rfl := hc h1 (by simp)
      obtain rfl := hc h2 (by simp)
      refine ⟨by simp, fun p t hp => ?_⟩
      obtain ⟨a, b, c, d, rfl⟩ := poly3 p (by omega)
      cases r <;> simp [weighted, backTimes] <;> ring

/-! ### Element matrices -/

theorem bdfRHSLoop_spec {ι : Type} [Fintype ι] (s : Bdf K) (h : K) (M : Matrix ι ι K) (cs : List K) (i : Nat) (vec : List (ι → K)) (b : ι → K)
    (hl : i + cs.length ≤ vec.length) :
    bdfRHSLoop s h M vec i cs b = some (b - (bdfDt s h)⁻¹ • (M *ᵥ ((cs.zip (vec.drop i)).map fun p => p.1 • p.2).sum)) := by
  induction cs generalizing i b with
  | nil => simp [bdfRHSLoop]
  | cons c cs ih =>
    simp only [List.length_cons] at hl
    have hi : i < vec.length := by omega
    rw [bdfRHSLoop, List.getElem?_eq_getElem hi]
    dsimp only
    rw [ih (i+1) _ (by omega), List.drop_eq_getElem_cons hi]
    simp only [List.zip_cons_cons, List.map_cons, List.sum_cons, mulVec_add, mulVec_smul, smul_add, smul_smul]
    congr 1
    funext k
    simp only [Pi.add_apply, Pi.sub_apply, Pi.smul_apply, smul_eq_mul]
    ring

/-- **C28/C30** (element level). Let `Σ cᵢ uᵢ / Δᵈ` be the approximation of the time derivative, with `u₀` the current and `u₁, u₂, …` the
previous solutions, and `b = f - K u₀` the static residual. Then solving the Newton system built by the element class and
correcting `u₀` makes the discretised linear equation `M Σ cᵢ uᵢ / Δᵈ + K u₀ = f` hold exactly. -/
theorem C28_element_matrices {ι : Type} [Fintype ι] (s : Bdf K) (h : K) (M Kt : Matrix ι ι K) (c0 : K) (cs : List K) (u0 : ι → K)
    (prev : List (ι → K)) (f : ι → K) (hc : s.getCoefs = c0 :: cs) (hl : cs.length ≤ prev.length) (h4 : 3 ≤ prev.length)
    (hd : s.degree = 1 ∨ s.degree = 2) :
    ∃ N r, bdfNewton s h M Kt = some N ∧ bdfRHS s h M (u0 :: prev) (f - Kt *ᵥ u0) = some r ∧
      ∀ du, N *ᵥ du = r →
        (h ^ s.degree)⁻¹ • (M *ᵥ (((c0 :: cs).zip ((u0 + du) :: prev)).map fun p => p.1 • p.2).sum) + Kt *ᵥ (u0 + du) = f := by
  have hdt : h ^ s.degree = bdfDt s h := by
    unfold bdfDt
    rcases hd with hd | hd <;> simp [hd, pow_two]
  rw [hdt]
  refine ⟨(c0 / bdfDt s h) • M + Kt,
    (f - Kt *ᵥ u0) - (bdfDt s h)⁻¹ • (M *ᵥ (((c0 :: cs).zip ((u0 :: prev).drop 0)).map fun p => p.1 • p.2).sum),
    by simp [bdfNewton, hc], ?_, fun du hdu => ?_⟩
  · unfold bdfRHS
    rw [if_pos (by simp only [List.length_cons]; omega), hc, bdfRHSLoop_spec _ _ _ _ _ _ _ (by simp only [List.length_cons]; omega)]
  · funext k
    have := congrFun hdu k
    simp only [List.drop_zero, List.zip_cons_cons, List.map_cons, List.sum_cons, add_mulVec, smul_mulVec, mulVec_add, mulVec_smul, smul_add,
      Pi.add_apply, Pi.smul_apply, Pi.sub_apply, smul_eq_mul] at this ⊢
    rw [div_eq_mul_inv] at this
    linear_combination this

/-- Non-trivial step size history meeting the hypotheses of the order 2 theorem. -/
example : Exact1 (bdfRun (Bdf.make (K := Rat) 2) 0 [1/2, 3, 2, 2]).getCoefs 2 (1/2) [3, 2, 2] := by
  have h := C28_bdf2 (K := Rat) 2 (by decide) 0 (1/2) [3, 2, 2] (by simp) (by simp)
  rw [h.1] at h
  exact h.2

example : (bdfRun (Bdf.make (K := Rat) 2) 0 [1/2, 3, 2, 2]).getCoefs = [8/7, -7/6, 1/42] := by decide +kernel

end IFEM.Props
