import Verif.Lemmas.QuadLoop3

/-!
# C64: numerical integration over spline patches
-/
namespace IFEM.Props
open IFEM.Spec IFEM.Quad IFEM.Topo MeasureTheory

/-- The accuracy of the tabulated rules: the table of the 10-point rule has only eight decimals. -/
noncomputable def gaussTol (n : Nat) : ℝ := if n = 10 then 2/10^8 else 1/10^14

/-- **C64** (tables). For every number of points from 1 to 10 there is a rule, its points are inside of `(-1,1)` in increasing order, its weights are positive, and it
integrates all polynomials of degree at most `2n-1` up to the accuracy of the table, whatever way the decimal literals are rounded to `double`. -/
theorem C64_tables (rd : ℚ → ℝ) (hr : Rounds rd) (n : Nat) (h1 : 1 ≤ n) (h2 : n ≤ 10) :
    ∃ x w, getCoord n = some x ∧ getWeight n = some w ∧ GaussRule n (gaussTol n) (x.map rd) (w.map rd) := by
  have e9 : (((1/10^15 : ℚ) : ℝ)) + 7/10^15 ≤ gaussTol 1 * 2 := by unfold gaussTol; norm_num
  have e10 : (((21/10^9 : ℚ) : ℝ)) + 7/10^15 ≤ gaussTol 10 * 2 := by unfold gaussTol; norm_num
  have g9 : ∀ m, m ≠ 10 → gaussTol m = gaussTol 1 := fun m hm => by unfold gaussTol; rw [if_neg hm, if_neg (by decide)]
  interval_cases n
  · exact ⟨_, _, rfl, rfl, rule_of_ok rd hr 1 (by decide) _ _ e9 _ _ ok1⟩
  · exact ⟨_, _, rfl, rfl, rule_of_ok rd hr 2 (by decide) _ _ (by rw [g9 2 (by decide)]; exact e9) _ _ ok2⟩
  · exact ⟨_, _, rfl, rfl, rule_of_ok rd hr 3 (by decide) _ _ (by rw [g9 3 (by decide)]; exact e9) _ _ ok3⟩
  · exact ⟨_, _, rfl, rfl, rule_of_ok rd hr 4 (by decide) _ _ (by rw [g9 4 (by decide)]; exact e9) _ _ ok4⟩
  · exact ⟨_, _, rfl, rfl, rule_of_ok rd hr 5 (by decide) _ _ (by rw [g9 5 (by decide)]; exact e9) _ _ ok5⟩
  · exact ⟨_, _, rfl, rfl, rule_of_ok rd hr 6 (by decide) _ _ (by rw [g9 6 (by decide)]; exact e9) _ _ ok6⟩
  · exact ⟨_, _, rfl, rfl, rule_of_ok rd hr 7 (by decide) _ _ (by rw [g9 7 (by decide)]; exact e9) _ _ ok7⟩
  · exact ⟨_, _, rfl, rfl, rule_of_ok rd hr 8 (by decide) _ _ (by rw [g9 8 (by decide)]; exact e9) _ _ ok8⟩
  · exact ⟨_, _, rfl, rfl, rule_of_ok rd hr 9 (by decide) _ _ (by rw [g9 9 (by decide)]; exact e9) _ _ ok9⟩
  · exact ⟨_, _, rfl, rfl, rule_of_ok rd hr 10 (by decide) _ _ e10 _ _ ok10⟩

/-- **C64** (no other rules). For any other number of points, except zero, no rule is handed out. -/
theorem C64_no_rule (n : Int) (h : n < 0 ∨ 10 < n) : getCoord n = none ∧ getWeight n = none := by
  unfold getCoord getWeight getGauss
  constructor <;> split <;> first | omega | rfl

theorem gaussTol_nonneg (n : Nat) : 0 ≤ gaussTol n := by unfold gaussTol; split <;> norm_num

/-- **C64** (number of points). Without a user-defined number of points (`nGauss` of the form `-p < nGauss ≤ 0` or larger than 10) the number of points is the order of the
basis plus the last digit of `nGauss` (negative digit if `nGauss` is negative); a number from 1 to 10 is used as it is; and `nGauss ≤ -p` means no integration. -/
theorem C64_number_of_points (nGauss p : Int) (hp : 0 < p) :
    (nGauss ≤ -p → ∀ b, getNoGaussPt nGauss p b = 0) ∧
    (1 ≤ nGauss → nGauss ≤ 10 → ∀ b, getNoGaussPt nGauss p b = nGauss) ∧
    (-p < nGauss → nGauss ≤ 0 → getNoGaussPt nGauss p true = p ∧ (-10 < nGauss → getNoGaussPt nGauss p false = p + nGauss)) ∧
    (10 < nGauss → getNoGaussPt nGauss p true = p ∧ getNoGaussPt nGauss p false = p + nGauss % 10) := by
  unfold getNoGaussPt
  refine ⟨fun h b => if_pos h, fun h1 h2 b => ?_, fun h1 h2 => ?_, fun h => ?_⟩
  · rw [if_neg (by omega), if_pos (by omega)]
  · have e1 : ¬ nGauss ≤ -p := by omega
    have e2 : ¬ (nGauss > 0 ∧ nGauss < 11) := by omega
    simp only [e1, e2, if_false, if_true, Bool.false_eq_true, true_and]
    intro h
    obtain ⟨k, rfl⟩ : ∃ k : Nat, nGauss = -(k : Int) := ⟨nGauss.natAbs, by omega⟩
    rw [Int.neg_tmod, Int.tmod_eq_emod_of_nonneg (by omega)]
    omega
  · have e1 : ¬ nGauss ≤ -p := by omega
    have e2 : ¬ (nGauss > 0 ∧ nGauss < 11) := by omega
    simp only [e1, e2, if_false, if_true, Bool.false_eq_true, true_and]
    rw [Int.tmod_eq_emod_of_nonneg (by omega)]

/-- **C64** (parameters). The parameters handed out for knot span `e` are inside of that span if it is not empty, in increasing order; and if empty spans are skipped, only
the others are represented. -/
theorem C64_parameters {n' : Nat} {δ : ℝ} {x w : List ℝ} (h : GaussRule n' δ x w) (t : Nat → ℝ) (n p : Nat) (hp : 0 < p) (hn : p ≤ n) :
    (∃ g, getGaussParameters n' x (knotList t (n+p)) n p false = some g ∧ g.length = (n-p+1)*n' ∧
      ∀ e, e < n-p+1 → t (p-1+e) < t (p-1+e+1) → (∀ i, i < n' → ∃ u, g[e*n'+i]? = some u ∧ t (p-1+e) < u ∧ u < t (p-1+e+1)) ∧
        ∀ i j, i < j → j < n' → ∃ u v, g[e*n'+i]? = some u ∧ g[e*n'+j]? = some v ∧ u < v) ∧
    getGaussParameters n' x (knotList t (n+p)) n p true = some (((List.range (n-p+1)).filter fun e => decide (t (p-1+e) < t (p-1+e+1))).flatMap fun e =>
      (List.range n').map fun i => (t (p-1+e) + t (p-1+e+1))/2 + (t (p-1+e+1) - t (p-1+e))/2 * x.getD i 0) := by
  refine ⟨⟨gpars n' x t n p, getGaussParameters_all n' x h.points.ge t n p hp hn, ?_, fun e he hlt => ⟨fun i hi => ?_, fun i j hij hj => ?_⟩⟩, ?_⟩
  · unfold gpars
    rw [IFEM.Lag.flatMap_range_length _ n' _ (fun _ _ => by simp)]
  · have := gpars_get n' x t n p e i he hi
    rw [show i + n'*e = e*n'+i by ring] at this
    exact ⟨_, this, pt_inside h _ _ hlt i hi⟩
  · have e1 := gpars_get n' x t n p e i he (by omega)
    have e2 := gpars_get n' x t n p e j he hj
    rw [show i + n'*e = e*n'+i by ring] at e1
    rw [show j + n'*e = e*n'+j by ring] at e2
    refine ⟨_, _, e1, e2, ?_⟩
    have := h.increasing i j hij hj
    unfold pt
    nlinarith
  · rw [getGaussParameters_spec n' x h.points.ge t n p hp hn]
    congr 1
    generalize List.range (n-p+1) = l
    induction l with
    | nil => rfl
    | cons e l ih =>
      rw [List.flatMap_cons, ih, List.filter_cons]
      by_cases he : t (p-1+e) < t (p-1+e+1)
      · rw [if_pos (Or.inr he), if_pos (by simpa using he), List.flatMap_cons]
        congr 1
        refine List.map_congr_left fun i _ => ?_
        unfold pt; ring
      · rw [if_neg (by simpa using he), if_neg (by simpa using he)]
        rfl

/-- Sums the errors of the elements. -/
theorem sum_error (m : Nat) (Q I A : Nat → ℝ) (h : ∀ e, e < m → |Q e - I e| ≤ A e) : |(∑ e ∈ Finset.range m, Q e) - ∑ e ∈ Finset.range m, I e| ≤ ∑ e ∈ Finset.range m, A e := by
  rw [← Finset.sum_sub_distrib]
  exact (Finset.abs_sum_le_sum_abs _ _).trans (Finset.sum_le_sum fun e he => h e (Finset.mem_range.1 he))

/-- **C64** (curves). For every knot vector, and every integrand that on each knot span is a polynomial of degree less than twice the number of points, integrating over the
patch gives the integral over the parameter domain, up to the accuracy of the rule. -/
theorem C64_curve {ng : Nat} {δ : ℝ} {x w : List ℝ} (h : GaussRule ng δ x w) (hδ : 0 ≤ δ) (t : Nat → ℝ) (ht : Monotone t) (n p : Nat) (hp : 0 < p) (hn : p ≤ n)
    (f : ℝ → ℝ) (R M : ℝ) (hR : ∀ i, p-1 ≤ i → i ≤ n → |t i| ≤ R) (hf : ∀ e, e < n-p+1 → PolyOn1 (2*ng) R M f (t (p-1+e)) (t (p-1+e+1))) :
    ∃ r, integrate1 f n p (knotList t (n+p)) ng x w = some r ∧ |r - ∫ u in (t (p-1))..(t n), f u| ≤ δ * ((t n - t (p-1)) * M) := by
  refine ⟨_, integrate1_spec f n p hp hn t ng x w h.points.ge h.weights.ge, ?_⟩
  choose! c hc using hf
  have hs := split1 c f (fun e => t (p-1+e)) (fun a b hab => ht (by omega)) (n-p+1) (fun e he => (hc e he).1)
  rw [Nat.add_zero, show p-1+(n-p+1) = n by omega] at hs
  rw [hs]
  have htel : δ * ((t n - t (p-1)) * M) = ∑ e ∈ Finset.range (n-p+1), δ * ((t (p-1+e+1) - t (p-1+e)) * M) := by
    rw [← Finset.mul_sum, ← Finset.sum_mul]
    have := Finset.sum_range_sub (fun e => t (p-1+e)) (n-p+1)
    simp only [Nat.add_zero, show p-1+(n-p+1) = n by omega, ← Nat.add_assoc] at this
    rw [this]
  rw [htel]
  refine sum_error _ _ _ _ fun e he => ?_
  by_cases hlt : t (p-1+e) < t (p-1+e+1)
  · rw [if_pos hlt]
    exact elm1 h _ _ R M hlt (hR _ (by omega) (by omega)) (hR _ (by omega) (by omega)) f (c e) (hc e he).1 (hc e he).2 hδ
  · have heq : t (p-1+e) = t (p-1+e+1) := le_antisymm (ht (by omega)) (not_lt.1 hlt)
    rw [if_neg hlt, Nat.add_assoc] at *
    rw [← heq]
    simp

/-- **C64** (surfaces). The same over the two parameters of a surface, for every order in which the elements are visited. -/
theorem C64_surface {ng1 ng2 : Nat} {δ1 δ2 : ℝ} {x1 w1 x2 w2 : List ℝ} (h1 : GaussRule ng1 δ1 x1 w1) (h2 : GaussRule ng2 δ2 x2 w2) (hδ1 : 0 ≤ δ1) (hδ2 : 0 ≤ δ2)
    (t1 t2 : Nat → ℝ) (ht1 : Monotone t1) (ht2 : Monotone t2) (n1 n2 p1 p2 : Nat) (hp1 : 0 < p1) (hn1 : p1 ≤ n1) (hp2 : 0 < p2) (hn2 : p2 ≤ n2)
    (els : List Nat) (hels : els.Perm (List.range ((n1-p1+1)*(n2-p2+1)))) (f : ℝ → ℝ → ℝ) (R M : ℝ)
    (hR1 : ∀ i, p1-1 ≤ i → i ≤ n1 → |t1 i| ≤ R) (hR2 : ∀ i, p2-1 ≤ i → i ≤ n2 → |t2 i| ≤ R)
    (hf : ∀ i j, i < n1-p1+1 → j < n2-p2+1 → PolyOn2 (2*ng1) (2*ng2) R M f (t1 (p1-1+i)) (t1 (p1-1+i+1)) (t2 (p2-1+j)) (t2 (p2-1+j+1))) :
    ∃ r, integrate2 f n1 n2 p1 p2 (knotList t1 (n1+p1)) (knotList t2 (n2+p2)) ng1 ng2 x1 w1 x2 w2 els = some r ∧
      |r - ∫ u in (t1 (p1-1))..(t1 n1), ∫ v in (t2 (p2-1))..(t2 n2), f u v| ≤
        ((1+δ1)*(1+δ2) - 1) * ((t1 n1 - t1 (p1-1)) * (t2 n2 - t2 (p2-1)) * M) := by
  refine ⟨_, integrate2_spec f n1 n2 p1 p2 hp1 hn1 hp2 hn2 t1 t2 ng1 ng2 x1 w1 x2 w2 h1.points.ge h2.points.ge h1.weights.ge h2.weights.ge els hels, ?_⟩
  choose! c hc using hf
  have hs := split2 c f (fun e => t1 (p1-1+e)) (fun e => t2 (p2-1+e)) (fun a b hab => ht1 (by omega)) (fun a b hab => ht2 (by omega)) (n1-p1+1) (n2-p2+1)
    (fun i j hi hj => (hc i j hi hj).1)
  rw [Nat.add_zero (p1-1), Nat.add_zero (p2-1), show p1-1+(n1-p1+1) = n1 by omega, show p2-1+(n2-p2+1) = n2 by omega] at hs
  rw [hs]
  have tel1 := Finset.sum_range_sub (fun e => t1 (p1-1+e)) (n1-p1+1)
  have tel2 := Finset.sum_range_sub (fun e => t2 (p2-1+e)) (n2-p2+1)
  simp only [Nat.add_zero, show p1-1+(n1-p1+1) = n1 by omega, show p2-1+(n2-p2+1) = n2 by omega, ← Nat.add_assoc] at tel1 tel2
  have htel : ((1+δ1)*(1+δ2) - 1) * ((t1 n1 - t1 (p1-1)) * (t2 n2 - t2 (p2-1)) * M) = ∑ i ∈ Finset.range (n1-p1+1), ∑ j ∈ Finset.range (n2-p2+1),
      ((1+δ1)*(1+δ2) - 1) * ((t1 (p1-1+i+1) - t1 (p1-1+i)) * (t2 (p2-1+j+1) - t2 (p2-1+j)) * M) := by
    rw [← tel1, ← tel2, Finset.sum_mul_sum, Finset.sum_mul, Finset.mul_sum]
    refine Finset.sum_congr rfl fun i _ => ?_
    rw [Finset.sum_mul, Finset.mul_sum]
  rw [htel]
  refine sum_error _ _ _ _ fun i hi => sum_error _ _ _ _ fun j hj => ?_
  by_cases hlt : t1 (p1-1+i) < t1 (p1-1+i+1) ∧ t2 (p2-1+j) < t2 (p2-1+j+1)
  · rw [if_pos hlt]
    exact elm2 h1 h2 _ _ _ _ R M hlt.1 (hR1 _ (by omega) (by omega)) (hR1 _ (by omega) (by omega)) hlt.2 (hR2 _ (by omega) (by omega)) (hR2 _ (by omega) (by omega)) f (c i j)
      (hc i j hi hj).1 (hc i j hi hj).2 hδ1 hδ2
  · rw [if_neg hlt]
    simp only [← Nat.add_assoc]
    rcases (not_and_or.1 hlt) with h | h
    · have heq : t1 (p1-1+i) = t1 (p1-1+i+1) := le_antisymm (ht1 (by omega)) (not_lt.1 h)
      rw [← heq]; simp
    · have heq : t2 (p2-1+j) = t2 (p2-1+j+1) := le_antisymm (ht2 (by omega)) (not_lt.1 h)
      rw [← heq]; simp

/-- **C64** (volumes). -/
theorem C64_volume {ng1 ng2 ng3 : Nat} {δ1 δ2 δ3 : ℝ} {x1 w1 x2 w2 x3 w3 : List ℝ} (h1 : GaussRule ng1 δ1 x1 w1) (h2 : GaussRule ng2 δ2 x2 w2) (h3 : GaussRule ng3 δ3 x3 w3)
    (hδ1 : 0 ≤ δ1) (hδ2 : 0 ≤ δ2) (hδ3 : 0 ≤ δ3) (t1 t2 t3 : Nat → ℝ) (ht1 : Monotone t1) (ht2 : Monotone t2) (ht3 : Monotone t3)
    (n1 n2 n3 p1 p2 p3 : Nat) (hp1 : 0 < p1) (hn1 : p1 ≤ n1) (hp2 : 0 < p2) (hn2 : p2 ≤ n2) (hp3 : 0 < p3) (hn3 : p3 ≤ n3)
    (els : List Nat) (hels : els.Perm (List.range ((n1-p1+1)*((n2-p2+1)*(n3-p3+1))))) (f : ℝ → ℝ → ℝ → ℝ) (R M : ℝ)
    (hR1 : ∀ i, p1-1 ≤ i → i ≤ n1 → |t1 i| ≤ R) (hR2 : ∀ i, p2-1 ≤ i → i ≤ n2 → |t2 i| ≤ R) (hR3 : ∀ i, p3-1 ≤ i → i ≤ n3 → |t3 i| ≤ R)
    (hf : ∀ i j k, i < n1-p1+1 → j < n2-p2+1 → k < n3-p3+1 → PolyOn3 (2*ng1) (2*ng2) (2*ng3) R M f
      (t1 (p1-1+i)) (t1 (p1-1+i+1)) (t2 (p2-1+j)) (t2 (p2-1+j+1)) (t3 (p3-1+k)) (t3 (p3-1+k+1))) :
    ∃ r, integrate3 f n1 n2 n3 p1 p2 p3 (knotList t1 (n1+p1)) (knotList t2 (n2+p2)) (knotList t3 (n3+p3)) ng1 ng2 ng3 x1 w1 x2 w2 x3 w3 els = some r ∧
      |r - ∫ u in (t1 (p1-1))..(t1 n1), ∫ v in (t2 (p2-1))..(t2 n2), ∫ w in (t3 (p3-1))..(t3 n3), f u v w| ≤
        ((1+δ1)*(1+δ2)*(1+δ3) - 1) * ((t1 n1 - t1 (p1-1)) * (t2 n2 - t2 (p2-1)) * (t3 n3 - t3 (p3-1)) * M) := by
  refine ⟨_, integrate3_spec f n1 n2 n3 p1 p2 p3 hp1 hn1 hp2 hn2 hp3 hn3 t1 t2 t3 ng1 ng2 ng3 x1 w1 x2 w2 x3 w3 h1.points.ge h2.points.ge h3.points.ge
    h1.weights.ge h2.weights.ge h3.weights.ge els hels, ?_⟩
  choose! c hc using hf
  have hs := split3 c f (fun e => t1 (p1-1+e)) (fun e => t2 (p2-1+e)) (fun e => t3 (p3-1+e)) (fun a b hab => ht1 (by omega)) (fun a b hab => ht2 (by omega))
    (fun a b hab => ht3 (by omega)) (n1-p1+1) (n2-p2+1) (n3-p3+1) (fun i j k hi hj hk => (hc i j k hi hj hk).1)
  rw [Nat.add_zero (p1-1), Nat.add_zero (p2-1), Nat.add_zero (p3-1), show p1-1+(n1-p1+1) = n1 by omega, show p2-1+(n2-p2+1) = n2 by omega, show p3-1+(n3-p3+1) = n3 by omega] at hs
  rw [hs]
  have tel1 := Finset.sum_range_sub (fun e => t1 (p1-1+e)) (n1-p1+1)
  have tel2 := Finset.sum_range_sub (fun e => t2 (p2-1+e)) (n2-p2+1)
  have tel3 := Finset.sum_range_sub (fun e => t3 (p3-1+e)) (n3-p3+1)
  simp only [Nat.add_zero, show p1-1+(n1-p1+1) = n1 by omega, show p2-1+(n2-p2+1) = n2 by omega, show p3-1+(n3-p3+1) = n3 by omega, ← Nat.add_assoc] at tel1 tel2 tel3
  have htel : ((1+δ1)*(1+δ2)*(1+δ3) - 1) * ((t1 n1 - t1 (p1-1)) * (t2 n2 - t2 (p2-1)) * (t3 n3 - t3 (p3-1)) * M) =
      ∑ i ∈ Finset.range (n1-p1+1), ∑ j ∈ Finset.range (n2-p2+1), ∑ k ∈ Finset.range (n3-p3+1),
      ((1+δ1)*(1+δ2)*(1+δ3) - 1) * ((t1 (p1-1+i+1) - t1 (p1-1+i)) * (t2 (p2-1+j+1) - t2 (p2-1+j)) * (t3 (p3-1+k+1) - t3 (p3-1+k)) * M) := by
    rw [← tel1, ← tel2, ← tel3, Finset.sum_mul_sum, Finset.sum_mul, Finset.sum_mul, Finset.mul_sum]
    refine Finset.sum_congr rfl fun i _ => ?_
    rw [Finset.sum_mul, Finset.sum_mul, Finset.mul_sum]
    refine Finset.sum_congr rfl fun j _ => ?_
    rw [Finset.mul_sum, Finset.sum_mul, Finset.mul_sum]
  rw [htel]
  refine sum_error _ _ _ _ fun i hi => sum_error _ _ _ _ fun j hj => sum_error _ _ _ _ fun k hk => ?_
  by_cases hlt : t1 (p1-1+i) < t1 (p1-1+i+1) ∧ t2 (p2-1+j) < t2 (p2-1+j+1) ∧ t3 (p3-1+k) < t3 (p3-1+k+1)
  · rw [if_pos hlt]
    exact elm3 h1 h2 h3 _ _ _ _ _ _ R M hlt.1 (hR1 _ (by omega) (by omega)) (hR1 _ (by omega) (by omega)) hlt.2.1 (hR2 _ (by omega) (by omega)) (hR2 _ (by omega) (by omega))
      hlt.2.2 (hR3 _ (by omega) (by omega)) (hR3 _ (by omega) (by omega)) f (c i j k) (hc i j k hi hj hk).1 (hc i j k hi hj hk).2 hδ1 hδ2 hδ3
  · rw [if_neg hlt]
    simp only [← Nat.add_assoc]
    rcases (not_and_or.1 hlt) with h | h
    · have heq : t1 (p1-1+i) = t1 (p1-1+i+1) := le_antisymm (ht1 (by omega)) (not_lt.1 h)
      rw [← heq]; simp
    · rcases (not_and_or.1 h) with h | h
      · have heq : t2 (p2-1+j) = t2 (p2-1+j+1) := le_antisymm (ht2 (by omega)) (not_lt.1 h)
        rw [← heq]; simp
      · have heq : t3 (p3-1+k) = t3 (p3-1+k+1) := le_antisymm (ht3 (by omega)) (not_lt.1 h)
        rw [← heq]; simp

end IFEM.Props
