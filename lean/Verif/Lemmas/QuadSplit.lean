import Verif.Lemmas.QuadPoly

/-! # Integrals of piecewise polynomials -/
namespace IFEM.Quad
open IFEM.Spec MeasureTheory

/-- `f` is the polynomial with coefficients `c` on the open interval. -/
def Has1 (N : Nat) (c : Nat → ℝ) (f : ℝ → ℝ) (a b : ℝ) : Prop := ∀ u, a < u → u < b → f u = ∑ k ∈ Finset.range N, c k * u^k

def Has2 (N1 N2 : Nat) (c : Nat → Nat → ℝ) (f : ℝ → ℝ → ℝ) (a b a' b' : ℝ) : Prop :=
  ∀ u v, a < u → u < b → a' < v → v < b' → f u v = ∑ k ∈ Finset.range N1, ∑ l ∈ Finset.range N2, c k l * (u^k * v^l)

def Has3 (N1 N2 N3 : Nat) (c : Nat → Nat → Nat → ℝ) (f : ℝ → ℝ → ℝ → ℝ) (a b a' b' a'' b'' : ℝ) : Prop :=
  ∀ u v w, a < u → u < b → a' < v → v < b' → a'' < w → w < b'' →
    f u v w = ∑ k ∈ Finset.range N1, ∑ l ∈ Finset.range N2, ∑ m ∈ Finset.range N3, c k l m * (u^k * v^l * w^m)

theorem congrIoo {f g : ℝ → ℝ} {a b : ℝ} (hab : a ≤ b) (h : ∀ u, a < u → u < b → f u = g u) : ∫ u in a..b, f u = ∫ u in a..b, g u := by
  rw [intervalIntegral.integral_of_le hab, intervalIntegral.integral_of_le hab, integral_Ioc_eq_integral_Ioo, integral_Ioc_eq_integral_Ioo]
  exact setIntegral_congr_fun measurableSet_Ioo fun u hu => h u hu.1 hu.2

theorem integrableIoo {f g : ℝ → ℝ} {a b : ℝ} (hab : a ≤ b) (h : ∀ u, a < u → u < b → f u = g u) (hg : Continuous g) : IntervalIntegrable f volume a b := by
  rw [intervalIntegrable_iff_integrableOn_Ioo_of_le hab]
  have := (hg.intervalIntegrable a b (μ := volume))
  rw [intervalIntegrable_iff_integrableOn_Ioo_of_le hab] at this
  exact this.congr_fun (fun u hu => (h u hu.1 hu.2).symm) measurableSet_Ioo

theorem Has1.integrable {N : Nat} {c : Nat → ℝ} {f : ℝ → ℝ} {a b : ℝ} (h : Has1 N c f a b) (hab : a ≤ b) : IntervalIntegrable f volume a b :=
  integrableIoo hab h (by fun_prop)

theorem Has1.int {N : Nat} {c : Nat → ℝ} {f : ℝ → ℝ} {a b : ℝ} (h : Has1 N c f a b) (hab : a ≤ b) :
    ∫ u in a..b, f u = ∑ k ∈ Finset.range N, c k * ∫ u in a..b, u^k := by
  rw [congrIoo hab h]
  refine (intervalIntegral.integral_finset_sum (fun j _ => Continuous.intervalIntegrable (by fun_prop) _ _)).trans ?_
  exact Finset.sum_congr rfl fun j _ => intervalIntegral.integral_const_mul _ _

/-- For a fixed first parameter. -/
theorem Has2.slice {N1 N2 : Nat} {c : Nat → Nat → ℝ} {f : ℝ → ℝ → ℝ} {a b a' b' : ℝ} (h : Has2 N1 N2 c f a b a' b') (u : ℝ) (h1 : a < u) (h2 : u < b) :
    Has1 N2 (fun l => ∑ k ∈ Finset.range N1, c k l * u^k) (f u) a' b' := by
  intro v h3 h4
  rw [h u v h1 h2 h3 h4, Finset.sum_comm]
  refine Finset.sum_congr rfl fun l _ => ?_
  rw [Finset.sum_mul]
  exact Finset.sum_congr rfl fun k _ => by ring

/-- Integrated over the second parameter. -/
theorem Has2.inner {N1 N2 : Nat} {c : Nat → Nat → ℝ} {f : ℝ → ℝ → ℝ} {a b a' b' : ℝ} (h : Has2 N1 N2 c f a b a' b') (hab : a' ≤ b') :
    Has1 N1 (fun k => ∑ l ∈ Finset.range N2, c k l * ∫ v in a'..b', v^l) (fun u => ∫ v in a'..b', f u v) a b := by
  intro u h1 h2
  dsimp only
  rw [(h.slice u h1 h2).int hab]
  simp only [Finset.sum_mul]
  rw [Finset.sum_comm]
  exact Finset.sum_congr rfl fun k _ => Finset.sum_congr rfl fun l _ => by ring

theorem Has2.int {N1 N2 : Nat} {c : Nat → Nat → ℝ} {f : ℝ → ℝ → ℝ} {a b a' b' : ℝ} (h : Has2 N1 N2 c f a b a' b') (hab : a ≤ b) (hab' : a' ≤ b') :
    ∫ u in a..b, ∫ v in a'..b', f u v = ∑ k ∈ Finset.range N1, ∑ l ∈ Finset.range N2, c k l * ((∫ u in a..b, u^k) * ∫ v in a'..b', v^l) := by
  rw [(h.inner hab').int hab]
  simp only [Finset.sum_mul]
  exact Finset.sum_congr rfl fun k _ => Finset.sum_congr rfl fun l _ => by ring

theorem Has3.slice {N1 N2 N3 : Nat} {c : Nat → Nat → Nat → ℝ} {f : ℝ → ℝ → ℝ → ℝ} {a b a' b' a'' b'' : ℝ} (h : Has3 N1 N2 N3 c f a b a' b' a'' b'') (u : ℝ)
    (h1 : a < u) (h2 : u < b) : Has2 N2 N3 (fun l m => ∑ k ∈ Finset.range N1, c k l m * u^k) (f u) a' b' a'' b'' := by
  intro v w h3 h4 h5 h6
  rw [h u v w h1 h2 h3 h4 h5 h6, Finset.sum_comm]
  refine Finset.sum_congr rfl fun l _ => ?_
  rw [Finset.sum_comm]
  refine Finset.sum_congr rfl fun m _ => ?_
  rw [Finset.sum_mul]
  exact Finset.sum_congr rfl fun k _ => by ring

theorem Has3.inner {N1 N2 N3 : Nat} {c : Nat → Nat → Nat → ℝ} {f : ℝ → ℝ → ℝ → ℝ} {a b a' b' a'' b'' : ℝ} (h : Has3 N1 N2 N3 c f a b a' b' a'' b'') (h' : a' ≤ b') (h'' : a'' ≤ b'') :
    Has1 N1 (fun k => ∑ l ∈ Finset.range N2, ∑ m ∈ Finset.range N3, c k l m * ((∫ v in a'..b', v^l) * ∫ w in a''..b'', w^m))
      (fun u => ∫ v in a'..b', ∫ w in a''..b'', f u v w) a b := by
  intro u h1 h2
  dsimp only
  rw [(h.slice u h1 h2).int h' h'']
  simp only [Finset.sum_mul]
  symm
  rw [Finset.sum_comm]
  refine Finset.sum_congr rfl fun l _ => ?_
  rw [Finset.sum_comm]
  refine Finset.sum_congr rfl fun m _ => Finset.sum_congr rfl fun k _ => ?_
  ring

theorem Has3.int {N1 N2 N3 : Nat} {c : Nat → Nat → Nat → ℝ} {f : ℝ → ℝ → ℝ → ℝ} {a b a' b' a'' b'' : ℝ} (h : Has3 N1 N2 N3 c f a b a' b' a'' b'') (hab : a ≤ b) (h' : a' ≤ b')
    (h'' : a'' ≤ b'') : ∫ u in a..b, ∫ v in a'..b', ∫ w in a''..b'', f u v w =
      ∑ k ∈ Finset.range N1, ∑ l ∈ Finset.range N2, ∑ m ∈ Finset.range N3, c k l m * ((∫ u in a..b, u^k) * (∫ v in a'..b', v^l) * ∫ w in a''..b'', w^m) := by
  rw [(h.inner h' h'').int hab]
  simp only [Finset.sum_mul]
  exact Finset.sum_congr rfl fun k _ => Finset.sum_congr rfl fun l _ => Finset.sum_congr rfl fun m _ => by ring

/-! ### Splitting the domain into elements -/

theorem split1 {N : Nat} (c : Nat → Nat → ℝ) (f : ℝ → ℝ) (g : Nat → ℝ) (hg : Monotone g) (m : Nat) (h : ∀ e, e < m → Has1 N (c e) f (g e) (g (e+1))) :
    ∫ u in (g 0)..(g m), f u = ∑ e ∈ Finset.range m, ∫ u in (g e)..(g (e+1)), f u :=
  (intervalIntegral.sum_integral_adjacent_intervals fun e he => (h e he).integrable (hg (Nat.le_succ e))).symm

theorem split2 {N1 N2 : Nat} (c : Nat → Nat → Nat → Nat → ℝ) (f : ℝ → ℝ → ℝ) (g h : Nat → ℝ) (hg : Monotone g) (hh : Monotone h) (m m' : Nat)
    (H : ∀ e e', e < m → e' < m' → Has2 N1 N2 (c e e') f (g e) (g (e+1)) (h e') (h (e'+1))) :
    ∫ u in (g 0)..(g m), ∫ v in (h 0)..(h m'), f u v =
      ∑ e ∈ Finset.range m, ∑ e' ∈ Finset.range m', ∫ u in (g e)..(g (e+1)), ∫ v in (h e')..(h (e'+1)), f u v := by
  have hin : ∀ e, e < m → ∀ u, g e < u → u < g (e+1) → ∫ v in (h 0)..(h m'), f u v = ∑ e' ∈ Finset.range m', ∫ v in (h e')..(h (e'+1)), f u v :=
    fun e he u h1 h2 => split1 (fun e' => fun l => ∑ k ∈ Finset.range N1, c e e' k l * u^k) (f u) h hh m' (fun e' he' => (H e e' he he').slice u h1 h2)
  have hh1 : ∀ e, e < m → Has1 N1 (fun k => ∑ e' ∈ Finset.range m', ∑ l ∈ Finset.range N2, c e e' k l * ∫ v in (h e')..(h (e'+1)), v^l)
      (fun u => ∫ v in (h 0)..(h m'), f u v) (g e) (g (e+1)) := by
    intro e he u h1 h2
    dsimp only
    rw [hin e he u h1 h2]
    simp only [Finset.sum_mul]
    rw [Finset.sum_comm]
    refine Finset.sum_congr rfl fun e' he' => ?_
    have := (H e e' he (Finset.mem_range.1 he')).inner (hh (Nat.le_succ e')) u h1 h2
    dsimp only at this
    rw [this]
    simp only [Finset.sum_mul]
  rw [split1 _ _ g hg m hh1]
  refine Finset.sum_congr rfl fun e he => ?_
  rw [Finset.mem_range] at he
  rw [congrIoo (hg (Nat.le_succ e)) (hin e he)]
  exact intervalIntegral.integral_finset_sum fun e' he' =>
    ((H e e' he (Finset.mem_range.1 he')).inner (hh (Nat.le_succ e'))).integrable (hg (Nat.le_succ e))

theorem split3 {N1 N2 N3 : Nat} (c : Nat → Nat → Nat → Nat → Nat → Nat → ℝ) (f : ℝ → ℝ → ℝ → ℝ) (g h q : Nat → ℝ) (hg : Monotone g) (hh : Monotone h) (hq : Monotone q)
    (m m' m'' : Nat)
    (H : ∀ e e' e'', e < m → e' < m' → e'' < m'' → Has3 N1 N2 N3 (c e e' e'') f (g e) (g (e+1)) (h e') (h (e'+1)) (q e'') (q (e''+1))) :
    ∫ u in (g 0)..(g m), ∫ v in (h 0)..(h m'), ∫ w in (q 0)..(q m''), f u v w =
      ∑ e ∈ Finset.range m, ∑ e' ∈ Finset.range m', ∑ e'' ∈ Finset.range m'',
        ∫ u in (g e)..(g (e+1)), ∫ v in (h e')..(h (e'+1)), ∫ w in (q e'')..(q (e''+1)), f u v w := by
  have hin : ∀ e, e < m → ∀ u, g e < u → u < g (e+1) → ∫ v in (h 0)..(h m'), ∫ w in (q 0)..(q m''), f u v w =
      ∑ e' ∈ Finset.range m', ∑ e'' ∈ Finset.range m'', ∫ v in (h e')..(h (e'+1)), ∫ w in (q e'')..(q (e''+1)), f u v w :=
    fun e he u h1 h2 => split2 (fun e' e'' => fun l n => ∑ k ∈ Finset.range N1, c e e' e'' k l n * u^k) (f u) h q hh hq m' m''
      (fun e' e'' he' he'' => (H e e' e'' he he' he'').slice u h1 h2)
  have hone : ∀ e e' e'', e < m → e' < m' → e'' < m'' → _ := fun e e' e'' he he' he'' => (H e e' e'' he he' he'').inner (hh (Nat.le_succ e')) (hq (Nat.le_succ e''))
  have hh1 : ∀ e, e < m → Has1 N1 (fun k => ∑ e' ∈ Finset.range m', ∑ e'' ∈ Finset.range m'', ∑ l ∈ Finset.range N2, ∑ n ∈ Finset.range N3,
      c e e' e'' k l n * ((∫ v in (h e')..(h (e'+1)), v^l) * ∫ w in (q e'')..(q (e''+1)), w^n))
      (fun u => ∫ v in (h 0)..(h m'), ∫ w in (q 0)..(q m''), f u v w) (g e) (g (e+1)) := by
    intro e he u h1 h2
    dsimp only
    rw [hin e he u h1 h2]
    have e1 : ∀ e' ∈ Finset.range m', ∀ e'' ∈ Finset.range m'', ∫ v in (h e')..(h (e'+1)), ∫ w in (q e'')..(q (e''+1)), f u v w =
        ∑ k ∈ Finset.range N1, (∑ l ∈ Finset.range N2, ∑ n ∈ Finset.range N3,
          c e e' e'' k l n * ((∫ v in (h e')..(h (e'+1)), v^l) * ∫ w in (q e'')..(q (e''+1)), w^n)) * u^k :=
      fun e' he' e'' he'' => hone e e' e'' he (Finset.mem_range.1 he') (Finset.mem_range.1 he'') u h1 h2
    rw [Finset.sum_congr rfl fun e' he' => Finset.sum_congr rfl fun e'' he'' => e1 e' he' e'' he'']
    simp only [Finset.sum_mul]
    symm
    rw [Finset.sum_comm]
    exact Finset.sum_congr rfl fun e' _ => by rw [Finset.sum_comm]
  rw [split1 _ _ g hg m hh1]
  refine Finset.sum_congr rfl fun e he => ?_
  rw [Finset.mem_range] at he
  have hint : ∀ e' ∈ Finset.range m', ∀ e'' ∈ Finset.range m'', IntervalIntegrable (fun u => ∫ v in (h e')..(h (e'+1)), ∫ w in (q e'')..(q (e''+1)), f u v w) volume (g e) (g (e+1)) :=
    fun e' he' e'' he'' => (hone e e' e'' he (Finset.mem_range.1 he') (Finset.mem_range.1 he'')).integrable (hg (Nat.le_succ e))
  rw [congrIoo (hg (Nat.le_succ e)) (hin e he)]
  have hint2 : ∀ e' ∈ Finset.range m', IntervalIntegrable (fun u => ∑ e'' ∈ Finset.range m'', ∫ v in (h e')..(h (e'+1)), ∫ w in (q e'')..(q (e''+1)), f u v w) volume (g e) (g (e+1)) := by
    intro e' he'
    have := IntervalIntegrable.sum (Finset.range m'') fun e'' he'' => hint e' he' e'' he''
    rw [Finset.sum_fn] at this
    exact this
  refine (intervalIntegral.integral_finset_sum hint2).trans ?_
  exact Finset.sum_congr rfl fun e' he' => intervalIntegral.integral_finset_sum fun e'' he'' => hint e' he' e'' he''

end IFEM.Quad
