import Mathlib.Analysis.Calculus.MeanValue
import Mathlib.Analysis.Calculus.Deriv.Pow
import Mathlib.Analysis.Normed.Operator.BoundedLinearMaps
import Mathlib.Analysis.Normed.Operator.NormedSpace
import Mathlib.Analysis.Asymptotics.Lemmas
/-!
# Taylor expansions of one-step methods
-/
namespace IFEM.Lemmas.RK
open Asymptotics Filter Topology

variable {X : Type} [NormedAddCommGroup X] [NormedSpace ℝ X]

/-- Equality up to terms of order `h^m`. -/
def EqM (m : Nat) (u v : ℝ → X) : Prop := (fun h => u h - v h) =O[𝓝 0] fun h : ℝ => h ^ m

theorem EqM.refl (m : Nat) (u : ℝ → X) : EqM m u u := by
  unfold EqM; simp only [sub_self]; exact isBigO_zero _ _

theorem EqM.symm {m : Nat} {u v : ℝ → X} (h : EqM m u v) : EqM m v u := by
  unfold EqM at *
  have := h.neg_left
  simpa only [neg_sub] using this

theorem EqM.trans {m : Nat} {u v w : ℝ → X} (h : EqM m u v) (h' : EqM m v w) : EqM m u w := by
  unfold EqM at *
  have := h.add h'
  simpa only [sub_add_sub_cancel] using this

theorem EqM.add {m : Nat} {u v u' v' : ℝ → X} (h : EqM m u v) (h' : EqM m u' v') : EqM m (fun t => u t + u' t) (fun t => v t + v' t) := by
  unfold EqM at *
  have := IsBigO.add h h'
  refine this.congr_left fun t => ?_
  module

theorem EqM.const_smul {m : Nat} {u v : ℝ → X} (c : ℝ) (h : EqM m u v) : EqM m (fun t => c • u t) (fun t => c • v t) := by
  unfold EqM at *
  have := IsBigO.const_smul_left h c
  refine this.congr_left fun t => ?_
  simp only [Pi.smul_apply, smul_sub]

theorem EqM.h_smul {m : Nat} {u v : ℝ → X} (h : EqM m u v) : EqM (m + 1) (fun t => t • u t) (fun t => t • v t) := by
  unfold EqM at *
  have := (isBigO_refl (fun t : ℝ => t) (𝓝 0)).smul h
  refine (this.congr_left fun t => ?_).congr_right fun t => ?_
  · rw [smul_sub]
  · rw [smul_eq_mul, pow_succ, mul_comm]

theorem pow_isBigO {m n : Nat} (h : m ≤ n) : (fun t : ℝ => t ^ n) =O[𝓝 0] fun t : ℝ => t ^ m := by
  have h1 : (fun t : ℝ => t ^ (n - m)) =O[𝓝 0] fun _ : ℝ => (1:ℝ) := by
    exact (continuous_pow (n - m)).continuousAt.tendsto.isBigO_one ℝ
  have := (isBigO_refl (fun t : ℝ => t ^ m) (𝓝 0)).mul h1
  refine (this.congr_left fun t => ?_).congr_right fun t => ?_
  · rw [← pow_add]; congr 1; omega
  · rw [mul_one]

theorem EqM.mono {m n : Nat} {u v : ℝ → X} (h : EqM n u v) (hmn : m ≤ n) : EqM m u v :=
  IsBigO.trans h (pow_isBigO hmn)

theorem EqM.of_eq {m : Nat} {u v : ℝ → X} (h : ∀ t, u t = v t) : EqM m u v := by
  rw [show u = v from funext h]; exact EqM.refl m v

/-- A bounded function times `h^n` is negligible. -/
theorem EqM.drop {m n : Nat} (hmn : m ≤ n) {u r : ℝ → X} (hr : Continuous r) : EqM m (fun t => u t + t ^ n • r t) u := by
  unfold EqM
  have h1 : r =O[𝓝 0] fun _ : ℝ => (1:ℝ) := hr.continuousAt.tendsto.isBigO_one ℝ
  have := (pow_isBigO hmn).smul h1
  refine (this.congr_left fun t => ?_).congr_right fun t => ?_
  · module
  · rw [smul_eq_mul, mul_one]

theorem EqM.bdd {m : Nat} {u v : ℝ → X} (h : EqM m u v) (hv : Continuous v) : u =O[𝓝 0] fun _ : ℝ => (1:ℝ) := by
  have h1 : v =O[𝓝 0] fun _ : ℝ => (1:ℝ) := hv.continuousAt.tendsto.isBigO_one ℝ
  have h2 := (EqM.mono h (Nat.zero_le m))
  unfold EqM at h2
  simp only [pow_zero] at h2
  exact (h2.add h1).congr_left fun t => by abel

/-- Bounded linear, bilinear and trilinear maps. -/
structure Lin1 (L : X → X) : Prop where
  add : ∀ a b, L (a + b) = L a + L b
  smul : ∀ (c : ℝ) a, L (c • a) = c • L a
  bound : ∃ c, ∀ a, ‖L a‖ ≤ c * ‖a‖

structure Lin2 (B : X → X → X) : Prop where
  add1 : ∀ a b c, B (a + b) c = B a c + B b c
  add2 : ∀ a b c, B a (b + c) = B a b + B a c
  smul1 : ∀ (c : ℝ) a b, B (c • a) b = c • B a b
  smul2 : ∀ (c : ℝ) a b, B a (c • b) = c • B a b
  bound : ∃ c, ∀ a b, ‖B a b‖ ≤ c * (‖a‖ * ‖b‖)

structure Lin3 (C : X → X → X → X) : Prop where
  add1 : ∀ a b c d, C (a + b) c d = C a c d + C b c d
  add2 : ∀ a b c d, C a (b + c) d = C a b d + C a c d
  add3 : ∀ a b c d, C a b (c + d) = C a b c + C a b d
  smul1 : ∀ (s : ℝ) a b c, C (s • a) b c = s • C a b c
  smul2 : ∀ (s : ℝ) a b c, C a (s • b) c = s • C a b c
  smul3 : ∀ (s : ℝ) a b c, C a b (s • c) = s • C a b c
  bound : ∃ k, ∀ a b c, ‖C a b c‖ ≤ k * (‖a‖ * ‖b‖ * ‖c‖)

theorem EqM.clm {m : Nat} {u v : ℝ → X} {L : X → X} (hL : Lin1 L) (h : EqM m u v) : EqM m (fun t => L (u t)) (fun t => L (v t)) := by
  unfold EqM at *
  obtain ⟨c, hc⟩ := hL.bound
  refine IsBigO.trans (g := fun t => u t - v t) (IsBigO.of_bound c (Eventually.of_forall fun t => ?_)) h
  have e : L (u t) - L (v t) = L (u t - v t) := by
    have := hL.add (u t - v t) (v t)
    rw [sub_add_cancel] at this
    rw [this, add_sub_cancel_right]
  rw [e]; exact hc _

theorem EqM.bil {m : Nat} {u v u' v' : ℝ → X} {B : X → X → X} (hB : Lin2 B) (h : EqM m u v) (h' : EqM m u' v')
    (hv : Continuous v) (hv' : Continuous v') : EqM m (fun t => B (u t) (u' t)) (fun t => B (v t) (v' t)) := by
  have b1 : v =O[𝓝 0] fun _ : ℝ => (1:ℝ) := hv.continuousAt.tendsto.isBigO_one ℝ
  have b2 := h'.bdd hv'
  obtain ⟨k, hk⟩ := hB.bound
  have tri : ∀ {a b : ℝ → X} {l n : ℝ → ℝ}, a =O[𝓝 0] l → b =O[𝓝 0] n → (fun t => B (a t) (b t)) =O[𝓝 0] fun t => l t * n t := by
    intro a b l n ha hb
    refine IsBigO.trans (IsBigO.of_bound k (Eventually.of_forall fun t => ?_)) (ha.norm_left.mul hb.norm_left)
    rw [Real.norm_of_nonneg (by positivity)]
    exact hk _ _
  unfold EqM at *
  have e1 := tri h b2
  have e2 := tri b1 h'
  simp only [mul_one, one_mul] at e1 e2
  refine (e1.add e2).congr_left fun t => ?_
  have c1 := hB.add1 (u t - v t) (v t) (u' t)
  have c2 := hB.add2 (v t) (u' t - v' t) (v' t)
  rw [sub_add_cancel] at c1 c2
  dsimp only; rw [c1, c2]; abel

theorem EqM.tri {m : Nat} {u v u' v' u'' v'' : ℝ → X} {C : X → X → X → X} (hC : Lin3 C) (h : EqM m u v) (h' : EqM m u' v')
    (h'' : EqM m u'' v'') (hv : Continuous v) (hv' : Continuous v') (hv'' : Continuous v'') :
    EqM m (fun t => C (u t) (u' t) (u'' t)) (fun t => C (v t) (v' t) (v'' t)) := by
  have b1 : v =O[𝓝 0] fun _ : ℝ => (1:ℝ) := hv.continuousAt.tendsto.isBigO_one ℝ
  have b1' : v' =O[𝓝 0] fun _ : ℝ => (1:ℝ) := hv'.continuousAt.tendsto.isBigO_one ℝ
  have b2' := h'.bdd hv'
  have b2 := h''.bdd hv''
  obtain ⟨k, hk⟩ := hC.bound
  have tri : ∀ {a b c : ℝ → X} {l n k : ℝ → ℝ}, a =O[𝓝 0] l → b =O[𝓝 0] n → c =O[𝓝 0] k →
      (fun t => C (a t) (b t) (c t)) =O[𝓝 0] fun t => l t * n t * k t := by
    intro a b c l n k' ha hb hc
    refine IsBigO.trans (IsBigO.of_bound k (Eventually.of_forall fun t => ?_)) ((ha.norm_left.mul hb.norm_left).mul hc.norm_left)
    rw [Real.norm_of_nonneg (by positivity)]
    exact hk _ _ _
  unfold EqM at *
  have e1 := tri h b2' b2
  have e2 := tri b1 h' b2
  have e3 := tri b1 b1' h''
  simp only [mul_one, one_mul] at e1 e2 e3
  refine ((e1.add e2).add e3).congr_left fun t => ?_
  have c1 := hC.add1 (u t - v t) (v t) (u' t) (u'' t)
  have c2 := hC.add2 (v t) (u' t - v' t) (v' t) (u'' t)
  have c3 := hC.add3 (v t) (v' t) (u'' t - v'' t) (v'' t)
  rw [sub_add_cancel] at c1 c2 c3
  dsimp only; rw [c1, c2, c3]; abel

structure Lin4 (C : X → X → X → X → X) : Prop where
  add1 : ∀ a a' b c d, C (a + a') b c d = C a b c d + C a' b c d
  add2 : ∀ a b b' c d, C a (b + b') c d = C a b c d + C a b' c d
  add3 : ∀ a b c c' d, C a b (c + c') d = C a b c d + C a b c' d
  add4 : ∀ a b c d d', C a b c (d + d') = C a b c d + C a b c d'
  smul1 : ∀ (s : ℝ) a b c d, C (s • a) b c d = s • C a b c d
  smul2 : ∀ (s : ℝ) a b c d, C a (s • b) c d = s • C a b c d
  smul3 : ∀ (s : ℝ) a b c d, C a b (s • c) d = s • C a b c d
  smul4 : ∀ (s : ℝ) a b c d, C a b c (s • d) = s • C a b c d
  bound : ∃ k, ∀ a b c d, ‖C a b c d‖ ≤ k * (‖a‖ * ‖b‖ * ‖c‖ * ‖d‖)

theorem EqM.quad {m : Nat} {u v : ℝ → X} {C : X → X → X → X → X} (hC : Lin4 C) (h : EqM m u v) (hv : Continuous v) :
    EqM m (fun t => C (u t) (u t) (u t) (u t)) (fun t => C (v t) (v t) (v t) (v t)) := by
  have b1 : v =O[𝓝 0] fun _ : ℝ => (1:ℝ) := hv.continuousAt.tendsto.isBigO_one ℝ
  have b2 := h.bdd hv
  obtain ⟨k, hk⟩ := hC.bound
  have tri : ∀ {a b c d : ℝ → X} {l n k p : ℝ → ℝ}, a =O[𝓝 0] l → b =O[𝓝 0] n → c =O[𝓝 0] k → d =O[𝓝 0] p →
      (fun t => C (a t) (b t) (c t) (d t)) =O[𝓝 0] fun t => l t * n t * k t * p t := by
    intro a b c d l n k' p ha hb hc hd
    refine IsBigO.trans (IsBigO.of_bound k (Eventually.of_forall fun t => ?_))
      (((ha.norm_left.mul hb.norm_left).mul hc.norm_left).mul hd.norm_left)
    rw [Real.norm_of_nonneg (by positivity)]
    exact hk _ _ _ _
  unfold EqM at *
  have e1 := tri h b2 b2 b2
  have e2 := tri b1 h b2 b2
  have e3 := tri b1 b1 h b2
  have e4 := tri b1 b1 b1 h
  simp only [mul_one, one_mul] at e1 e2 e3 e4
  refine (((e1.add e2).add e3).add e4).congr_left fun t => ?_
  have c1 := hC.add1 (u t - v t) (v t) (u t) (u t) (u t)
  have c2 := hC.add2 (v t) (u t - v t) (v t) (u t) (u t)
  have c3 := hC.add3 (v t) (v t) (u t - v t) (v t) (u t)
  have c4 := hC.add4 (v t) (v t) (v t) (u t - v t) (v t)
  rw [sub_add_cancel] at c1 c2 c3 c4
  dsimp only; rw [c1, c2, c3, c4]; abel

theorem EqM.pow_smul {m : Nat} (k : Nat) {u v : ℝ → X} (h : EqM m u v) : EqM (m + k) (fun t => t ^ k • u t) (fun t => t ^ k • v t) := by
  induction k with
  | zero => simpa only [pow_zero, one_smul, Nat.add_zero] using h
  | succ k ih =>
    refine EqM.trans (EqM.of_eq fun t => ?_) (EqM.trans ih.h_smul (EqM.of_eq fun t => ?_)) <;> rw [pow_succ]
    · rw [mul_comm, mul_smul]
    · rw [mul_comm, mul_smul]

/-- Fourth order Taylor expansion of a vector field. -/
def TaylorAt (f : X → X) (x0 f0 : X) (f1 : X → X) (f2 : X → X → X) (f3 : X → X → X → X) (f4 : X → X → X → X → X) : Prop :=
  Lin1 f1 ∧ Lin2 f2 ∧ Lin3 f3 ∧ Lin4 f4 ∧
  (fun d => f (x0 + d) - (f0 + f1 d + f2 d d + f3 d d d + f4 d d d d)) =O[𝓝 0] fun d : X => ‖d‖ ^ 5

variable {f : X → X} {x0 f0 : X} {f1 : X → X} {f2 : X → X → X} {f3 : X → X → X → X} {f4 : X → X → X → X → X}

/-- The vector field along a curve. -/
theorem jet (hf : TaylorAt f x0 f0 f1 f2 f3 f4) {m : Nat} (hm1 : 1 ≤ m) (hm5 : m ≤ 5) {δ : ℝ → X} (d1 d2 d3 d4 : X)
    (hδ : EqM m δ fun t => t • d1 + t ^ 2 • d2 + t ^ 3 • d3 + t ^ 4 • d4) :
    EqM m (fun t => f (x0 + δ t)) fun t =>
      f0 + t • f1 d1 + t ^ 2 • (f1 d2 + f2 d1 d1) + t ^ 3 • (f1 d3 + (f2 d1 d2 + f2 d2 d1) + f3 d1 d1 d1)
        + t ^ 4 • (f1 d4 + (f2 d1 d3 + f2 d3 d1) + f2 d2 d2 + (f3 d1 d1 d2 + f3 d1 d2 d1 + f3 d2 d1 d1) + f4 d1 d1 d1 d1) := by
  obtain ⟨l1, l2, l3, l4, hf⟩ := hf
  set D : ℝ → X := fun t => t • d1 + t ^ 2 • d2 + t ^ 3 • d3 + t ^ 4 • d4 with hD
  have hDc : Continuous D := by rw [hD]; fun_prop
  -- δ = O(h)
  have hDo : D =O[𝓝 0] fun t : ℝ => t := by
    have e : EqM 1 (fun t : ℝ => (0:X) + t ^ 1 • (d1 + t • d2 + t ^ 2 • d3 + t ^ 3 • d4)) fun _ => 0 := EqM.drop le_rfl (by fun_prop)
    unfold EqM at e
    simp only [pow_one, sub_zero] at e
    refine e.congr_left fun t => ?_
    rw [hD]; module
  have hδo : δ =O[𝓝 0] fun t : ℝ => t := by
    have e1 := hδ.mono hm1
    unfold EqM at e1
    simp only [pow_one] at e1
    exact (e1.add hDo).congr_left fun t => by abel
  have hδt : Tendsto δ (𝓝 0) (𝓝 0) := hδo.trans_tendsto tendsto_id
  have r1 : EqM m (fun t => f (x0 + δ t)) fun t =>
      f0 + f1 (δ t) + f2 (δ t) (δ t) + f3 (δ t) (δ t) (δ t) + f4 (δ t) (δ t) (δ t) (δ t) := by
    refine EqM.mono (n := 5) ?_ hm5
    unfold EqM
    have := hf.comp_tendsto hδt
    exact this.trans (hδo.norm_left.pow 5)
  have r2 : EqM m (fun t => f0 + f1 (δ t) + f2 (δ t) (δ t) + f3 (δ t) (δ t) (δ t) + f4 (δ t) (δ t) (δ t) (δ t))
      fun t => f0 + f1 (D t) + f2 (D t) (D t) + f3 (D t) (D t) (D t) + f4 (D t) (D t) (D t) (D t) :=
    ((((EqM.refl m fun _ => f0).add (hδ.clm l1)).add (EqM.bil l2 hδ hδ hDc hDc)).add
      (EqM.tri l3 hδ hδ hδ hDc hDc hDc)).add (EqM.quad l4 hδ hDc)
  refine r1.trans (r2.trans (EqM.mono (n := 5) ?_ hm5))
  -- truncation of the products
  set e : ℝ → X := fun t => d1 + t • d2 + t ^ 2 • d3 + t ^ 3 • d4 with he
  have hDe : ∀ t, D t = t • e t := fun t => by rw [hD, he]; module
  have t1 : EqM 1 e fun _ => d1 := by
    refine EqM.trans (EqM.of_eq fun t => ?_) (EqM.drop (n := 1) le_rfl (r := fun t => d2 + t • d3 + t ^ 2 • d4) (by fun_prop))
    rw [he]; module
  have t2 : EqM 2 e fun t => d1 + t • d2 := by
    refine EqM.trans (EqM.of_eq fun t => ?_) (EqM.drop (n := 2) le_rfl (r := fun t => d3 + t • d4) (by fun_prop))
    rw [he]; module
  have t3 : EqM 3 e fun t => d1 + t • d2 + t ^ 2 • d3 := by
    refine EqM.trans (EqM.of_eq fun t => ?_) (EqM.drop (n := 3) le_rfl (r := fun _ => d4) (by fun_prop))
    rw [he]
  have q4 : EqM 5 (fun t => f4 (D t) (D t) (D t) (D t)) fun t => t ^ 4 • f4 d1 d1 d1 d1 := by
    refine EqM.trans (EqM.of_eq fun t => ?_) ((EqM.quad l4 t1 continuous_const).pow_smul 4)
    rw [hDe, l4.smul1, l4.smul2, l4.smul3, l4.smul4]; module
  have q3 : EqM 5 (fun t => f3 (D t) (D t) (D t)) fun t => t ^ 3 • (f3 d1 d1 d1 + t • (f3 d1 d1 d2 + f3 d1 d2 d1 + f3 d2 d1 d1)) := by
    refine EqM.trans (EqM.of_eq fun t => ?_) (EqM.trans ((EqM.tri l3 t2 t2 t2 (by fun_prop) (by fun_prop) (by fun_prop)).pow_smul 3)
      (EqM.pow_smul (m := 2) 3 (EqM.trans (EqM.of_eq fun t => ?_)
        (EqM.drop (n := 2) le_rfl (r := fun t => f3 d1 d2 d2 + f3 d2 d1 d2 + f3 d2 d2 d1 + t • f3 d2 d2 d2) (by fun_prop)))))
    · rw [hDe, l3.smul1, l3.smul2, l3.smul3]; module
    · simp only [l3.add1, l3.add2, l3.add3, l3.smul1, l3.smul2, l3.smul3]; module
  have q2 : EqM 5 (fun t => f2 (D t) (D t))
      fun t => t ^ 2 • (f2 d1 d1 + t • (f2 d1 d2 + f2 d2 d1) + t ^ 2 • ((f2 d1 d3 + f2 d3 d1) + f2 d2 d2)) := by
    refine EqM.trans (EqM.of_eq fun t => ?_) (EqM.trans ((EqM.bil l2 t3 t3 (by fun_prop) (by fun_prop)).pow_smul 2)
      (EqM.pow_smul (m := 3) 2 (EqM.trans (EqM.of_eq fun t => ?_)
        (EqM.drop (n := 3) le_rfl (r := fun t => f2 d2 d3 + f2 d3 d2 + t • f2 d3 d3) (by fun_prop)))))
    · rw [hDe, l2.smul1, l2.smul2]; module
    · simp only [l2.add1, l2.add2, l2.smul1, l2.smul2]; module
  refine EqM.trans ((((EqM.refl 5 fun t => f0 + f1 (D t)).add q2).add q3).add q4) (EqM.of_eq fun t => ?_)
  rw [hD]
  simp only [l1.add, l1.smul]
  module

/-- Integration of an estimate of the derivative. -/
theorem integrate {m : Nat} {e e' : ℝ → X} (he : ∀ᶠ t in 𝓝 (0:ℝ), HasDerivAt e (e' t) t) (h0 : e 0 = 0)
    (hO : e' =O[𝓝 0] fun t : ℝ => t ^ m) : e =O[𝓝 0] fun t : ℝ => t ^ (m + 1) := by
  obtain ⟨c, hc⟩ := hO.bound
  obtain ⟨ε, hε, hb⟩ := Metric.eventually_nhds_iff_ball.mp (he.and hc)
  refine IsBigO.of_bound c ?_
  refine Metric.eventually_nhds_iff_ball.mpr ⟨ε, hε, fun t ht => ?_⟩
  have hseg : ∀ x ∈ segment ℝ (0:ℝ) t, x ∈ Metric.ball (0:ℝ) ε := fun x hx =>
    (convex_ball (0:ℝ) ε).segment_subset (Metric.mem_ball_self hε) ht hx
  have habs : ∀ x ∈ segment ℝ (0:ℝ) t, |x| ≤ |t| := by
    intro x hx
    obtain ⟨a, b, ha, hb, hab, rfl⟩ := hx
    simp only [smul_eq_mul, mul_zero, zero_add]
    rw [abs_mul, abs_of_nonneg hb]
    have : b ≤ 1 := by linarith
    nlinarith [abs_nonneg t]
  have hc0 : 0 ≤ c ∨ t = 0 := by
    by_cases ht0 : t = 0
    · exact Or.inr ht0
    · left
      have h1 := (hb t ht).2
      have h2 : 0 < ‖t ^ m‖ := norm_pos_iff.mpr (pow_ne_zero _ ht0)
      by_contra hneg
      push Not at hneg
      have : c * ‖t ^ m‖ < 0 := mul_neg_of_neg_of_pos hneg h2
      linarith [norm_nonneg (e' t)]
  rcases hc0 with hc0 | rfl
  · have := (convex_segment (0:ℝ) t).norm_image_sub_le_of_norm_hasDerivWithin_le (f := e) (f' := e') (C := c * |t| ^ m)
      (fun x hx => (hb x (hseg x hx)).1.hasDerivWithinAt)
      (fun x hx => by
        refine (hb x (hseg x hx)).2.trans ?_
        rw [norm_pow, Real.norm_eq_abs]
        exact mul_le_mul_of_nonneg_left (pow_le_pow_left₀ (abs_nonneg x) (habs x hx) m) hc0)
      (left_mem_segment ℝ 0 t) (right_mem_segment ℝ 0 t)
    rw [h0, sub_zero, sub_zero] at this
    rw [norm_pow, Real.norm_eq_abs, pow_succ, ← mul_assoc]
    rw [Real.norm_eq_abs] at this
    exact this
  · rw [h0]; simp

theorem poly_deriv (x0 d1 d2 d3 d4 d5 : X) (t : ℝ) :
    HasDerivAt (fun t : ℝ => x0 + (t • d1 + t ^ 2 • d2 + t ^ 3 • d3 + t ^ 4 • d4) + t ^ 5 • d5)
      (d1 + (2 * t) • d2 + (3 * t ^ 2) • d3 + (4 * t ^ 3) • d4 + (5 * t ^ 4) • d5) t := by
  have e1 : HasDerivAt (fun t : ℝ => t • d1) ((1:ℝ) • d1) t := (hasDerivAt_id t).smul_const d1
  have en : ∀ (n : ℕ) (d : X), HasDerivAt (fun t : ℝ => t ^ n • d) (((n:ℝ) * t ^ (n - 1)) • d) t := fun n d => (hasDerivAt_pow n t).smul_const d
  have := (((((e1.add (en 2 d2)).add (en 3 d3)).add (en 4 d4)).const_add x0).add (en 5 d5))
  refine this.congr_deriv ?_
  push_cast
  simp only [Nat.add_one_sub_one, Nat.reduceSub, pow_one, one_smul]

/-- The Taylor polynomial of the solution of `y' = f(y)`, `y(0) = x0`. -/
theorem solution_expansion (hf : TaylorAt f x0 f0 f1 f2 f3 f4) {y : ℝ → X} (hy : ∀ᶠ t in 𝓝 (0:ℝ), HasDerivAt y (f (y t)) t) (hy0 : y 0 = x0) :
    EqM 6 y fun t => x0 + (t • f0 + t ^ 2 • ((1/2:ℝ) • f1 f0) + t ^ 3 • ((1/6:ℝ) • f1 (f1 f0) + (1/3:ℝ) • f2 f0 f0)
      + t ^ 4 • ((1/24:ℝ) • f1 (f1 (f1 f0)) + (1/12:ℝ) • f1 (f2 f0 f0) + (1/8:ℝ) • (f2 f0 (f1 f0) + f2 (f1 f0) f0) + (1/4:ℝ) • f3 f0 f0 f0))
      + t ^ 5 • ((1/120:ℝ) • f1 (f1 (f1 (f1 f0))) + (1/60:ℝ) • f1 (f1 (f2 f0 f0)) + (1/40:ℝ) • f1 (f2 f0 (f1 f0) + f2 (f1 f0) f0)
        + (1/20:ℝ) • f1 (f3 f0 f0 f0) + (1/30:ℝ) • (f2 f0 (f1 (f1 f0)) + f2 (f1 (f1 f0)) f0) + (1/15:ℝ) • (f2 f0 (f2 f0 f0) + f2 (f2 f0 f0) f0)
        + (1/20:ℝ) • f2 (f1 f0) (f1 f0) + (1/10:ℝ) • (f3 f0 f0 (f1 f0) + f3 f0 (f1 f0) f0 + f3 (f1 f0) f0 f0) + (1/5:ℝ) • f4 f0 f0 f0 f0) := by
  have hf' := hf
  obtain ⟨l1, l2, l3, l4, _⟩ := hf'
  set d2 : X := (1/2:ℝ) • f1 f0 with h2
  set d3 : X := (1/6:ℝ) • f1 (f1 f0) + (1/3:ℝ) • f2 f0 f0 with h3
  set d4 : X := (1/24:ℝ) • f1 (f1 (f1 f0)) + (1/12:ℝ) • f1 (f2 f0 f0) + (1/8:ℝ) • (f2 f0 (f1 f0) + f2 (f1 f0) f0) + (1/4:ℝ) • f3 f0 f0 f0 with h4
  set d5 : X := (1/120:ℝ) • f1 (f1 (f1 (f1 f0))) + (1/60:ℝ) • f1 (f1 (f2 f0 f0)) + (1/40:ℝ) • f1 (f2 f0 (f1 f0) + f2 (f1 f0) f0)
        + (1/20:ℝ) • f1 (f3 f0 f0 f0) + (1/30:ℝ) • (f2 f0 (f1 (f1 f0)) + f2 (f1 (f1 f0)) f0) + (1/15:ℝ) • (f2 f0 (f2 f0 f0) + f2 (f2 f0 f0) f0)
        + (1/20:ℝ) • f2 (f1 f0) (f1 f0) + (1/10:ℝ) • (f3 f0 f0 (f1 f0) + f3 f0 (f1 f0) f0 + f3 (f1 f0) f0 f0) + (1/5:ℝ) • f4 f0 f0 f0 f0 with h5
  set Y : ℝ → X := fun t => x0 + (t • f0 + t ^ 2 • d2 + t ^ 3 • d3 + t ^ 4 • d4) + t ^ 5 • d5 with hY
  have hYd : ∀ t, HasDerivAt Y (f0 + t • f1 f0 + t ^ 2 • (f1 d2 + f2 f0 f0) + t ^ 3 • (f1 d3 + (f2 f0 d2 + f2 d2 f0) + f3 f0 f0 f0)
        + t ^ 4 • (f1 d4 + (f2 f0 d3 + f2 d3 f0) + f2 d2 d2 + (f3 f0 f0 d2 + f3 f0 d2 f0 + f3 d2 f0 f0) + f4 f0 f0 f0 f0)) t := by
    intro t
    refine (poly_deriv x0 f0 d2 d3 d4 d5 t).congr_deriv ?_
    rw [h5, h4, h3, h2]
    simp only [l1.add, l1.smul, l2.add1, l2.add2, l2.smul1, l2.smul2, l3.add1, l3.add2, l3.add3, l3.smul1, l3.smul2, l3.smul3]
    module
  have step : ∀ m, 1 ≤ m → m ≤ 5 → EqM m y Y → EqM (m + 1) y Y := by
    intro m hm1 hm5 hm
    have hδ : EqM m (fun t => y t - x0) fun t => t • f0 + t ^ 2 • d2 + t ^ 3 • d3 + t ^ 4 • d4 := by
      have h1 : EqM m (fun t => y t - x0) fun t => (t • f0 + t ^ 2 • d2 + t ^ 3 • d3 + t ^ 4 • d4) + t ^ 5 • d5 := by
        refine EqM.trans (EqM.of_eq fun t => sub_eq_add_neg _ _) (EqM.trans (EqM.add hm (EqM.refl m fun _ => -x0)) (EqM.of_eq fun t => ?_))
        rw [hY]; module
      exact h1.trans (EqM.drop hm5 continuous_const)
    have hj := jet hf hm1 hm5 f0 d2 d3 d4 hδ
    have hj' : EqM m (fun t => f (y t)) _ := EqM.trans (EqM.of_eq fun t => by rw [add_sub_cancel]) hj
    have h0 : (fun t => y t - Y t) 0 = 0 := by
      simp only [hY, hy0, zero_smul, ne_eq, OfNat.ofNat_ne_zero, not_false_eq_true, zero_pow, add_zero, sub_self]
    exact integrate (hy.mono fun t ht => ht.sub (hYd t)) h0 hj'
  have base : EqM 1 y Y := by
    have h1 : EqM 1 y fun _ => x0 := by
      unfold EqM
      have := (hy.self_of_nhds).isBigO_sub
      simpa only [hy0, sub_zero, pow_one] using this
    refine h1.trans (EqM.symm (EqM.trans (EqM.of_eq fun t => ?_)
      (EqM.drop (n := 1) (u := fun _ => x0) le_rfl (r := fun t => f0 + t • d2 + t ^ 2 • d3 + t ^ 3 • d4 + t ^ 4 • d5) (by fun_prop))))
    rw [hY]; module
  exact step 5 (by omega) (by omega) (step 4 (by omega) (by omega) (step 3 (by omega) (by omega) (step 2 (by omega) (by omega) (step 1 (by omega) (by omega) base))))

theorem EqM.sum {m n : Nat} {u v : Nat → ℝ → X} (h : ∀ j < n, EqM m (u j) (v j)) (a : Nat → ℝ) :
    EqM m (fun t => ∑ j ∈ Finset.range n, a j • u j t) fun t => ∑ j ∈ Finset.range n, a j • v j t := by
  induction n with
  | zero => simp only [Finset.range_zero, Finset.sum_empty]; exact EqM.refl _ _
  | succ n ih =>
    simp only [Finset.sum_range_succ]
    exact (ih fun j hj => h j (by omega)).add ((h n (by omega)).const_smul (a n))

/-- The elementary weights of a stage. -/
noncomputable def al (a : Nat → Nat → ℝ) (i : Nat) : ℝ := ∑ j ∈ Finset.range i, a i j
noncomputable def wsum (a : Nat → Nat → ℝ) (w : Nat → ℝ) (i : Nat) : ℝ := ∑ j ∈ Finset.range i, a i j * w j

/-- The Taylor polynomial (up to fourth order) of a quantity with elementary weights `w`. -/
noncomputable def tpoly (f0 : X) (f1 : X → X) (f2 : X → X → X) (f3 : X → X → X → X) (f4 : X → X → X → X → X)
    (w0 w1 w2 w3 w4 w5 w6 w7 w8 : ℝ) (v1 v2 v3 v4 v5 v6 v7 v8 v9 : ℝ) (t : ℝ) : X :=
  w0 • f0 + t • (w1 • f1 f0) + t ^ 2 • (w2 • f1 (f1 f0) + w3 • f2 f0 f0)
  + t ^ 3 • (w4 • f1 (f1 (f1 f0)) + w5 • f1 (f2 f0 f0) + w6 • (f2 f0 (f1 f0) + f2 (f1 f0) f0) + w7 • f3 f0 f0 f0 + w8 • (0:X))
  + t ^ 4 • (v1 • f1 (f1 (f1 (f1 f0))) + v2 • f1 (f1 (f2 f0 f0)) + v3 • f1 (f2 f0 (f1 f0) + f2 (f1 f0) f0)
        + v4 • f1 (f3 f0 f0 f0) + v5 • (f2 f0 (f1 (f1 f0)) + f2 (f1 (f1 f0)) f0) + v6 • (f2 f0 (f2 f0 f0) + f2 (f2 f0 f0) f0)
        + v7 • f2 (f1 f0) (f1 f0) + v8 • (f3 f0 f0 (f1 f0) + f3 f0 (f1 f0) f0 + f3 (f1 f0) f0 f0) + v9 • f4 f0 f0 f0 f0)

/-- The Taylor polynomial of stage `i`. -/
noncomputable def spoly (a : Nat → Nat → ℝ) (f0 : X) (f1 : X → X) (f2 : X → X → X) (f3 : X → X → X → X) (f4 : X → X → X → X → X) (i : Nat) (t : ℝ) : X :=
  tpoly f0 f1 f2 f3 f4 1 (al a i) (wsum a (al a) i) (al a i ^ 2) (wsum a (wsum a (al a)) i) (wsum a (fun j => al a j ^ 2) i)
    (al a i * wsum a (al a) i) (al a i ^ 3) 0
    (wsum a (wsum a (wsum a (al a))) i) (wsum a (wsum a fun j => al a j ^ 2) i) (wsum a (fun j => al a j * wsum a (al a) j) i)
    (wsum a (fun j => al a j ^ 3) i) (al a i * wsum a (wsum a (al a)) i) (al a i * wsum a (fun j => al a j ^ 2) i)
    (wsum a (al a) i ^ 2) (al a i ^ 2 * wsum a (al a) i) (al a i ^ 4) t

theorem spoly_continuous (a : Nat → Nat → ℝ) (f0 : X) (f1 : X → X) (f2 : X → X → X) (f3 : X → X → X → X) (f4 : X → X → X → X → X) (i : Nat) :
    Continuous (spoly a f0 f1 f2 f3 f4 i) := by
  unfold spoly tpoly; fun_prop

/-- Sums of stage polynomials. -/
theorem spoly_sum (a : Nat → Nat → ℝ) (b : Nat → ℝ) (n : Nat) (t : ℝ) :
    ∑ j ∈ Finset.range n, b j • spoly a f0 f1 f2 f3 f4 j t =
    tpoly f0 f1 f2 f3 f4 (∑ j ∈ Finset.range n, b j) (∑ j ∈ Finset.range n, b j * al a j) (∑ j ∈ Finset.range n, b j * wsum a (al a) j)
      (∑ j ∈ Finset.range n, b j * al a j ^ 2) (∑ j ∈ Finset.range n, b j * wsum a (wsum a (al a)) j)
      (∑ j ∈ Finset.range n, b j * wsum a (fun j => al a j ^ 2) j) (∑ j ∈ Finset.range n, b j * (al a j * wsum a (al a) j))
      (∑ j ∈ Finset.range n, b j * al a j ^ 3) 0
      (∑ j ∈ Finset.range n, b j * wsum a (wsum a (wsum a (al a))) j) (∑ j ∈ Finset.range n, b j * wsum a (wsum a fun j => al a j ^ 2) j)
      (∑ j ∈ Finset.range n, b j * wsum a (fun j => al a j * wsum a (al a) j) j) (∑ j ∈ Finset.range n, b j * wsum a (fun j => al a j ^ 3) j)
      (∑ j ∈ Finset.range n, b j * (al a j * wsum a (wsum a (al a)) j)) (∑ j ∈ Finset.range n, b j * (al a j * wsum a (fun j => al a j ^ 2) j))
      (∑ j ∈ Finset.range n, b j * wsum a (al a) j ^ 2) (∑ j ∈ Finset.range n, b j * (al a j ^ 2 * wsum a (al a) j))
      (∑ j ∈ Finset.range n, b j * al a j ^ 4) t := by
  induction n with
  | zero => simp only [Finset.range_zero, Finset.sum_empty, tpoly, zero_smul, add_zero, smul_zero]
  | succ n ih =>
    simp only [Finset.sum_range_succ]
    rw [ih]
    unfold spoly tpoly
    module

/-- The stages of an explicit Runge-Kutta method. -/
theorem stage_expansion (hf : TaylorAt f x0 f0 f1 f2 f3 f4) (a : Nat → Nat → ℝ) (s : Nat) (k : Nat → ℝ → X)
    (hk : ∀ i < s, ∀ t, k i t = f (x0 + t • ∑ j ∈ Finset.range i, a i j • k j t)) : ∀ i < s, EqM 5 (k i) (spoly a f0 f1 f2 f3 f4 i) := by
  intro i
  induction i using Nat.strong_induction_on with
  | _ i ih =>
    intro hi
    have hf' := hf
    obtain ⟨l1, l2, l3, l4, _⟩ := hf'
    have h1 := (EqM.sum (n := i) (fun j hj => ih j hj (by omega)) (a i)).h_smul.mono (show 5 ≤ 5 + 1 by omega)
    have h2 : EqM 5 (fun t : ℝ => t • ∑ j ∈ Finset.range i, a i j • k j t) fun t =>
        t • (al a i • f0) + t ^ 2 • (wsum a (al a) i • f1 f0) + t ^ 3 • (wsum a (wsum a (al a)) i • f1 (f1 f0) + wsum a (fun j => al a j ^ 2) i • f2 f0 f0)
        + t ^ 4 • (wsum a (wsum a (wsum a (al a))) i • f1 (f1 (f1 f0)) + wsum a (wsum a fun j => al a j ^ 2) i • f1 (f2 f0 f0)
          + wsum a (fun j => al a j * wsum a (al a) j) i • (f2 f0 (f1 f0) + f2 (f1 f0) f0) + wsum a (fun j => al a j ^ 3) i • f3 f0 f0 f0) := by
      refine h1.trans (EqM.trans (EqM.of_eq fun t => ?_) (EqM.drop (n := 5) le_rfl (r := fun _ =>
        wsum a (wsum a (wsum a (wsum a (al a)))) i • f1 (f1 (f1 (f1 f0))) + wsum a (wsum a (wsum a fun j => al a j ^ 2)) i • f1 (f1 (f2 f0 f0))
        + wsum a (wsum a fun j => al a j * wsum a (al a) j) i • f1 (f2 f0 (f1 f0) + f2 (f1 f0) f0)
        + wsum a (wsum a fun j => al a j ^ 3) i • f1 (f3 f0 f0 f0)
        + wsum a (fun j => al a j * wsum a (wsum a (al a)) j) i • (f2 f0 (f1 (f1 f0)) + f2 (f1 (f1 f0)) f0)
        + wsum a (fun j => al a j * wsum a (fun j => al a j ^ 2) j) i • (f2 f0 (f2 f0 f0) + f2 (f2 f0 f0) f0)
        + wsum a (fun j => wsum a (al a) j ^ 2) i • f2 (f1 f0) (f1 f0)
        + wsum a (fun j => al a j ^ 2 * wsum a (al a) j) i • (f3 f0 f0 (f1 f0) + f3 f0 (f1 f0) f0 + f3 (f1 f0) f0 f0)
        + wsum a (fun j => al a j ^ 4) i • f4 f0 f0 f0 f0) continuous_const))
      rw [spoly_sum, ← al]
      simp only [show ∀ w : Nat → ℝ, ∑ j ∈ Finset.range i, a i j * w j = wsum a w i from fun _ => rfl]
      unfold tpoly
      module
    have hj := jet hf (by omega) le_rfl _ _ _ _ h2
    refine EqM.trans (EqM.of_eq fun t => hk i hi t) (hj.trans (EqM.of_eq fun t => ?_))
    unfold spoly tpoly
    simp only [l1.add, l1.smul, l2.add1, l2.add2, l2.smul1, l2.smul2, l3.add1, l3.add2, l3.add3, l3.smul1, l3.smul2, l3.smul3,
      l4.smul1, l4.smul2, l4.smul3, l4.smul4]
    module

/-- The order conditions: sums over the stages of the weights times the elementary weights. -/
structure OrderConds (a : Nat → Nat → ℝ) (b : Nat → ℝ) (s p : Nat) : Prop where
  c1 : 1 ≤ p → ∑ j ∈ Finset.range s, b j = 1
  c2 : 2 ≤ p → ∑ j ∈ Finset.range s, b j * al a j = 1/2
  c3 : 3 ≤ p → ∑ j ∈ Finset.range s, b j * wsum a (al a) j = 1/6 ∧ ∑ j ∈ Finset.range s, b j * al a j ^ 2 = 1/3
  c4 : 4 ≤ p → ∑ j ∈ Finset.range s, b j * wsum a (wsum a (al a)) j = 1/24 ∧ ∑ j ∈ Finset.range s, b j * wsum a (fun j => al a j ^ 2) j = 1/12 ∧
    ∑ j ∈ Finset.range s, b j * (al a j * wsum a (al a) j) = 1/8 ∧ ∑ j ∈ Finset.range s, b j * al a j ^ 3 = 1/4
  c5 : 5 ≤ p → ∑ j ∈ Finset.range s, b j * wsum a (wsum a (wsum a (al a))) j = 1/120 ∧
    ∑ j ∈ Finset.range s, b j * wsum a (wsum a fun j => al a j ^ 2) j = 1/60 ∧
    ∑ j ∈ Finset.range s, b j * wsum a (fun j => al a j * wsum a (al a) j) j = 1/40 ∧
    ∑ j ∈ Finset.range s, b j * wsum a (fun j => al a j ^ 3) j = 1/20 ∧
    ∑ j ∈ Finset.range s, b j * (al a j * wsum a (wsum a (al a)) j) = 1/30 ∧
    ∑ j ∈ Finset.range s, b j * (al a j * wsum a (fun j => al a j ^ 2) j) = 1/15 ∧
    ∑ j ∈ Finset.range s, b j * wsum a (al a) j ^ 2 = 1/20 ∧ ∑ j ∈ Finset.range s, b j * (al a j ^ 2 * wsum a (al a) j) = 1/10 ∧
    ∑ j ∈ Finset.range s, b j * al a j ^ 4 = 1/5
  le : p ≤ 5

theorem EqM.low {p : Nat} {n : Nat} (x : ℝ → X) (c d : X) (h : n ≤ p → c = d) : EqM (p + 1) (fun t => x t + t ^ n • c) fun t => x t + t ^ n • d := by
  by_cases hn : n ≤ p
  · rw [h hn]; exact EqM.refl _ _
  · exact (EqM.drop (n := n) (by omega) (r := fun _ => c) continuous_const).trans
      (EqM.drop (n := n) (by omega) (r := fun _ => d) continuous_const).symm

theorem poly_low {p : Nat} (x0 c1 c2 c3 c4 c5 d1 d2 d3 d4 d5 : X) (h1 : 1 ≤ p → c1 = d1) (h2 : 2 ≤ p → c2 = d2) (h3 : 3 ≤ p → c3 = d3)
    (h4 : 4 ≤ p → c4 = d4) (h5 : 5 ≤ p → c5 = d5) :
    EqM (p + 1) (fun t => x0 + t • (c1 + t • c2 + t ^ 2 • c3 + t ^ 3 • c4 + t ^ 4 • c5))
      fun t => x0 + (t • d1 + t ^ 2 • d2 + t ^ 3 • d3 + t ^ 4 • d4) + t ^ 5 • d5 := by
  have e1 := EqM.low (p := p) (fun _ => x0) c1 d1 h1
  have e2 := EqM.low (p := p) (fun t => x0 + t ^ 1 • d1) c2 d2 h2
  have e3 := EqM.low (p := p) (fun t => x0 + t ^ 1 • d1 + t ^ 2 • d2) c3 d3 h3
  have e4 := EqM.low (p := p) (fun t => x0 + t ^ 1 • d1 + t ^ 2 • d2 + t ^ 3 • d3) c4 d4 h4
  have e5 := EqM.low (p := p) (fun t => x0 + t ^ 1 • d1 + t ^ 2 • d2 + t ^ 3 • d3 + t ^ 4 • d4) c5 d5 h5
  refine EqM.trans (EqM.of_eq fun t => ?_) (EqM.trans
    ((((e1.add (EqM.refl _ fun t => t ^ 2 • c2 + t ^ 3 • c3 + t ^ 4 • c4 + t ^ 5 • c5)).trans (EqM.of_eq fun t => ?_)).trans
    (((e2.add (EqM.refl _ fun t => t ^ 3 • c3 + t ^ 4 • c4 + t ^ 5 • c5)).trans (EqM.of_eq fun t => ?_)).trans
    (((e3.add (EqM.refl _ fun t => t ^ 4 • c4 + t ^ 5 • c5)).trans (EqM.of_eq fun t => ?_)).trans
    (((e4.add (EqM.refl _ fun t => t ^ 5 • c5)).trans (EqM.of_eq fun t => ?_)).trans e5)))))
    (EqM.of_eq fun t => ?_)) <;> module

/-- The local error of an explicit Runge-Kutta method satisfying the order conditions. -/
theorem local_error (hf : TaylorAt f x0 f0 f1 f2 f3 f4) {y : ℝ → X} (hy : ∀ᶠ t in 𝓝 (0:ℝ), HasDerivAt y (f (y t)) t) (hy0 : y 0 = x0)
    {a : Nat → Nat → ℝ} {b : Nat → ℝ} {s p : Nat} (hc : OrderConds a b s p) (k : Nat → ℝ → X)
    (hk : ∀ i < s, ∀ t, k i t = f (x0 + t • ∑ j ∈ Finset.range i, a i j • k j t)) :
    EqM (p + 1) (fun t => x0 + t • ∑ j ∈ Finset.range s, b j • k j t) y := by
  have hs := (EqM.sum (stage_expansion hf a s k hk) b).h_smul
  have hp := hc.le
  have h1 : EqM (p + 1) (fun t => x0 + t • ∑ j ∈ Finset.range s, b j • k j t) _ := (EqM.refl (p + 1) fun _ => x0).add (hs.mono (by omega))
  refine h1.trans (EqM.trans ?_ ((solution_expansion hf hy hy0).mono (show p + 1 ≤ 6 by omega)).symm)
  refine EqM.trans (EqM.of_eq fun t => by rw [spoly_sum]; unfold tpoly; rfl) (poly_low _ _ _ _ _ _ _ _ _ _ _ ?_ ?_ ?_ ?_ ?_)
  · intro h; rw [hc.c1 h, one_smul]
  · intro h; rw [hc.c2 h]
  · intro h; rw [(hc.c3 h).1, (hc.c3 h).2]
  · intro h
    obtain ⟨q1, q2, q3, q4⟩ := hc.c4 h
    rw [q1, q2, q3, q4, smul_zero, add_zero]
  · intro h
    obtain ⟨q1, q2, q3, q4, q5, q6, q7, q8, q9⟩ := hc.c5 h
    rw [q1, q2, q3, q4, q5, q6, q7, q8, q9]

end IFEM.Lemmas.RK
