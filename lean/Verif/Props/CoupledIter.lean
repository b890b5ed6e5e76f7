import Verif.Props.Coupled
import Mathlib.Algebra.Module.LinearMap.End
import Mathlib.LinearAlgebra.Matrix.DotProduct
/-!
# C77: the iterates of a staggered step
-/
namespace IFEM.Spec
open Cpl
variable {K σ : Type} {n : Nat} [Field K]

/-- The two simulators as a fixed point iteration: solving both of them (in the given order) turns the value `x` of the coupled solution into `g x`, with the residual `g x - x`;
setting the relaxed solution sets the value, and leaves the residual; post-processing does not change the value. -/
structure FixedPoint (sim : Pair K σ n) (f : Bool) (val : σ → Fin n → K) (g : (Fin n → K) → Fin n → K) : Prop where
  solve : ∀ k s, let s' := if f then (sim.solve2 k (sim.solve1 k s).1).1 else (sim.solve1 k (sim.solve2 k s).1).1
    val s' = g (val s) ∧ sim.relaxVec s' = g (val s) ∧ sim.residual s' = g (val s) - val s
  set : ∀ x s, val (sim.setRelaxed x s) = x ∧ sim.residual (sim.setRelaxed x s) = sim.residual s
  post : ∀ s, val (sim.post1 s) = val s ∧ val (sim.post2 s) = val s

end IFEM.Spec

namespace IFEM.Props
open Cpl IFEM.Spec
variable {K σ : Type} {n : Nat} [Field K] [LinearOrder K]

/-- The state after both simulators. -/
theorem sweep_value (sim : Pair K σ n) (f : Bool) (val : σ → Fin n → K) (g : (Fin n → K) → Fin n → K) (hF : FixedPoint sim f val g) (k : Nat) (st st1 : St K σ n) (c : ConvStatus)
    (hs : Sweep sim f k st st1 (some c)) : val st1.s = g (val st.s) ∧ sim.relaxVec st1.s = g (val st.s) ∧ sim.residual st1.s = g (val st.s) - val st.s ∧
      st1.rlx = st.rlx ∧ (∀ j w s x, Ev.relaxed j w s x ∈ st1.log → Ev.relaxed j w s x ∈ st.log) ∧ st1.iter = st.iter := by
  generalize hco : some c = oc at hs
  cases hs with
  | fail1 => cases hco
  | fail2 => cases hco
  | fail3 => cases hco
  | ok s1 s2 ca cb c' h1 h2 hc ha hb hd =>
    have hv := hF.solve k st.s
    have he : (if f then (sim.solve2 k (sim.solve1 k st.s).1).1 else (sim.solve1 k (sim.solve2 k st.s).1).1) = s2 := by
      cases f
      · have e1 : (sim.solve2 k st.s).1 = s1 := congrArg Prod.fst h1
        have e2 : (sim.solve1 k s1).1 = s2 := congrArg Prod.fst h2
        simp [e1, e2]
      · have e1 : (sim.solve1 k st.s).1 = s1 := congrArg Prod.fst h1
        have e2 : (sim.solve2 k s1).1 = s2 := congrArg Prod.fst h2
        simp [e1, e2]
    rw [he] at hv
    refine ⟨hv.1, hv.2.1, hv.2.2, rfl, ?_, rfl⟩
    intro j w s x hm
    rcases List.mem_append.1 hm with hm | hm
    · exact hm
    · simp at hm

/-- The value after `m` iterations with a fixed relaxation factor. -/
def iterate (w : K) (g : (Fin n → K) → Fin n → K) (x : Fin n → K) : Nat → Fin n → K
  | 0 => x
  | 1 => g x
  | m+2 => (1 - w) • iterate w g x (m+1) + w • g (iterate w g x (m+1))

theorem loop_value (sim : Pair K σ n) (P : Prm K) (ha : P.aitken = false) (h0 : P.omega0 ≠ 0) (f : Bool) (val : σ → Fin n → K) (g : (Fin n → K) → Fin n → K)
    (hF : FixedPoint sim f val g) (x0 : Fin n → K) (m : Nat) (conv : ConvStatus) (st st' : St K σ n)
    (hv : val st.s = iterate P.omega0 g x0 st.iter) (hr : 0 < st.iter → st.rlx.omega = P.omega0 ∧ st.rlx.prevSol = val st.s)
    (h : loop sim P f m conv st = some (st', true)) : val st'.s = iterate P.omega0 g x0 st'.iter := by
  induction m generalizing conv st with
  | zero => cases h; exact hv
  | succ m ih =>
    unfold loop at h
    by_cases hc : conv = .converged
    · rw [if_pos hc] at h; cases h; exact hv
    rw [if_neg hc] at h
    have hs := sweep_spec sim f st.iter st
    dsimp only at h
    generalize sweep sim f st.iter st = r at h hs
    obtain ⟨r1, r2⟩ := r
    cases r2 with
    | none => cases h
    | some c =>
      dsimp only at h hs
      obtain ⟨v1, v2, v3, v4, -, v5⟩ := sweep_value sim f val g hF st.iter st r1 c hs
      unfold relax at h
      rw [if_neg h0, ha] at h
      by_cases hk : 0 < st.iter
      · rw [if_pos hk] at h
        simp only [Bool.false_eq_true, if_false] at h
        obtain ⟨q, hq⟩ : ∃ q, st.iter = q + 1 := ⟨st.iter - 1, by omega⟩
        obtain ⟨w1, w2⟩ := hr hk
        refine ih c _ ?_ ?_ h
        · dsimp only
          rw [(hF.set _ _).1, v2, v4, w1, w2, hv, hq]
          rfl
        · intro _
          dsimp only
          rw [(hF.set _ _).1, v4]
          exact ⟨w1, rfl⟩
      · rw [if_neg hk] at h
        have hk0 : st.iter = 0 := by omega
        refine ih c _ ?_ ?_ h
        · dsimp only
          rw [v1, hv, hk0]
          rfl
        · intro _
          dsimp only
          rw [v1, v2]
          exact ⟨rfl, rfl⟩

/-- **C77** (fixed relaxation). The value after a step with `m` iterations: the first iteration is not relaxed, the others give `(1 - ω) x + ω g(x)`. -/
theorem C77_iterates (sim : Pair K σ n) (P : Prm K) (ha : P.aitken = false) (h0 : P.omega0 ≠ 0) (f : Bool) (val : σ → Fin n → K) (g : (Fin n → K) → Fin n → K)
    (hF : FixedPoint sim f val g) (st st' : St K σ n) (m : Nat) (h : solveStep sim P f st = some (st', true)) (hm : st'.iter = m + 1) :
    val st'.s = (fun x => (1 - P.omega0) • x + P.omega0 • g x)^[m] (g (val st.s)) := by
  have hit : ∀ m, iterate P.omega0 g (val st.s) (m+1) = (fun x => (1 - P.omega0) • x + P.omega0 • g x)^[m] (g (val st.s)) := by
    intro m
    induction m with
    | zero => rfl
    | succ m ih => rw [Function.iterate_succ_apply', ← ih]; rfl
  unfold solveStep at h
  split at h
  · cases h
  · cases h
  · rename_i st1 hl
    cases h
    have := loop_value sim P ha h0 f val g hF (val st.s) _ _ _ st1 (by rfl) (fun h => absurd h (Nat.lt_irrefl 0)) hl
    dsimp only at hm ⊢
    rw [(hF.post _).2, (hF.post _).1, this, hm, hit]

/-- The value after `m` iterations without relaxation. -/
theorem loop_plain (sim : Pair K σ n) (P : Prm K) (h0 : P.omega0 = 0) (f : Bool) (val : σ → Fin n → K) (g : (Fin n → K) → Fin n → K)
    (hF : FixedPoint sim f val g) (x0 : Fin n → K) (m : Nat) (conv : ConvStatus) (st st' : St K σ n)
    (hv : val st.s = g^[st.iter] x0) (h : loop sim P f m conv st = some (st', true)) : val st'.s = g^[st'.iter] x0 := by
  induction m generalizing conv st with
  | zero => cases h; exact hv
  | succ m ih =>
    unfold loop at h
    by_cases hc : conv = .converged
    · rw [if_pos hc] at h; cases h; exact hv
    rw [if_neg hc] at h
    have hs := sweep_spec sim f st.iter st
    dsimp only at h
    generalize sweep sim f st.iter st = r at h hs
    obtain ⟨r1, r2⟩ := r
    cases r2 with
    | none => cases h
    | some c =>
      dsimp only at h hs
      obtain ⟨v1, -⟩ := sweep_value sim f val g hF st.iter st r1 c hs
      unfold relax at h
      rw [if_pos h0] at h
      refine ih c _ ?_ h
      dsimp only
      rw [v1, hv, Function.iterate_succ_apply']

/-- **C77** (no relaxation). Without relaxation, a step with `m` iterations applies both simulators `m` times. -/
theorem C77_plain (sim : Pair K σ n) (P : Prm K) (h0 : P.omega0 = 0) (f : Bool) (val : σ → Fin n → K) (g : (Fin n → K) → Fin n → K)
    (hF : FixedPoint sim f val g) (st st' : St K σ n) (h : solveStep sim P f st = some (st', true)) : val st'.s = g^[st'.iter] (val st.s) := by
  unfold solveStep at h
  split at h
  · cases h
  · cases h
  · rename_i st1 hl
    cases h
    have := loop_plain sim P h0 f val g hF (val st.s) _ _ _ st1 (by rfl) hl
    dsimp only
    rw [(hF.post _).2, (hF.post _).1, this]

/-- **C77** (linear problems). For an affine problem with fixed point `y`, the error after `m + 1` iterations is the one after the first iteration, multiplied `m` times by
`(1 - ω) I + ω A`: a relaxation factor can turn a divergent iteration into a convergent one. -/
theorem C77_linear (sim : Pair K σ n) (P : Prm K) (ha : P.aitken = false) (h0 : P.omega0 ≠ 0) (f : Bool) (val : σ → Fin n → K)
    (A : (Fin n → K) →ₗ[K] (Fin n → K)) (b y : Fin n → K) (hy : A y + b = y) (hF : FixedPoint sim f val fun x => A x + b) (st st' : St K σ n) (m : Nat)
    (h : solveStep sim P f st = some (st', true)) (hm : st'.iter = m + 1) :
    val st'.s - y = (((1 - P.omega0) • (1 : Module.End K (Fin n → K)) + P.omega0 • (A : Module.End K (Fin n → K))) ^ m) (A (val st.s - y)) := by
  rw [C77_iterates sim P ha h0 f val _ hF st st' m h hm]
  clear h hm
  induction m with
  | zero =>
    rw [Function.iterate_zero_apply, pow_zero, map_sub]
    show A (val st.s) + b - y = A (val st.s) - A y
    conv_lhs => rw [← hy]
    module
  | succ m ih =>
    rw [Function.iterate_succ_apply', pow_succ', Module.End.mul_apply, ← ih]
    generalize (fun x => (1 - P.omega0) • x + P.omega0 • (A x + b))^[m] (A (val st.s) + b) = z
    show (1 - P.omega0) • z + P.omega0 • (A z + b) - y = (1 - P.omega0) • (z - y) + P.omega0 • A (z - y)
    rw [map_sub]
    have hb : b = y - A y := eq_sub_of_add_eq' hy
    rw [hb]
    module

/-! ### Aitken's factor -/

variable [IsStrictOrderedRing K]

theorem aitken_parallel (w0 w : K) (e : Fin n → K) (he : e ≠ 0) (a b : K) (hab : b ≠ a) :
    aitkenFactor w0 w (a • e) (b • e) = some (if |w * (-a / (b - a))| < tiny then w0 else w * (-a / (b - a))) := by
  have hd : dotProduct e e ≠ 0 := fun h => he (dotProduct_self_eq_zero.1 h)
  have hba : b - a ≠ 0 := sub_ne_zero.2 hab
  have h1 : b • e - a • e = (b - a) • e := by module
  have hne : dotProduct ((b - a) • e) ((b - a) • e) ≠ 0 := by
    rw [smul_dotProduct, dotProduct_smul, smul_eq_mul, smul_eq_mul]
    exact mul_ne_zero hba (mul_ne_zero hba hd)
  have hq : -(dotProduct (a • e) ((b - a) • e)) / dotProduct ((b - a) • e) ((b - a) • e) = -a / (b - a) := by
    rw [smul_dotProduct, dotProduct_smul, smul_dotProduct, dotProduct_smul]
    simp only [smul_eq_mul]
    field_simp
  unfold aitkenFactor
  dsimp only
  rw [h1, if_neg hne, hq]

/-- What is known about the iterates of an affine problem with Aitken relaxation. -/
structure AitkenInv (sim : Pair K σ n) (val : σ → Fin n → K) (a w0 : K) (y e : Fin n → K) (st : St K σ n) : Prop where
  zero : st.iter = 0 → val st.s = y + e
  one : st.iter = 1 → val st.s = y + a • e ∧ st.rlx = ⟨w0, y + a • e, (a - 1) • e⟩
  two : st.iter = 2 → val st.s = y + (a * (1 - w0)) • e ∧ st.rlx = ⟨w0 / (1 - a), y + (a * (1 - w0)) • e, (a * (a - 1)) • e⟩
  log : ∀ k w s x, Ev.relaxed k w s x ∈ st.log → (k = 1 → w = w0 / (1 - a) ∧ x = y + (a * (1 - w0)) • e) ∧ (k = 2 → w = 1 / (1 - a) ∧ x = y)

theorem aitken_round (sim : Pair K σ n) (P : Prm K) (hP : P.aitken = true) (h0 : P.omega0 ≠ 0) (f : Bool) (val : σ → Fin n → K) (a : K) (b y e : Fin n → K) (he : e ≠ 0)
    (hy : a • y + b = y) (ha0 : a ≠ 0) (ha1 : a ≠ 1) (t1 : tiny ≤ |P.omega0 / (1 - a)|) (t2 : tiny ≤ |1 / (1 - a)|)
    (hF : FixedPoint sim f val fun x => a • x + b) (st st1 st2 : St K σ n) (c : ConvStatus) (hi : AitkenInv sim val a P.omega0 y e st)
    (hs : Sweep sim f st.iter st st1 (some c)) (hr : relax sim P st.iter st1 = some st2) :
    AitkenInv sim val a P.omega0 y e { st2 with iter := st.iter + 1 } := by
  have h1a : (1 : K) - a ≠ 0 := sub_ne_zero.2 (Ne.symm ha1)
  have ha1' : a - 1 ≠ 0 := sub_ne_zero.2 ha1
  have hb : b = y - a • y := eq_sub_of_add_eq' hy
  have hg : ∀ q : K, a • (y + q • e) + b = y + (a * q) • e := by intro q; rw [hb]; module
  obtain ⟨v1, v2, v3, v4, v5, v6⟩ := sweep_value sim f val _ hF st.iter st st1 c hs
  unfold relax at hr
  rw [if_neg h0, hP] at hr
  simp only [if_true] at hr
  by_cases hk : 0 < st.iter
  · rw [if_pos hk] at hr
    by_cases hk1 : st.iter = 1
    · obtain ⟨w1, w2⟩ := hi.one hk1
      rw [w1, hg] at v1 v2 v3
      have hres : sim.residual st1.s = (a * (a - 1)) • e := by rw [v3]; module
      have hfac : aitkenFactor P.omega0 st1.rlx.omega st1.rlx.prevRes (sim.residual st1.s) = some (P.omega0 / (1 - a)) := by
        rw [v4, w2, hres]
        dsimp only
        have hne : a * (a - 1) ≠ a - 1 := by
          intro h
          have h2 : (a - 1) * (a - 1) = 0 := by linear_combination h
          exact ha1' (by simpa using h2)
        rw [aitken_parallel _ _ e he _ _ hne]
        have hq : P.omega0 * (-(a - 1) / (a * (a - 1) - (a - 1))) = P.omega0 / (1 - a) := by
          have h3 : a * (a - 1) - (a - 1) = (a - 1) * (a - 1) := by ring
          rw [h3, show (1 : K) - a = -(a - 1) by ring]
          field_simp
        rw [hq, if_neg (not_lt.2 t1)]
      rw [hfac] at hr
      dsimp only at hr
      cases hr
      have hx : (1 - P.omega0 / (1 - a)) • st1.rlx.prevSol + (P.omega0 / (1 - a)) • sim.relaxVec st1.s = y + (a * (1 - P.omega0)) • e := by
        rw [v4, w2, v2]
        dsimp only
        have hq : a * (1 - P.omega0) = (1 - P.omega0 / (1 - a)) * a + P.omega0 / (1 - a) * (a * a) := by field_simp; ring
        rw [hq]
        module
      refine ⟨fun h => absurd h (Nat.succ_ne_zero _), fun h => ?_, fun _ => ?_, ?_⟩
      · have h : st.iter + 1 = 1 := h
        omega
      · dsimp only
        rw [(hF.set _ _).1, (hF.set _ _).2, hres, hx]
        exact ⟨rfl, rfl⟩
      · intro k w s x hm
        rcases List.mem_append.1 hm with hm | hm
        · exact hi.log k w s x (v5 _ _ _ _ hm)
        · simp only [List.mem_singleton, Ev.relaxed.injEq] at hm
          obtain ⟨rfl, rfl, -, rfl⟩ := hm
          exact ⟨fun _ => ⟨rfl, hx⟩, fun h => by omega⟩
    · by_cases hk2 : st.iter = 2
      · obtain ⟨w1, w2⟩ := hi.two hk2
        rw [w1, hg] at v1 v2 v3
        have hres : sim.residual st1.s = (a * (a - 1) * (1 - P.omega0)) • e := by rw [v3]; module
        have hfac : aitkenFactor P.omega0 st1.rlx.omega st1.rlx.prevRes (sim.residual st1.s) = some (1 / (1 - a)) := by
          rw [v4, w2, hres]
          dsimp only
          have hne : a * (a - 1) * (1 - P.omega0) ≠ a * (a - 1) := by
            intro h
            have h2 : a * (a - 1) * P.omega0 = 0 := by linear_combination -h
            exact (mul_ne_zero (mul_ne_zero ha0 ha1') h0) h2
          rw [aitken_parallel _ _ e he _ _ hne]
          have hq : P.omega0 / (1 - a) * (-(a * (a - 1)) / (a * (a - 1) * (1 - P.omega0) - a * (a - 1))) = 1 / (1 - a) := by
            have h3 : a * (a - 1) * (1 - P.omega0) - a * (a - 1) = -(a * (a - 1) * P.omega0) := by ring
            rw [h3]
            field_simp
          rw [hq, if_neg (not_lt.2 t2)]
        rw [hfac] at hr
        dsimp only at hr
        cases hr
        have hx : (1 - 1 / (1 - a)) • st1.rlx.prevSol + (1 / (1 - a)) • sim.relaxVec st1.s = y := by
          rw [v4, w2, v2]
          dsimp only
          have hq : (1 - 1 / (1 - a)) * (a * (1 - P.omega0)) + 1 / (1 - a) * (a * (a * (1 - P.omega0))) = 0 := by field_simp; ring
          have hz : y = y + ((1 - 1 / (1 - a)) * (a * (1 - P.omega0)) + 1 / (1 - a) * (a * (a * (1 - P.omega0)))) • e := by rw [hq]; simp
          conv_rhs => rw [hz]
          module
        refine ⟨fun h => absurd h (Nat.succ_ne_zero _), fun h => ?_, fun h => ?_, ?_⟩
        · have h : st.iter + 1 = 1 := h
          omega
        · have h : st.iter + 1 = 2 := h
          omega
        · intro k w s x hm
          rcases List.mem_append.1 hm with hm | hm
          · exact hi.log k w s x (v5 _ _ _ _ hm)
          · simp only [List.mem_singleton, Ev.relaxed.injEq] at hm
            obtain ⟨rfl, rfl, -, rfl⟩ := hm
            exact ⟨fun h => by omega, fun _ => ⟨rfl, hx⟩⟩
      · split at hr
        · cases hr
        cases hr
        refine ⟨fun h => absurd h (Nat.succ_ne_zero _), fun h => ?_, fun h => ?_, ?_⟩
        · have h : st.iter + 1 = 1 := h
          omega
        · have h : st.iter + 1 = 2 := h
          omega
        · intro k w s x hm
          rcases List.mem_append.1 hm with hm | hm
          · exact hi.log k w s x (v5 _ _ _ _ hm)
          · simp only [List.mem_singleton, Ev.relaxed.injEq] at hm
            obtain ⟨rfl, -⟩ := hm
            exact ⟨fun h => by omega, fun h => by omega⟩
  · rw [if_neg hk] at hr
    have hk0 : st.iter = 0 := by omega
    cases hr
    have hv := hi.zero hk0
    have hg1 := hg 1
    rw [one_smul, mul_one] at hg1
    rw [hv, hg1] at v1 v2 v3
    refine ⟨fun h => absurd h (Nat.succ_ne_zero _), fun _ => ⟨v1, ?_⟩, fun h => ?_, ?_⟩
    · dsimp only
      rw [v2, v3]
      congr 1
      module
    · have h : st.iter + 1 = 2 := h
      omega
    · intro k w s x hm
      exact hi.log k w s x (v5 _ _ _ _ hm)

theorem loop_aitken (sim : Pair K σ n) (P : Prm K) (hP : P.aitken = true) (h0 : P.omega0 ≠ 0) (f : Bool) (val : σ → Fin n → K) (a : K) (b y e : Fin n → K) (he : e ≠ 0)
    (hy : a • y + b = y) (ha0 : a ≠ 0) (ha1 : a ≠ 1) (t1 : tiny ≤ |P.omega0 / (1 - a)|) (t2 : tiny ≤ |1 / (1 - a)|)
    (hF : FixedPoint sim f val fun x => a • x + b) (m : Nat) (conv : ConvStatus) (st st' : St K σ n) (ok : Bool) (hi : AitkenInv sim val a P.omega0 y e st)
    (h : loop sim P f m conv st = some (st', ok)) :
    ∀ k w s x, Ev.relaxed k w s x ∈ st'.log → (k = 1 → w = P.omega0 / (1 - a) ∧ x = y + (a * (1 - P.omega0)) • e) ∧ (k = 2 → w = 1 / (1 - a) ∧ x = y) := by
  induction m generalizing conv st with
  | zero => cases h; exact hi.log
  | succ m ih =>
    unfold loop at h
    by_cases hc : conv = .converged
    · rw [if_pos hc] at h; cases h; exact hi.log
    rw [if_neg hc] at h
    have hs := sweep_spec sim f st.iter st
    dsimp only at h
    generalize sweep sim f st.iter st = r at h hs
    obtain ⟨r1, r2⟩ := r
    cases r2 with
    | none =>
      cases h
      generalize hco : (none : Option ConvStatus) = oc at hs
      intro k w s x hm
      cases hs with
      | ok => cases hco
      | fail1 s1 ca h1 ha =>
        rcases List.mem_append.1 hm with hm | hm
        · exact hi.log k w s x hm
        · simp at hm
      | fail2 s1 s2 ca cb h1 h2 ha hb =>
        rcases List.mem_append.1 hm with hm | hm
        · exact hi.log k w s x hm
        · simp at hm
      | fail3 s1 s2 ca cb c h1 h2 hc ha hb hd =>
        rcases List.mem_append.1 hm with hm | hm
        · exact hi.log k w s x hm
        · simp at hm
    | some c =>
      dsimp only at h hs
      split at h
      · cases h
      rename_i st2 hr
      exact ih c _ (aitken_round sim P hP h0 f val a b y e he hy ha0 ha1 t1 t2 hF st r1 st2 c hi hs hr) h

/-- **C77** (Aitken). For the problem `g(x) = a x + b` with the solution `y`, the third iteration with Aitken relaxation gives the exact solution; but the second one does so only
if the initial factor is one, because its factor is `ω₀ / (1 - a)` instead of `1 / (1 - a)` (the first iteration is not relaxed, but its factor is taken to be `ω₀`). -/
theorem C77_aitken (sim : Pair K σ n) (P : Prm K) (hP : P.aitken = true) (h0 : P.omega0 ≠ 0) (f : Bool) (val : σ → Fin n → K) (a : K) (b y : Fin n → K)
    (hy : a • y + b = y) (ha0 : a ≠ 0) (ha1 : a ≠ 1) (t1 : 1 / 1000000 ≤ |P.omega0 / (1 - a)|) (t2 : 1 / 1000000 ≤ |1 / (1 - a)|)
    (hF : FixedPoint sim f val fun x => a • x + b) (st st' : St K σ n) (ok : Bool) (hl : st.log = []) (hne : val st.s ≠ y)
    (h : solveStep sim P f st = some (st', ok)) (k : Nat) (w : K) (s : σ) (x : Fin n → K) (hm : Ev.relaxed k w s x ∈ st'.log) :
    (k = 1 → w = P.omega0 / (1 - a) ∧ (x = y ↔ P.omega0 = 1)) ∧ (k = 2 → w = 1 / (1 - a) ∧ x = y) := by
  have he : val st.s - y ≠ 0 := sub_ne_zero.2 hne
  have hst : AitkenInv sim val a P.omega0 y (val st.s - y) { st with iter := 0 } := by
    refine ⟨fun _ => ?_, fun h => absurd h (by simp), fun h => absurd h (by simp), fun k w s x hm => ?_⟩
    · show val st.s = y + (val st.s - y)
      module
    · have hm : Ev.relaxed k w s x ∈ st.log := hm
      rw [hl] at hm; simp at hm
  have key : (k = 1 → w = P.omega0 / (1 - a) ∧ x = y + (a * (1 - P.omega0)) • (val st.s - y)) ∧ (k = 2 → w = 1 / (1 - a) ∧ x = y) := by
    unfold solveStep at h
    split at h
    · cases h
    · rename_i st1 hlp
      cases h
      exact loop_aitken sim P hP h0 f val a b y _ he hy ha0 ha1 t1 t2 hF _ _ _ _ _ hst hlp k w s x hm
    · rename_i st1 hlp
      cases h
      refine loop_aitken sim P hP h0 f val a b y _ he hy ha0 ha1 t1 t2 hF _ _ _ _ _ hst hlp k w s x ?_
      rcases List.mem_append.1 hm with hm | hm
      · exact hm
      · simp at hm
  refine ⟨fun hk => ⟨(key.1 hk).1, ?_⟩, key.2⟩
  rw [(key.1 hk).2, add_eq_left, smul_eq_zero, or_iff_left he, mul_eq_zero, or_iff_right ha0, sub_eq_zero, eq_comm]

end IFEM.Props
