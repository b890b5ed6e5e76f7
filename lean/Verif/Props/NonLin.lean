import Verif.Spec.NonLin
import Mathlib.Tactic.Ring
import Mathlib.Tactic.FieldSimp
import Mathlib.Tactic.Linarith
import Mathlib.Tactic.Module
import Mathlib.Tactic.Abel
import Mathlib.Tactic.NormNum
/-!
# C32–C33: nonlinear iterations
-/
namespace IFEM.Props
open IFEM.Spec
variable {K : Type} [Field K] [LinearOrder K] [IsStrictOrderedRing K] {V : Type} [AddCommGroup V] [Module K V]

/-! ## The convergence check -/

/-- The memory of the convergence check after iteration `k`. -/
structure MemOk (p : ConvPar K) (R : K) (n : Nat → Option K) (k : Nat) (m : ConvMem K) : Prop where
  ref : m.refNorm = scaleOf p R
  tol : m.convTol = if p.aTol < R * p.rTol then p.rTol else p.aTol
  prev : m.prevNorm = (n k).map (· / scaleOf p R)
  inc : m.nIncrease = growth n k

theorem refOf_nonneg (p : ConvPar K) (ref0 : K) (h0 : 0 ≤ ref0) (n0 : Option K) : 0 ≤ refOf p ref0 n0 := by
  unfold refOf
  cases n0 with
  | none => dsimp only; split <;> simp [h0]
  | some x => dsimp only; split; exact abs_nonneg x; exact le_max_of_le_left h0

theorem scaleOf_pos (p : ConvPar K) (R : K) (hR : 0 ≤ R) (ha : 0 ≤ p.aTol) : 0 < scaleOf p R := by
  unfold scaleOf
  split
  · rename_i h
    rcases hR.lt_or_eq with h' | h'
    · exact h'
    · rw [← h', zero_mul] at h; exact absurd h (not_lt.mpr ha)
  · exact one_pos

theorem small_iff (p : ConvPar K) (R : K) (hR : 0 ≤ R) (ha : 0 ≤ p.aTol) (x : Option K) :
    nanLt ((x.map (· / scaleOf p R)).map abs) (some (if p.aTol < R * p.rTol then p.rTol else p.aTol)) = true ↔ Small p R x := by
  have hs := scaleOf_pos p R hR ha
  cases x with
  | none => simp [nanLt, Small]
  | some x =>
    simp only [Option.map_some, nanLt, decide_eq_true_eq, Small, Option.some.injEq, exists_eq_left']
    rw [abs_div, abs_of_pos hs, div_lt_iff₀ hs]
    unfold scaleOf
    by_cases h : p.aTol < R * p.rTol
    · rw [if_pos h, if_pos h, max_eq_right (by rw [mul_comm]; exact h.le)]
    · rw [if_neg h, if_neg h, mul_one, max_eq_left (by rw [mul_comm]; exact not_lt.mp h)]

theorem le_iff (s : K) (hs : 0 < s) (x y : Option K) :
    nanLe ((x.map (· / s)).map abs) ((y.map (· / s)).map abs) = true ↔ ∃ b a, y = some b ∧ x = some a ∧ |a| ≤ |b| := by
  cases x <;> cases y <;> simp [nanLe, abs_div, abs_of_pos hs, div_le_div_iff_of_pos_right hs]

theorem blown_iff (p : ConvPar K) (R : K) (hR : 0 ≤ R) (ha : 0 ≤ p.aTol) (x : Option K) :
    nanLt (some p.divgLim) ((x.map (· / scaleOf p R)).map abs) = true ↔ Blown p R x := by
  have hs := scaleOf_pos p R hR ha
  cases x with
  | none => simp [nanLt, Blown]
  | some x => simp [nanLt, Blown, abs_div, abs_of_pos hs]

theorem growth_pos_eq (n : Nat → Option K) (k : Nat) (h : Grew n (k+1)) : growth n (k+1) = growth n k + 1 := by
  rw [growth, if_pos h]

theorem growth_zero_eq (n : Nat → Option K) (k : Nat) (h : ¬ Grew n k) : growth n k = 0 := by
  cases k <;> (unfold growth; rw [if_neg h])

/-- The verdict in terms of the criteria.  `c` is the previous count of increases. -/
theorem verdict_spec (p : ConvPar K) (R : K) (hR : 0 ≤ R) (ha : 0 ≤ p.aTol) (n inc : Nat → Option K) (k : Nat) (m : ConvMem K)
    (st : ConvStatus) (hst : st = .ok ∨ st = .slow)
    (hc0 : ¬ (k = 0 ∧ (p.linear = true ∨ inc 0 = some 0)))
    (hm1 : m.refNorm = scaleOf p R) (hm2 : m.convTol = if p.aTol < R * p.rTol then p.rTol else p.aTol)
    (hg : nanLe (((n k).map (· / scaleOf p R)).map abs) (m.prevNorm.map abs) = true ↔ ¬ Grew n k)
    (hi : Grew n k → m.nIncrease + 1 = growth n k) :
    let c := convVerdict p k ((n k).map (· / scaleOf p R)) (inc k) st m
    (c.1 = .converged ↔ Cvg p R n inc k) ∧ (c.1 = .diverged ↔ Dvg p R n inc k) ∧ c.1 ≠ .failure ∧
    (Goes p R n inc k → MemOk p R n k c.2) := by
  have hst1 : st ≠ .converged := by rcases hst with h | h <;> rw [h] <;> decide
  have hst2 : st ≠ .diverged := by rcases hst with h | h <;> rw [h] <;> decide
  have hst3 : st ≠ .failure := by rcases hst with h | h <;> rw [h] <;> decide
  have hconv : (nanLt (((n k).map (· / scaleOf p R)).map abs) (some m.convTol) && (decide ((k : Int) > 0) || p.all)) = true ↔ Cvg p R n inc k := by
    rw [hm2, Bool.and_eq_true, small_iff p R hR ha]
    unfold Cvg
    simp only [Bool.or_eq_true, decide_eq_true_eq]
    constructor
    · rintro ⟨h1, h2⟩
      refine Or.inr ⟨?_, h1⟩
      rcases h2 with h2 | h2
      · exact Or.inl (by omega)
      · exact Or.inr h2
    · rintro (h | ⟨h1, h2⟩)
      · exact absurd h hc0
      · refine ⟨h2, ?_⟩
        rcases h1 with h1 | h1
        · exact Or.inl (by omega)
        · exact Or.inr h1
  unfold convVerdict
  dsimp only
  by_cases hC : Cvg p R n inc k
  · rw [if_pos (hconv.mpr hC)]
    refine ⟨by simp [hC], ?_, by simp, fun hG => absurd hC hG.1⟩
    simp [Dvg, hC]
  rw [if_neg (fun h => hC (hconv.mp h))]
  by_cases hN : inc k = none
  · rw [if_pos (by simp [hN])]
    have hD : Dvg p R n inc k := ⟨hC, Or.inl hN⟩
    exact ⟨by simp [hC], by simp [hD], by simp, fun hG => absurd hD hG.2⟩
  rw [if_neg (by simpa using hN)]
  by_cases hG : Grew n k
  · rw [if_neg (fun h => (hg.mp h) hG)]
    have hB : (decide (m.nIncrease + 1 > p.maxIncr) || nanLt (some p.divgLim) (((n k).map (· / scaleOf p R)).map abs)) = true ↔
        p.maxIncr < growth n k ∨ Blown p R (n k) := by
      rw [hi hG, Bool.or_eq_true, blown_iff p R hR ha, decide_eq_true_eq]
    by_cases hbl : p.maxIncr < growth n k ∨ Blown p R (n k)
    · rw [if_pos (hB.mpr hbl)]
      have hD : Dvg p R n inc k := ⟨hC, Or.inr ⟨hG, hbl⟩⟩
      exact ⟨by simp [hC], by simp [hD], by simp, fun hG => absurd hD hG.2⟩
    · rw [if_neg (fun h => hbl (hB.mp h))]
      have hD : ¬ Dvg p R n inc k := fun h => h.2.elim hN (fun h => hbl h.2)
      exact ⟨by simp [hC, hst1], by simp [hD, hst2], hst3, fun _ => ⟨hm1, hm2, rfl, hi hG⟩⟩
  · rw [if_pos (hg.mpr hG)]
    have hD : ¬ Dvg p R n inc k := fun h => h.2.elim hN (fun h => hG h.1)
    exact ⟨by simp [hC, hst1], by simp [hD, hst2], hst3, fun _ => ⟨hm1, hm2, rfl, (growth_zero_eq n k hG).symm⟩⟩

/-- What the check at the start of a step establishes. -/
theorem convStart_spec (p : ConvPar K) (m : ConvMem K) (h0 : 0 ≤ m.refNorm) (ha : 0 ≤ p.aTol) (n0 : Option K) :
    (convStart p n0 m).1 = n0.map (· / scaleOf p (refOf p m.refNorm n0)) ∧
    (convStart p n0 m).2 = ⟨scaleOf p (refOf p m.refNorm n0),
      if p.aTol < refOf p m.refNorm n0 * p.rTol then p.rTol else p.aTol,
      n0.map (· / scaleOf p (refOf p m.refNorm n0)), 0⟩ := by
  have key : ∀ r, (match some r with
      | some r => if r * p.rTol > p.aTol then (n0.map (· / r), (⟨r, p.rTol, n0.map (· / r), 0⟩ : ConvMem K))
        else (n0, ⟨1, p.aTol, n0, 0⟩)
      | none => (n0, ⟨1, p.aTol, n0, 0⟩)) =
      (n0.map (· / scaleOf p r), ⟨scaleOf p r, if p.aTol < r * p.rTol then p.rTol else p.aTol, n0.map (· / scaleOf p r), 0⟩) := by
    intro r
    dsimp only
    unfold scaleOf
    by_cases h : p.aTol < r * p.rTol
    · simp only [if_pos h, gt_iff_lt]
    · simp only [if_neg h, gt_iff_lt, div_one]
      cases n0 <;> rfl
  unfold convStart
  cases n0 with
  | none =>
    by_cases hf : (p.first && p.all) = true
    · simp only [hf, Bool.true_or, if_true, Option.map_none, refOf, scaleOf, zero_mul]
      rw [if_neg (not_lt.mpr ha), if_neg (not_lt.mpr ha)]
      exact ⟨trivial, rfl⟩
    · have hf' : (p.first && p.all) = false := by simpa using hf
      have := key m.refNorm
      simp only [hf', Option.map_none, nanLt, Bool.or_false, Bool.false_eq_true, if_false, refOf] at this ⊢
      rw [this]
      exact ⟨rfl, rfl⟩
  | some x =>
    have hr : (if (p.first && p.all) || nanLt (some m.refNorm) ((some x).map abs) then (some x).map abs else some m.refNorm) =
        some (refOf p m.refNorm (some x)) := by
      unfold refOf
      dsimp only
      by_cases hf : (p.first && p.all) = true
      · simp [hf]
      · have hf' : (p.first && p.all) = false := by simpa using hf
        simp only [hf', nanLt, Option.map_some, Bool.false_or, decide_eq_true_eq, Bool.false_eq_true, if_false]
        by_cases h : m.refNorm < |x|
        · rw [if_pos h, max_eq_right h.le]
        · rw [if_neg h, max_eq_left (not_lt.mp h)]
    rw [hr]
    have := key (refOf p m.refNorm (some x))
    dsimp only at this ⊢
    rw [this]
    exact ⟨rfl, rfl⟩

/-- What is established by the check of iteration `k`, from the memory before the step (`k = 0`) or after iteration `k - 1`. -/
def MemIn (p : ConvPar K) (R : K) (n : Nat → Option K) (k : Nat) (m : ConvMem K) : Prop := match k with
  | 0 => 0 ≤ m.refNorm ∧ R = refOf p m.refNorm (n 0)
  | k+1 => MemOk p R n k m

theorem start_case (p : ConvPar K) (R : K) (hR : 0 ≤ R) (ha : 0 ≤ p.aTol) (n inc : Nat → Option K) (m : ConvMem K)
    (hm : MemIn p R n 0 m) (hl : p.linear = false) (hi : inc 0 ≠ some 0) :
    let c := convVerdict p 0 (convStart p (n 0) m).1 (inc 0) .ok (convStart p (n 0) m).2
    (c.1 = .converged ↔ Cvg p R n inc 0) ∧ (c.1 = .diverged ↔ Dvg p R n inc 0) ∧ c.1 ≠ .failure ∧
    (Goes p R n inc 0 → MemOk p R n 0 c.2) := by
  obtain ⟨e1, e2⟩ := convStart_spec p m hm.1 ha (n 0)
  rw [← hm.2] at e1 e2
  rw [e1, e2]
  refine verdict_spec p R hR ha n inc 0 _ .ok (Or.inl rfl) (by simp [hl, hi]) rfl rfl ?_ ?_
  · dsimp only
    rw [le_iff _ (scaleOf_pos p R hR ha)]
    cases h : n 0 <;> simp [Grew, h]
  · intro hg
    dsimp only
    unfold growth
    rw [if_pos hg]; rfl

theorem step_case (p : ConvPar K) (R : K) (hR : 0 ≤ R) (ha : 0 ≤ p.aTol) (n inc : Nat → Option K) (k : Nat) (m : ConvMem K)
    (hm : MemOk p R n k m) (st : ConvStatus) (hst : st = .ok ∨ st = .slow) :
    let c := convVerdict p (k+1 : Nat) ((n (k+1)).map (· / m.refNorm)) (inc (k+1)) st m
    (c.1 = .converged ↔ Cvg p R n inc (k+1)) ∧ (c.1 = .diverged ↔ Dvg p R n inc (k+1)) ∧ c.1 ≠ .failure ∧
    (Goes p R n inc (k+1) → MemOk p R n (k+1) c.2) := by
  rw [hm.ref]
  refine verdict_spec p R hR ha n inc (k+1) m st hst (by simp) hm.ref hm.tol ?_ ?_
  · rw [hm.prev, le_iff _ (scaleOf_pos p R hR ha)]
    simp only [Grew, not_not]
  · intro hg
    rw [hm.inc, growth_pos_eq n k hg]

theorem memIn_refNonneg {p : ConvPar K} {R : K} {n : Nat → Option K} {m : ConvMem K} (h : MemIn p R n 0 m) : 0 ≤ R := by
  rw [h.2]; exact refOf_nonneg p _ h.1 _

/-- The check of the quasi-static driver decides by the criteria. -/
theorem nlCheck_spec (p : ConvPar K) (R : K) (hR : 0 ≤ R) (ha : 0 ≤ p.aTol) (n inc : Nat → Option K) (k : Nat) (m : ConvMem K)
    (hm : MemIn p R n k m) (hl : k ≠ 0 → p.linear = false) :
    let c := nlCheck p k (n k) (inc k) m
    (c.1 = .converged ↔ Cvg p R n inc k) ∧ (c.1 = .diverged ↔ Dvg p R n inc k) ∧ c.1 ≠ .failure ∧
    (Goes p R n inc k → MemOk p R n k c.2) := by
  unfold nlCheck
  cases k with
  | zero =>
    by_cases hlin : p.linear = true
    · rw [if_pos hlin]
      have hC : Cvg p R n inc 0 := Or.inl ⟨rfl, Or.inl hlin⟩
      exact ⟨by simp [hC], by simp [Dvg, hC], by simp, fun h => absurd hC h.1⟩
    rw [if_neg hlin, if_pos (show ((0 : Nat) : Int) = 0 from rfl)]
    by_cases hi : inc 0 = some 0
    · rw [if_pos hi]
      have hC : Cvg p R n inc 0 := Or.inl ⟨rfl, Or.inr hi⟩
      exact ⟨by simp [hC], by simp [Dvg, hC], by simp, fun h => absurd hC h.1⟩
    rw [if_neg hi]
    exact start_case p R hR ha n inc m hm (by simpa using hlin) hi
  | succ k =>
    rw [if_neg (by simp [hl (by omega)]), if_neg (by omega)]
    refine step_case p R hR ha n inc k m hm _ ?_
    split
    · exact Or.inr rfl
    · exact Or.inl rfl

/-- The check of the dynamic driver decides by the criteria. -/
theorem nmCheck_spec (p : ConvPar K) (R : K) (hR : 0 ≤ R) (ha : 0 ≤ p.aTol) (n inc : Nat → Option K) (k : Nat) (m : ConvMem K)
    (hm : MemIn p R n k m) (hl : p.linear = false) :
    let c := nmCheck p k (n k) (inc k) m
    (c.1 = .converged ↔ Cvg p R n inc k) ∧ (c.1 = .diverged ↔ Dvg p R n inc k) ∧ c.1 ≠ .failure ∧
    (Goes p R n inc k → MemOk p R n k c.2) := by
  unfold nmCheck
  cases k with
  | zero =>
    rw [if_pos (show ((0 : Nat) : Int) = 0 from rfl)]
    by_cases hi : inc 0 = some 0
    · rw [if_pos hi]
      have hC : Cvg p R n inc 0 := Or.inl ⟨rfl, Or.inr hi⟩
      exact ⟨by simp [hC], by simp [Dvg, hC], by simp, fun h => absurd hC h.1⟩
    rw [if_neg hi]
    exact start_case p R hR ha n inc m hm hl hi
  | succ k =>
    rw [if_neg (by omega)]
    exact step_case p R hR ha n inc k m hm .ok (Or.inl rfl)

/-! ## Line search -/

theorem lsNext_range {s0 sk ck c : K} (h : lsNext s0 sk ck = some c) : 1/2 ≤ c ∧ c ≤ 3/2 := by
  have h12 : (1/2 : K) ≤ 3/2 := by norm_num
  unfold lsNext at h
  split at h
  · split at h
    · exact absurd h (by simp)
    · split at h <;> (simp only [Option.some.injEq] at h; subst h; norm_num)
  · dsimp only at h
    simp only [Option.some.injEq] at h
    subst h
    split
    · exact ⟨h12, le_refl _⟩
    · split
      · exact ⟨le_refl _, h12⟩
      · rename_i h1 h2; exact ⟨not_lt.mp h2, not_lt.mp h1⟩

theorem lsNext_none {s0 sk ck : K} (h : lsNext s0 sk ck = none) : s0 = 0 := by
  unfold lsNext at h
  split at h
  · split at h
    · assumption
    · simp at h
  · simp at h

theorem updCfg_nl (linsol : V) (s : LsState K V) :
    updCfg false linsol s = { s with u := s.u + s.alpha • linsol } := by
  unfold updCfg
  rw [if_neg (by simp)]
  split
  · rfl
  · rename_i h
    have : s.alpha = 0 := by simpa using h
    cases s
    simp_all

/-- Step length `t` is in the admissible range, and the reported one agrees with it up to the tolerance. -/
def LsOk (eta : K) (u0 : V) (linsol : V) (s' : LsState K V) : Prop :=
  ∃ t : K, s'.u + s'.alpha • linsol = u0 + t • linsol ∧ 1/2 ≤ t ∧ t ≤ 3/2 ∧
    (s'.alphaO = t ∨ |s'.alphaO - t| < 1/2 * eta * |s'.alphaO + t|)

theorem lsLoop_spec (eta s0 : K) (linsol u0 : V) (n : Nat) (e : Nat → Option K) (smin cmin ck cp : K) (s s' : LsState K V)
    (hu : s.u = u0 + cp • linsol) (hck : 1/2 ≤ ck ∧ ck ≤ 3/2) (hcm : 1/2 ≤ cmin ∧ cmin ≤ 3/2)
    (h : lsLoop false eta s0 linsol n e smin cmin ck cp s = .done s') : LsOk eta u0 linsol s' := by
  induction n generalizing e smin cmin ck cp s with
  | zero =>
    unfold lsLoop at h
    injection h with h
    subst h
    refine ⟨cmin, ?_, hcm.1, hcm.2, Or.inl rfl⟩
    dsimp only
    rw [hu]; module
  | succ n ih =>
    rw [lsLoop, updCfg_nl] at h
    dsimp only at h
    have hu' : s.u + (ck - cp) • linsol = u0 + ck • linsol := by rw [hu]; module
    cases he : e 0 with
    | none => rw [he] at h; simp at h
    | some sk =>
      rw [he] at h
      dsimp only at h
      by_cases h1 : |sk| < eta * |s0|
      · rw [if_pos h1] at h
        injection h with h
        subst h
        refine ⟨ck, ?_, hck.1, hck.2, Or.inl rfl⟩
        dsimp only
        rw [hu', zero_smul, add_zero]
      · rw [if_neg h1] at h
        cases hn : lsNext s0 sk ck with
        | none => rw [hn] at h; simp at h
        | some c =>
          rw [hn] at h
          dsimp only at h
          by_cases h2 : |c - ck| < 1/2 * eta * |c + ck|
          · rw [if_pos h2] at h
            injection h with h
            subst h
            refine ⟨ck, ?_, hck.1, hck.2, Or.inr h2⟩
            dsimp only
            rw [hu', zero_smul, add_zero]
          · rw [if_neg h2] at h
            refine ih _ _ _ _ _ _ hu' (lsNext_range hn) ?_ h
            split
            · exact hck
            · exact hcm

theorem lsLoop_nan (linear : Bool) (eta s0 : K) (linsol : V) (n : Nat) (e : Nat → Option K) (smin cmin ck cp : K) (s s' : LsState K V)
    (h : lsLoop linear eta s0 linsol n e smin cmin ck cp s = .nan s') : s0 = 0 := by
  induction n generalizing e smin cmin ck cp s with
  | zero => simp [lsLoop] at h
  | succ n ih =>
    rw [lsLoop] at h
    dsimp only at h
    cases he : e 0 with
    | none => rw [he] at h; simp at h
    | some sk =>
      rw [he] at h
      dsimp only at h
      split at h
      · simp at h
      · cases hn : lsNext s0 sk ck with
        | none => exact lsNext_none hn
        | some c =>
          rw [hn] at h
          dsimp only at h
          split at h
          · simp at h
          · exact ih _ _ _ _ _ _ h

theorem lsLoop_failed (linear : Bool) (eta s0 : K) (linsol : V) (n : Nat) (e : Nat → Option K) (smin cmin ck cp : K) (s s' : LsState K V)
    (h : lsLoop linear eta s0 linsol n e smin cmin ck cp s = .failed s') : ∃ i, e i = none := by
  induction n generalizing e smin cmin ck cp s with
  | zero => simp [lsLoop] at h
  | succ n ih =>
    rw [lsLoop] at h
    dsimp only at h
    cases he : e 0 with
    | none => exact ⟨0, he⟩
    | some sk =>
      rw [he] at h
      dsimp only at h
      split at h
      · simp at h
      · cases hn : lsNext s0 sk ck with
        | none => rw [hn] at h; simp at h
        | some c =>
          rw [hn] at h
          dsimp only at h
          split at h
          · simp at h
          · obtain ⟨i, hi⟩ := ih _ _ _ _ _ _ h
            exact ⟨i+1, hi⟩

/-- **C33**. Whatever energies are found, a successful line search leaves the solution such that the total multiple of the
linear solution increment, including the part still to be added by the next update, is a step length in `[0.5,1.5]`
which agrees with the reported one up to the relative step length tolerance `eta/2`. -/
theorem C33_line_search (eta s0 : K) (heta : 0 < eta) (e : Nat → Option K) (linsol : V) (s s' : LsState K V)
    (h : lineSearch false eta s0 e linsol s = .done s') :
    ∃ t : K, s'.u + s'.alpha • linsol = s.u + t • linsol ∧ 1/2 ≤ t ∧ t ≤ 3/2 ∧
      (s'.alphaO = t ∨ |s'.alphaO - t| < 1/2 * eta * |s'.alphaO + t|) := by
  unfold lineSearch at h
  rw [if_neg (not_le.mpr heta)] at h
  exact lsLoop_spec eta s0 linsol s.u 10 e _ _ _ _ s s' (by simp) (by norm_num) (by norm_num) h

/-- **C33** (no line search). Without line search nothing is changed. -/
theorem C33_no_line_search (linear : Bool) (eta s0 : K) (heta : eta ≤ 0) (e : Nat → Option K) (linsol : V) (s : LsState K V) :
    lineSearch linear eta s0 e linsol s = .done s := by
  unfold lineSearch; rw [if_pos heta]

/-- **C33** does not hold exactly (F21): the reported step length may differ from the applied one. Here the solution is changed from
zero to `1 * linsol`, while the reported step length is `5/8`. -/
theorem C33_counterexample_reported :
    lineSearch false (1/2 : Rat) 1 (fun _ => some (-3/5)) (1 : Rat) ⟨0, 1, 1⟩ = .done ⟨1, 0, 5/8⟩ := by
  rw [lineSearch, if_neg (by decide +kernel), lsLoop, updCfg_nl]
  dsimp only
  rw [if_neg (by decide +kernel)]
  have : lsNext (1 : Rat) (-3/5) 1 = some (5/8) := by decide +kernel
  rw [this]
  dsimp only
  rw [if_pos (by decide +kernel)]
  norm_num

/-- A vanishing initial energy (zero residual or increment) makes the line search produce a NaN step length, unless the first
trial meets the tolerance, which it cannot. -/
theorem C33_counterexample_nan (eta : K) (heta : 0 < eta) (linsol : V) (s : LsState K V) :
    ∃ s', lineSearch false eta 0 (fun _ => some 0) linsol s = .nan s' := by
  rw [lineSearch, if_neg (not_le.mpr heta), lsLoop]
  dsimp only
  rw [if_neg (by simp)]
  have : lsNext (0 : K) 0 1 = none := by simp [lsNext]
  rw [this]
  exact ⟨_, rfl⟩

/-! ## The iteration loops -/

theorem not_false_of {b : Bool} (h : (!b) = true) : b = false := by simpa using h

theorem nlIterate_stop (p : NlPar K) (env : StepEnv K V) (iter : Nat) (nt : Bool) (s s' : StepState K V) (st : ConvStatus)
    (h : nlIterate p env iter nt s = .stop st s') :
    (st = .diverged ∧ env.asmbl (iter+1) = .diverged) ∨ (st = .failure ∧ OpFailed env (iter+1)) := by
  unfold nlIterate at h
  dsimp only at h
  split at h
  · rename_i hu; injection h with h1; exact Or.inr ⟨h1.symm, Or.inl (not_false_of hu)⟩
  split at h
  · rename_i hu; injection h with h1
    simp only [Bool.and_eq_true] at hu
    exact Or.inr ⟨h1.symm, Or.inr (Or.inr (Or.inl (not_false_of hu.2)))⟩
  generalize (if (if ((iter + 1 : Nat) : Int) > p.nupdat then false else nt) = true then
    ({ls := updCfg p.linear (env.linsol iter) s.ls, mem := s.mem, tang := (iter + 1) :: s.tang} : StepState K V)
    else {ls := updCfg p.linear (env.linsol iter) s.ls, mem := s.mem, tang := s.tang}) = sx at h
  cases ha : env.asmbl (iter+1) with
  | diverged => rw [ha] at h; injection h with h1; exact Or.inl ⟨h1.symm, rfl⟩
  | fail => rw [ha] at h; injection h with h1; exact Or.inr ⟨h1.symm, by simp [OpFailed, ha]⟩
  | ok =>
    rw [ha] at h
    dsimp only at h
    split at h
    · rename_i hu; injection h with h1; exact Or.inr ⟨h1.symm, by simp [OpFailed, not_false_of hu]⟩
    split at h
    · rename_i hu; injection h with h1; exact Or.inr ⟨h1.symm, by simp [OpFailed, not_false_of hu]⟩
    split at h
    · rename_i hl
      injection h with h1
      unfold lineSearch at hl
      split at hl
      · simp at hl
      · have := lsLoop_failed _ _ _ _ _ _ _ _ _ _ _ _ hl
        exact Or.inr ⟨h1.symm, by simp [OpFailed, this]⟩
    · simp at h
    · simp at h

theorem nlIterate_cont (p : NlPar K) (env : StepEnv K V) (iter : Nat) (nt nt' : Bool) (s s' : StepState K V)
    (h : nlIterate p env iter nt s = .cont nt' s') :
    s'.mem = s.mem ∧ nt' = (if ((iter + 1 : Nat) : Int) > p.nupdat then false else nt) ∧
    s'.tang = (if nt' = true then (iter+1) :: s.tang else s.tang) ∧
    lineSearch p.linear p.eta (env.energy0 (iter+1)) (env.energy (iter+1)) (env.linsol (iter+1)) (updCfg p.linear (env.linsol iter) s.ls) = .done s'.ls := by
  unfold nlIterate at h
  dsimp only at h
  split at h
  · simp at h
  split at h
  · simp at h
  generalize hx : (if (if ((iter + 1 : Nat) : Int) > p.nupdat then false else nt) = true then
    ({ls := updCfg p.linear (env.linsol iter) s.ls, mem := s.mem, tang := (iter + 1) :: s.tang} : StepState K V)
    else {ls := updCfg p.linear (env.linsol iter) s.ls, mem := s.mem, tang := s.tang}) = sx at h
  generalize (if ((iter + 1 : Nat) : Int) > p.nupdat then false else nt) = nn at h hx ⊢
  cases ha : env.asmbl (iter+1) with
  | diverged => rw [ha] at h; simp at h
  | fail => rw [ha] at h; simp at h
  | ok =>
    rw [ha] at h
    dsimp only at h
    split at h
    · simp at h
    split at h
    · simp at h
    split at h
    · simp at h
    · simp at h
    · rename_i l hl
      injection h with h1 h2
      subst h1 h2
      have hls : sx.ls = updCfg p.linear (env.linsol iter) s.ls := by rw [← hx]; split <;> rfl
      have hmm : sx.mem = s.mem := by rw [← hx]; split <;> rfl
      have htt : sx.tang = if nn = true then (iter+1) :: s.tang else s.tang := by rw [← hx]; split <;> rfl
      rw [hls] at hl
      exact ⟨hmm, rfl, htt, hl⟩

theorem nlIterate_nan (p : NlPar K) (env : StepEnv K V) (iter : Nat) (nt : Bool) (s : StepState K V)
    (h : nlIterate p env iter nt s = .nan) : 0 < p.eta ∧ env.energy0 (iter+1) = 0 := by
  unfold nlIterate at h
  dsimp only at h
  split at h
  · simp at h
  split at h
  · simp at h
  generalize (if (if ((iter + 1 : Nat) : Int) > p.nupdat then false else nt) = true then
    ({ls := updCfg p.linear (env.linsol iter) s.ls, mem := s.mem, tang := (iter + 1) :: s.tang} : StepState K V)
    else {ls := updCfg p.linear (env.linsol iter) s.ls, mem := s.mem, tang := s.tang}) = sx at h
  cases ha : env.asmbl (iter+1) with
  | diverged => rw [ha] at h; simp at h
  | fail => rw [ha] at h; simp at h
  | ok =>
    rw [ha] at h
    dsimp only at h
    split at h
    · simp at h
    split at h
    · simp at h
    split at h
    · simp at h
    · rename_i hl
      unfold lineSearch at hl
      split at hl
      · simp at hl
      · rename_i he
        exact ⟨not_le.mp he, lsLoop_nan _ _ _ _ _ _ _ _ _ _ _ _ hl⟩
    · simp at h

theorem nlLoop_spec (p : NlPar K) (ha : 0 ≤ p.aTol) (env : StepEnv K V) (R : K) (hR : 0 ≤ R) (N n iter : Nat) (nt : Bool) (s s' : StepState K V)
    (st : ConvStatus) (k : Nat) (hn : n + iter = N) (hm : MemIn p.toConvPar R env.norm iter s.mem)
    (hg : ∀ j < iter, Goes p.toConvPar R env.norm env.inc j)
    (h : nlLoop p env n iter nt s = some (st, k, s')) : Verdict p.toConvPar env R N st k := by
  induction n generalizing iter nt s with
  | zero =>
    simp only [nlLoop, Option.some.injEq, Prod.mk.injEq] at h
    obtain ⟨rfl, rfl, -⟩ := h
    exact ⟨by omega, hg, Or.inr (Or.inl ⟨rfl, Or.inr (Or.inl (by omega))⟩)⟩
  | succ n ih =>
    have hlin : iter ≠ 0 → p.linear = false := by
      intro h0
      by_contra hc
      exact (hg 0 (by omega)).1 (Or.inl ⟨rfl, Or.inl (by simpa using hc)⟩)
    have hck := nlCheck_spec p.toConvPar R hR ha env.norm env.inc iter s.mem hm hlin
    rw [nlLoop] at h
    dsimp only at h hck
    generalize nlCheck p.toConvPar (iter : Int) (env.norm iter) (env.inc iter) s.mem = c at h hck
    obtain ⟨cs, cm⟩ := c
    dsimp only at h hck
    by_cases h1 : cs = .converged
    · rw [if_pos h1] at h
      split at h
      · simp only [Option.some.injEq, Prod.mk.injEq] at h
        obtain ⟨rfl, rfl, -⟩ := h
        refine ⟨by omega, hg, Or.inr (Or.inr ⟨rfl, ?_⟩)⟩
        simp_all [OpFailed]
      · split at h
        · simp only [Option.some.injEq, Prod.mk.injEq] at h
          obtain ⟨rfl, rfl, -⟩ := h
          refine ⟨by omega, hg, Or.inr (Or.inr ⟨rfl, ?_⟩)⟩
          simp_all [OpFailed]
        · simp only [Option.some.injEq, Prod.mk.injEq] at h
          obtain ⟨rfl, rfl, -⟩ := h
          exact ⟨by omega, hg, Or.inl ⟨rfl, by omega, hck.1.mp h1⟩⟩
    rw [if_neg h1] at h
    by_cases h2 : cs = .diverged
    · rw [if_pos h2] at h
      simp only [Option.some.injEq, Prod.mk.injEq] at h
      obtain ⟨rfl, rfl, -⟩ := h
      exact ⟨by omega, hg, Or.inr (Or.inl ⟨rfl, Or.inl ⟨by omega, hck.2.1.mp h2⟩⟩)⟩
    rw [if_neg h2] at h
    have hgo : Goes p.toConvPar R env.norm env.inc iter := ⟨fun h => h1 (hck.1.mpr h), fun h => h2 (hck.2.1.mpr h)⟩
    have hg' : ∀ j < iter + 1, Goes p.toConvPar R env.norm env.inc j := by
      intro j hj
      rcases Nat.lt_succ_iff_lt_or_eq.mp hj with h | h
      · exact hg j h
      · rw [h]; exact hgo
    split at h
    · rename_i st1 s1 hst
      simp only [Option.some.injEq, Prod.mk.injEq] at h
      obtain ⟨rfl, rfl, -⟩ := h
      refine ⟨by omega, hg', Or.inr ?_⟩
      rcases nlIterate_stop _ _ _ _ _ _ _ hst with ⟨e, ho⟩ | ⟨e, ho⟩
      · exact Or.inl ⟨e, Or.inr (Or.inr ho)⟩
      · exact Or.inr ⟨e, ho⟩
    · simp at h
    · rename_i nt1 s1 hst
      refine ih (iter+1) nt1 s1 (by omega) ?_ hg' h
      rw [MemIn, (nlIterate_cont _ _ _ _ _ _ _ hst).1]
      exact hck.2.2.2 hgo

/-- **C32** (quasi-static driver: soundness). Whatever the FE model answers, a step ends after at most `maxit+1` iterations, with one of
the verdicts converged, diverged and failure, and the verdict is justified: the iterations before the last one met neither criterion;
convergence is reported only if the convergence criterion is met, divergence only if the divergence criterion is met, the iteration limit is
exceeded or the FE model itself reported divergence, and failure only if an operation failed. -/
theorem C32_verdict (p : NlPar K) (ha : 0 ≤ p.aTol) (env : StepEnv K V) (tfirst : Bool) (u : V) (mem : ConvMem K) (h0 : 0 ≤ mem.refNorm)
    (st : ConvStatus) (k : Nat) (s' : StepState K V) (h : nlSolveStep p env tfirst u mem = some (st, k, s')) :
    Verdict p.toConvPar env (refOf p.toConvPar mem.refNorm (env.norm 0)) (p.maxit + 1).toNat st k := by
  unfold nlSolveStep at h
  dsimp only at h
  split at h
  · rename_i hd
    simp only [Option.some.injEq, Prod.mk.injEq] at h
    obtain ⟨rfl, rfl, -⟩ := h
    refine ⟨by omega, by simp, Or.inr (Or.inr ⟨rfl, ?_⟩)⟩
    simp_all [OpFailed]
  generalize hx : (if (tfirst || p.notNone) = true then
      ({ ls := { u := if p.fromIni = true then 0 else u, alpha := 1, alphaO := 1 }, mem := mem, tang := [0] } : StepState K V)
    else { ls := { u := if p.fromIni = true then 0 else u, alpha := 1, alphaO := 1 }, mem := mem, tang := [] }) = sx at h
  have hsm : sx.mem = mem := by rw [← hx]; split <;> rfl
  cases hA : env.asmbl 0 with
  | diverged =>
    rw [hA] at h
    simp only [Option.some.injEq, Prod.mk.injEq] at h
    obtain ⟨rfl, rfl, -⟩ := h
    exact ⟨by omega, by simp, Or.inr (Or.inl ⟨rfl, Or.inr (Or.inr hA)⟩)⟩
  | fail =>
    rw [hA] at h
    simp only [Option.some.injEq, Prod.mk.injEq] at h
    obtain ⟨rfl, rfl, -⟩ := h
    refine ⟨by omega, by simp, Or.inr (Or.inr ⟨rfl, ?_⟩)⟩
    simp [OpFailed, hA]
  | ok =>
    rw [hA] at h
    dsimp only at h
    split at h
    · rename_i hd
      simp only [Option.some.injEq, Prod.mk.injEq] at h
      obtain ⟨rfl, rfl, -⟩ := h
      refine ⟨by omega, by simp, Or.inr (Or.inr ⟨rfl, ?_⟩)⟩
      simp only [Bool.and_eq_true] at hd
      simp [OpFailed, not_false_of hd.2]
    split at h
    · rename_i hd
      simp only [Option.some.injEq, Prod.mk.injEq] at h
      obtain ⟨rfl, rfl, -⟩ := h
      refine ⟨by omega, by simp, Or.inr (Or.inr ⟨rfl, ?_⟩)⟩
      simp [OpFailed, not_false_of hd]
    exact nlLoop_spec p ha env _ (refOf_nonneg _ _ h0 _) _ _ 0 _ sx s' st k (by omega) (by rw [MemIn, hsm]; exact ⟨h0, rfl⟩) (by simp) h

theorem nlLoop_isSome (p : NlPar K) (env : StepEnv K V) (n iter : Nat) (nt : Bool) (s : StepState K V)
    (hnan : p.eta ≤ 0 ∨ ∀ j, env.energy0 j ≠ 0) : (nlLoop p env n iter nt s).isSome = true := by
  induction n generalizing iter nt s with
  | zero => rfl
  | succ n ih =>
    rw [nlLoop]
    dsimp only
    split
    · split
      · rfl
      · split <;> rfl
    split
    · rfl
    split
    · rfl
    · rename_i hst
      have := nlIterate_nan _ _ _ _ _ hst
      rcases hnan with h | h
      · exact absurd this.1 (not_lt.mpr h)
      · exact absurd this.2 (h _)
    · exact ih _ _ _

/-- **C32** (quasi-static driver: completeness). If the FE model performs all operations successfully, and the line search (if any) starts from
nonzero energies, the step converges if and exactly in the iteration where the convergence criterion is first met, provided that
the divergence criterion is not met before and the iteration limit is not exceeded; otherwise it diverges. -/
theorem C32_complete (p : NlPar K) (ha : 0 ≤ p.aTol) (env : StepEnv K V) (tfirst : Bool) (u : V) (mem : ConvMem K) (h0 : 0 ≤ mem.refNorm)
    (hops : ∀ j, ¬ OpFailed env j) (hasm : ∀ j, env.asmbl j = .ok) (hnan : p.eta ≤ 0 ∨ ∀ j, env.energy0 j ≠ 0) :
    ∃ st k s', nlSolveStep p env tfirst u mem = some (st, k, s') ∧ (st = .converged ∨ st = .diverged) ∧
      (st = .converged ↔ ∃ k0 : Nat, (k0 : Int) ≤ p.maxit ∧ Cvg p.toConvPar (refOf p.toConvPar mem.refNorm (env.norm 0)) env.norm env.inc k0 ∧
        ∀ j < k0, ¬ Dvg p.toConvPar (refOf p.toConvPar mem.refNorm (env.norm 0)) env.norm env.inc j) ∧
      (st = .converged → Cvg p.toConvPar (refOf p.toConvPar mem.refNorm (env.norm 0)) env.norm env.inc k ∧
        ∀ j < k, ¬ Cvg p.toConvPar (refOf p.toConvPar mem.refNorm (env.norm 0)) env.norm env.inc j) := by
  have hsome : (nlSolveStep p env tfirst u mem).isSome = true := by
    unfold nlSolveStep
    dsimp only
    split
    · rfl
    rw [hasm 0]
    dsimp only
    split
    · rfl
    split
    · rfl
    exact nlLoop_isSome p env _ _ _ _ hnan
  obtain ⟨⟨st, k, s'⟩, he⟩ := Option.isSome_iff_exists.mp hsome
  have hv := C32_verdict p ha env tfirst u mem h0 st k s' he
  generalize refOf p.toConvPar mem.refNorm (env.norm 0) = R at *
  obtain ⟨hkN, hgo, hv⟩ := hv
  have conv_of : st = .converged → k < (p.maxit + 1).toNat ∧ Cvg p.toConvPar R env.norm env.inc k := by
    intro h
    rcases hv with ⟨-, h1, h2⟩ | ⟨h1, -⟩ | ⟨h1, -⟩
    · exact ⟨h1, h2⟩
    · rw [h] at h1; exact absurd h1 (by decide)
    · rw [h] at h1; exact absurd h1 (by decide)
  refine ⟨st, k, s', he, ?_, ⟨fun h => ?_, ?_⟩, fun h => ⟨(conv_of h).2, fun j hj => (hgo j hj).1⟩⟩
  · rcases hv with ⟨h1, -⟩ | ⟨h1, -⟩ | ⟨-, h1⟩
    · exact Or.inl h1
    · exact Or.inr h1
    · exact absurd h1 (hops k)
  · exact ⟨k, by have := (conv_of h).1; omega, (conv_of h).2, fun j hj => (hgo j hj).2⟩
  · rintro ⟨k0, hk0, hc0, hd0⟩
    rcases hv with ⟨h1, -⟩ | ⟨h1, h2⟩ | ⟨-, h1⟩
    · exact h1
    · exfalso
      have hle : k ≤ k0 := by
        by_contra hlt
        exact (hgo k0 (by omega)).1 hc0
      rcases h2 with ⟨h3, h4⟩ | h3 | h3
      · rcases Nat.lt_or_eq_of_le hle with h5 | h5
        · exact hd0 k h5 h4
        · rw [h5] at h4; exact h4.1 hc0
      · omega
      · rw [hasm k] at h3; exact absurd h3 (by decide)
    · exact absurd h1 (hops k)

/-! ### The accumulated solution -/

theorem ls_step (p : NlPar K) (hl : p.linear = false) (e0 : K) (e : Nat → Option K) (linsol : V) (s s' : LsState K V) (h1 : s.alpha = 1 ∨ 0 < p.eta)
    (h : lineSearch p.linear p.eta e0 e linsol s = .done s') :
    (∃ t : K, s'.u + s'.alpha • linsol = s.u + t • linsol ∧ 1/2 ≤ t ∧ t ≤ 3/2 ∧ (p.eta ≤ 0 → t = 1)) ∧ (s'.alpha = 1 ∨ 0 < p.eta) := by
  by_cases he : p.eta ≤ 0
  · rw [C33_no_line_search _ _ _ he] at h
    injection h with h
    subst h
    rcases h1 with h1 | h1
    · refine ⟨⟨1, by rw [h1], by norm_num, by norm_num, fun _ => rfl⟩, Or.inl h1⟩
    · exact absurd he (not_le.mpr h1)
  · rw [hl] at h
    obtain ⟨t, e1, e2, e3, -⟩ := C33_line_search p.eta e0 (not_le.mp he) e linsol s s' h
    exact ⟨⟨t, e1, e2, e3, fun h => absurd h he⟩, Or.inr (not_le.mp he)⟩

theorem combo_congr {a b : Nat → K} (x : Nat → V) (k : Nat) (h : ∀ j ≤ k, a j = b j) : combo a x k = combo b x k := by
  induction k with
  | zero => simp [combo, h 0 (by omega)]
  | succ k ih => rw [combo, combo, ih (fun j hj => h j (by omega)), h (k+1) (by omega)]

theorem nlLoop_solution (p : NlPar K) (hl : p.linear = false) (env : StepEnv K V) (u0 : V) (base : Bool) (n iter : Nat) (nt : Bool) (s s' : StepState K V)
    (k : Nat) (a : Nat → K) (ha0 : a 0 = 1) (har : ∀ j, 1/2 ≤ a j ∧ a j ≤ 3/2 ∧ (p.eta ≤ 0 → a j = 1))
    (hu : s.ls.u + s.ls.alpha • env.linsol iter = u0 + combo a env.linsol iter) (h1 : s.ls.alpha = 1 ∨ 0 < p.eta)
    (hnt : nt = true ↔ base = true ∧ (iter = 0 ∨ (iter : Int) ≤ p.nupdat))
    (htg : ∀ j, j ∈ s.tang ↔ j ≤ iter ∧ base = true ∧ (j = 0 ∨ (j : Int) ≤ p.nupdat))
    (h : nlLoop p env n iter nt s = some (.converged, k, s')) :
    (∃ a : Nat → K, a 0 = 1 ∧ (∀ j, 1/2 ≤ a j ∧ a j ≤ 3/2 ∧ (p.eta ≤ 0 → a j = 1)) ∧ s'.ls.u = u0 + combo a env.linsol k) ∧
    (∀ j, j ∈ s'.tang ↔ j ≤ k ∧ base = true ∧ (j = 0 ∨ (j : Int) ≤ p.nupdat)) := by
  induction n generalizing iter nt s a with
  | zero => simp [nlLoop] at h
  | succ n ih =>
    rw [nlLoop] at h
    dsimp only at h
    have hupd : updCfg p.linear (env.linsol iter) s.ls = { s.ls with u := u0 + combo a env.linsol iter } := by
      rw [hl, updCfg_nl, hu]
    split at h
    · split at h
      · simp at h
      split at h
      · simp at h
      simp only [Option.some.injEq, Prod.mk.injEq, true_and] at h
      obtain ⟨rfl, rfl⟩ := h
      refine ⟨⟨a, ha0, har, ?_⟩, htg⟩
      dsimp only
      rw [hupd]
    split at h
    · simp at h
    split at h
    · rename_i st1 s1 hst
      simp only [Option.some.injEq, Prod.mk.injEq] at h
      rcases nlIterate_stop _ _ _ _ _ _ _ hst with ⟨e, -⟩ | ⟨e, -⟩ <;> rw [e] at h <;> exact absurd h.1 (by decide)
    · simp at h
    · rename_i nt1 s1 hst
      obtain ⟨-, e2, e3, e4⟩ := nlIterate_cont _ _ _ _ _ _ _ hst
      dsimp only at e3 e4
      rw [hupd] at e4
      obtain ⟨⟨t, ht, ht1, ht2, ht3⟩, hal⟩ := ls_step p hl _ _ _ _ _ (by exact h1) e4
      dsimp only at ht
      have hnt1 : nt1 = true ↔ base = true ∧ (iter + 1 = 0 ∨ ((iter + 1 : Nat) : Int) ≤ p.nupdat) := by
        rw [e2]
        split
        · simp; intro _; omega
        · rw [hnt]
          constructor
          · rintro ⟨hb, -⟩; exact ⟨hb, Or.inr (by omega)⟩
          · rintro ⟨hb, -⟩; exact ⟨hb, Or.inr (by push_cast at *; omega)⟩
      refine ih (iter+1) nt1 s1 (fun j => if j = iter + 1 then t else a j) (by simp [ha0]) ?_ ?_ hal hnt1 ?_ h
      · intro j
        split
        · exact ⟨ht1, ht2, ht3⟩
        · exact har j
      · rw [ht, combo]
        rw [if_pos rfl, combo_congr env.linsol iter (a := fun j => if j = iter + 1 then t else a j) (b := a)
          (fun j hj => by rw [if_neg (by omega)])]
        abel
      · intro j
        rw [e3]
        by_cases hb : nt1 = true
        · rw [if_pos hb, List.mem_cons, htg j]
          have := hnt1.mp hb
          constructor
          · rintro (rfl | ⟨h1, h2⟩)
            · exact ⟨le_refl _, this.1, this.2⟩
            · exact ⟨by omega, h2⟩
          · rintro ⟨h1, h2⟩
            by_cases hj : j = iter + 1
            · exact Or.inl hj
            · exact Or.inr ⟨by omega, h2⟩
        · rw [if_neg hb, htg j]
          constructor
          · rintro ⟨h1, h2⟩; exact ⟨by omega, h2⟩
          · rintro ⟨h1, h2⟩
            refine ⟨?_, h2⟩
            by_contra hj
            have : j = iter + 1 := by omega
            subst this
            exact hb (hnt1.mpr h2)

/-- **C46**. A converged step of a nonlinear problem has added every computed solution increment exactly once: the first one as it is, the others
with a step length in `[0.5,1.5]`, which is one without line search.  A new tangent matrix has been assembled exactly in the
first `nupdat` iterations and at the start of the step (if at all). -/
theorem C46_increments_once (p : NlPar K) (hl : p.linear = false) (env : StepEnv K V) (tfirst : Bool) (u : V) (mem : ConvMem K)
    (k : Nat) (s' : StepState K V) (h : nlSolveStep p env tfirst u mem = some (.converged, k, s')) :
    (∃ a : Nat → K, a 0 = 1 ∧ (∀ j, 1/2 ≤ a j ∧ a j ≤ 3/2 ∧ (p.eta ≤ 0 → a j = 1)) ∧
      s'.ls.u = (if p.fromIni then 0 else u) + combo a env.linsol k) ∧
    (∀ j, j ∈ s'.tang ↔ j ≤ k ∧ (tfirst || p.notNone) = true ∧ (j = 0 ∨ (j : Int) ≤ p.nupdat)) := by
  unfold nlSolveStep at h
  dsimp only at h
  split at h
  · simp at h
  generalize hx : (if (tfirst || p.notNone) = true then
      ({ ls := { u := if p.fromIni = true then 0 else u, alpha := 1, alphaO := 1 }, mem := mem, tang := [0] } : StepState K V)
    else { ls := { u := if p.fromIni = true then 0 else u, alpha := 1, alphaO := 1 }, mem := mem, tang := [] }) = sx at h
  have hls : sx.ls = { u := if p.fromIni = true then 0 else u, alpha := 1, alphaO := 1 } := by rw [← hx]; split <;> rfl
  have htg : sx.tang = if (tfirst || p.notNone) = true then [0] else [] := by rw [← hx]; split <;> rfl
  cases hA : env.asmbl 0 with
  | diverged => rw [hA] at h; simp at h
  | fail => rw [hA] at h; simp at h
  | ok =>
    rw [hA] at h
    dsimp only at h
    split at h
    · simp at h
    split at h
    · simp at h
    refine nlLoop_solution p hl env _ (tfirst || p.notNone) _ 0 _ sx s' k (fun _ => 1) rfl (fun j => by norm_num) ?_ ?_ ?_ ?_ h
    · rw [hls]; simp [combo]
    · rw [hls]; exact Or.inl rfl
    · simp
    · intro j
      rw [htg]
      split
      · rename_i hb
        simp only [List.mem_singleton]
        constructor
        · rintro rfl; exact ⟨le_refl _, hb, Or.inl rfl⟩
        · rintro ⟨h1, -⟩; omega
      · rename_i hb
        simp [hb]

/-- **C46** (linear problem). A linear problem is solved by one solution of the equation system, which replaces the current solution. -/
theorem C46_linear (p : NlPar K) (hl : p.linear = true) (hm : 0 ≤ p.maxit) (env : StepEnv K V) (tfirst : Bool) (u : V) (mem : ConvMem K)
    (hops : ∀ j, ¬ OpFailed env j) (hasm : env.asmbl 0 = .ok) :
    ∃ s', nlSolveStep p env tfirst u mem = some (.converged, 0, s') ∧ s'.ls.u = env.linsol 0 := by
  have ho := hops 0
  simp only [OpFailed, not_or, Bool.not_eq_false] at ho
  obtain ⟨h1, h2, h3, h4, h5, h6, h7, h8, h9⟩ := ho
  obtain ⟨n, hn⟩ : ∃ n, (p.maxit + 1).toNat = n + 1 := ⟨p.maxit.toNat, by omega⟩
  have hck : ∀ m, nlCheck p.toConvPar ((0 : Nat) : Int) (env.norm 0) (env.inc 0) m = (.converged, m) := by
    intro m; unfold nlCheck; rw [if_pos hl]
  unfold nlSolveStep
  dsimp only
  rw [if_neg (by simp [h2]), hasm]
  dsimp only
  rw [if_neg (by simp [h5]), if_neg (by simp [h6]), hn, nlLoop]
  simp only [hck, h8, h9]
  refine ⟨_, rfl, ?_⟩
  simp [updCfg, hl]

/-! ### The dynamic driver -/

theorem nmIterate_stop (p : ConvPar K) (nupdat : Int) (env : StepEnv K V) (iter : Nat) (nt : Bool) (s s' : NmState K V) (st : ConvStatus)
    (h : nmIterate p nupdat env iter nt s = .inl (st, s')) :
    st = .failure ∧ (OpFailed env (iter+1) ∨ env.asmbl (iter+1) ≠ .ok) := by
  unfold nmIterate at h
  dsimp only at h
  split at h
  · rename_i hu; simp only [Sum.inl.injEq, Prod.mk.injEq] at h; exact ⟨h.1.symm, Or.inl (by simp [OpFailed, not_false_of hu])⟩
  split at h
  · rename_i hu; simp only [Sum.inl.injEq, Prod.mk.injEq] at h
    simp only [Bool.and_eq_true] at hu
    exact ⟨h.1.symm, Or.inl (by simp [OpFailed, not_false_of hu.2])⟩
  split at h
  · rename_i hu; simp only [Sum.inl.injEq, Prod.mk.injEq] at h; exact ⟨h.1.symm, Or.inr hu⟩
  split at h
  · rename_i hu; simp only [Sum.inl.injEq, Prod.mk.injEq] at h; exact ⟨h.1.symm, Or.inl (by simp [OpFailed, not_false_of hu])⟩
  split at h
  · rename_i hu; simp only [Sum.inl.injEq, Prod.mk.injEq] at h; exact ⟨h.1.symm, Or.inl (by simp [OpFailed, not_false_of hu])⟩
  · simp at h

theorem nmIterate_cont (p : ConvPar K) (nupdat : Int) (env : StepEnv K V) (iter : Nat) (nt nt' : Bool) (s s' : NmState K V)
    (h : nmIterate p nupdat env iter nt s = .inr (nt', s')) :
    s'.mem = s.mem ∧ nt' = (if ((iter + 1 : Nat) : Int) > nupdat then false else nt) ∧
    s'.tang = (if nt' = true then (iter+1) :: s.tang else s.tang) ∧ s'.corr = (env.linsol iter, false) :: s.corr := by
  unfold nmIterate at h
  dsimp only at h
  generalize (if ((iter + 1 : Nat) : Int) > nupdat then false else nt) = nn at h ⊢
  split at h
  · simp at h
  split at h
  · simp at h
  split at h
  · simp at h
  split at h
  · simp at h
  split at h
  · simp at h
  simp only [Sum.inr.injEq, Prod.mk.injEq] at h
  obtain ⟨rfl, rfl⟩ := h
  refine ⟨?_, rfl, ?_, ?_⟩ <;> (split <;> rfl)

theorem nmLoop_spec (p : ConvPar K) (hl : p.linear = false) (ha : 0 ≤ p.aTol) (nupdat : Int) (env : StepEnv K V) (R : K) (hR : 0 ≤ R)
    (N n iter : Nat) (nt : Bool) (s s' : NmState K V) (st : ConvStatus) (k : Nat) (hn : n + iter = N)
    (hm : MemIn p R env.norm iter s.mem) (hg : ∀ j < iter, Goes p R env.norm env.inc j)
    (hcorr : s.corr = ((List.range iter).map fun j => (env.linsol j, false)).reverse)
    (h : nmLoop p nupdat env n iter nt s = (st, k, s')) :
    k ≤ N ∧ (∀ j < k, Goes p R env.norm env.inc j) ∧
    ((st = .converged ∧ k < N ∧ Cvg p R env.norm env.inc k ∧
        s'.corr = (env.linsol k, true) :: ((List.range k).map fun j => (env.linsol j, false)).reverse) ∨
     (st = .diverged ∧ ((k < N ∧ Dvg p R env.norm env.inc k) ∨ k = N)) ∨
     (st = .failure ∧ (OpFailed env k ∨ env.asmbl k ≠ .ok))) := by
  induction n generalizing iter nt s with
  | zero =>
    simp only [nmLoop, Prod.mk.injEq] at h
    obtain ⟨rfl, rfl, -⟩ := h
    exact ⟨by omega, hg, Or.inr (Or.inl ⟨rfl, Or.inr (by omega)⟩)⟩
  | succ n ih =>
    have hck := nmCheck_spec p R hR ha env.norm env.inc iter s.mem hm hl
    rw [nmLoop] at h
    dsimp only at h hck
    generalize nmCheck p (iter : Int) (env.norm iter) (env.inc iter) s.mem = c at h hck
    obtain ⟨cs, cm⟩ := c
    dsimp only at h hck
    by_cases h1 : cs = .converged
    · rw [if_pos h1] at h
      split at h
      · simp only [Prod.mk.injEq] at h
        obtain ⟨rfl, rfl, -⟩ := h
        refine ⟨by omega, hg, Or.inr (Or.inr ⟨rfl, ?_⟩)⟩
        simp_all [OpFailed]
      · split at h
        · simp only [Prod.mk.injEq] at h
          obtain ⟨rfl, rfl, -⟩ := h
          refine ⟨by omega, hg, Or.inr (Or.inr ⟨rfl, ?_⟩)⟩
          simp_all [OpFailed]
        · simp only [Prod.mk.injEq] at h
          obtain ⟨rfl, rfl, rfl⟩ := h
          exact ⟨by omega, hg, Or.inl ⟨rfl, by omega, hck.1.mp h1, by dsimp only; rw [hcorr]⟩⟩
    rw [if_neg h1] at h
    by_cases h2 : cs = .diverged
    · rw [if_pos h2] at h
      simp only [Prod.mk.injEq] at h
      obtain ⟨rfl, rfl, -⟩ := h
      exact ⟨by omega, hg, Or.inr (Or.inl ⟨rfl, Or.inl ⟨by omega, hck.2.1.mp h2⟩⟩)⟩
    rw [if_neg h2] at h
    have hgo : Goes p R env.norm env.inc iter := ⟨fun h => h1 (hck.1.mpr h), fun h => h2 (hck.2.1.mpr h)⟩
    have hg' : ∀ j < iter + 1, Goes p R env.norm env.inc j := by
      intro j hj
      rcases Nat.lt_succ_iff_lt_or_eq.mp hj with h | h
      · exact hg j h
      · rw [h]; exact hgo
    split at h
    · rename_i st1 s1 hst
      simp only [Prod.mk.injEq] at h
      obtain ⟨rfl, rfl, -⟩ := h
      exact ⟨by omega, hg', Or.inr (Or.inr (nmIterate_stop _ _ _ _ _ _ _ _ hst))⟩
    · rename_i nt1 s1 hst
      obtain ⟨e1, -, -, e4⟩ := nmIterate_cont _ _ _ _ _ _ _ _ hst
      refine ih (iter+1) nt1 s1 (by omega) ?_ hg' ?_ h
      · rw [MemIn, e1]
        exact hck.2.2.2 hgo
      · rw [e4]
        dsimp only
        rw [hcorr, List.range_succ, List.map_append, List.reverse_append]
        rfl

/-- **C32**/**C46** (dynamic driver). Whatever the FE model answers, a time step ends after at most `maxit+1` iterations with a justified verdict; and
when it converges, each of the computed increments has been passed to `correctStep` exactly once, in order, the last one
with the convergence flag. -/
theorem C32_verdict_dynamic (p : ConvPar K) (hl : p.linear = false) (ha : 0 ≤ p.aTol) (nupdat : Int) (env : StepEnv K V) (tfirst : Bool)
    (mem : ConvMem K) (h0 : 0 ≤ mem.refNorm) (st : ConvStatus) (k : Nat) (s' : NmState K V)
    (h : nmSolveStep p nupdat env tfirst mem = (st, k, s')) :
    k ≤ (p.maxit + 1).toNat ∧ (∀ j < k, Goes p (refOf p mem.refNorm (env.norm 0)) env.norm env.inc j) ∧
    ((st = .converged ∧ (k : Int) ≤ p.maxit ∧ Cvg p (refOf p mem.refNorm (env.norm 0)) env.norm env.inc k ∧
        s'.corr = (env.linsol k, true) :: ((List.range k).map fun j => (env.linsol j, false)).reverse) ∨
     (st = .diverged ∧ (((k : Int) ≤ p.maxit ∧ Dvg p (refOf p mem.refNorm (env.norm 0)) env.norm env.inc k) ∨ k = (p.maxit + 1).toNat)) ∨
     (st = .failure ∧ (OpFailed env k ∨ env.asmbl k ≠ .ok))) := by
  unfold nmSolveStep at h
  dsimp only at h
  split at h
  · rename_i hd
    simp only [Prod.mk.injEq] at h
    obtain ⟨rfl, rfl, -⟩ := h
    refine ⟨by omega, by simp, Or.inr (Or.inr ⟨rfl, ?_⟩)⟩
    simp_all [OpFailed]
  generalize hx : (if (tfirst || decide (nupdat > 0)) = true then
      ({ mem := mem, tang := [0], corr := [] } : NmState K V) else { mem := mem, tang := [], corr := [] }) = sx at h
  have hsm : sx.mem = mem := by rw [← hx]; split <;> rfl
  have hsc : sx.corr = [] := by rw [← hx]; split <;> rfl
  split at h
  · rename_i hd
    simp only [Prod.mk.injEq] at h
    obtain ⟨rfl, rfl, -⟩ := h
    exact ⟨by omega, by simp, Or.inr (Or.inr ⟨rfl, Or.inr hd⟩)⟩
  split at h
  · rename_i hd
    simp only [Prod.mk.injEq] at h
    obtain ⟨rfl, rfl, -⟩ := h
    exact ⟨by omega, by simp, Or.inr (Or.inr ⟨rfl, Or.inl (by simp [OpFailed, not_false_of hd])⟩)⟩
  split at h
  · rename_i hd
    simp only [Prod.mk.injEq] at h
    obtain ⟨rfl, rfl, -⟩ := h
    exact ⟨by omega, by simp, Or.inr (Or.inr ⟨rfl, Or.inl (by simp [OpFailed, not_false_of hd])⟩)⟩
  have := nmLoop_spec p hl ha nupdat env _ (refOf_nonneg _ _ h0 _) (p.maxit + 1).toNat _ 0 _ sx s' st k rfl (by rw [MemIn, hsm]; exact ⟨h0, rfl⟩) (by simp)
    (by rw [hsc]; rfl) h
  obtain ⟨h1, h2, h3⟩ := this
  refine ⟨h1, h2, ?_⟩
  rcases h3 with ⟨a, b, c⟩ | ⟨a, b⟩ | h3
  · exact Or.inl ⟨a, by omega, c⟩
  · refine Or.inr (Or.inl ⟨a, ?_⟩)
    rcases b with ⟨b, c⟩ | b
    · exact Or.inl ⟨by omega, c⟩
    · exact Or.inr b
  · exact Or.inr (Or.inr h3)

/-! ### Violations -/

/-- **C32 fails** for two interleaved solvers (F20), since they share tolerance and previous norm: the check of solver A (relative
tolerance `1/10`, initial norm 10) in iteration 1 with norm 2 does not meet A's criterion, but it is reported as converged after solver B
(absolute tolerance `1/2`) has performed its initial check. -/
theorem C32_counterexample_interleaved :
    let pA : ConvPar Rat := ⟨false, true, true, 1/10, 0, 100, 2, 20⟩
    let pB : ConvPar Rat := ⟨false, true, true, 1/10, 1/2, 100, 2, 20⟩
    let a0 := nlCheck pA 0 (some 10) (some 1) ⟨0, 0, some 0, 0⟩
    -- B has its own reference norm, but the static variables are those left by A
    let b0 := nlCheck pB 0 (some 1) (some 1) { a0.2 with refNorm := 0 }
    -- back to A: its reference norm, and the static variables left by B
    let a1 := nlCheck pA 1 (some 2) (some 1) { b0.2 with refNorm := a0.2.refNorm }
    a0.1 = .ok ∧ b0.1 = .ok ∧ a1.1 = .converged ∧ ¬ Cvg pA 10 (fun k => if k = 0 then some 10 else some 2) (fun _ => some 1) 1 := by
  refine ⟨by decide +kernel, by decide +kernel, by decide +kernel, ?_⟩
  rintro (h | ⟨-, x, hx, hs⟩)
  · simp at h
  · simp only [Nat.one_ne_zero, if_false, Option.some.injEq] at hx
    subst hx
    norm_num at hs

/-- Convergence may be reported although the increment, which is added to the solution after the check, is not a number: the residual
norm is tested first. -/
theorem C32_counterexample_nan_increment :
    (nlCheck (⟨false, true, true, 1/10, 0, 100, 2, 20⟩ : ConvPar Rat) 1 (some (1/2)) none ⟨10, 1/10, some 1, 0⟩).1 = .converged := by
  decide +kernel

/-- Non-trivial case: the iteration with norms 10, 2, 1/2 and relative tolerance 1/10 converges in iteration 2. -/
example : (nlSolveStep (K := Rat) (V := Rat) ⟨⟨false, true, false, 1/10, 0, 100, 2, 20⟩, false, true, false, 20, 0⟩
    ⟨true, true, fun _ => .ok, fun _ => true, fun _ => true, fun _ => true, true, true, fun k => k + 1,
      fun k => if k = 0 then some 10 else if k = 1 then some 2 else some (1/2), fun _ => some 1, fun _ => 1, fun _ _ => some 1⟩
    true 5 ⟨0, 0, none, 0⟩).map (fun r => (r.1, r.2.1, r.2.2.ls.u)) = some (.converged, 2, 11) := by
  decide +kernel

end IFEM.Props
