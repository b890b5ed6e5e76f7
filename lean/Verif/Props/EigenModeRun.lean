import Verif.Props.EigenMode
import Mathlib.Algebra.BigOperators.Intervals
import Mathlib.Algebra.Order.BigOperators.Group.Finset
import Mathlib.Tactic.Ring
/-!
# C92: Combination of eigenmodes in time
-/
namespace IFEM.EigMode
open IFEM.Spec

variable {K : Type} [Field K] [LinearOrder K]

theorem normInf_fold (v : List K) (a : K) : a ≤ v.foldl (fun a x => max a |x|) a ∧ (∀ x ∈ v, |x| ≤ v.foldl (fun a x => max a |x|) a) ∧
    (v.foldl (fun a x => max a |x|) a = a ∨ ∃ x ∈ v, |x| = v.foldl (fun a x => max a |x|) a) := by
  induction v generalizing a with
  | nil => simp
  | cons y ys ih =>
    rw [List.foldl_cons]
    obtain ⟨h1, h2, h3⟩ := ih (max a |y|)
    refine ⟨le_trans (le_max_left _ _) h1, ?_, ?_⟩
    · intro x hx
      rcases List.mem_cons.1 hx with rfl | hx
      · exact le_trans (le_max_right _ _) h1
      · exact h2 x hx
    · rcases h3 with e | ⟨x, hx, e⟩
      · rw [e]
        rcases le_total a |y| with c | c
        · right; exact ⟨y, List.mem_cons_self, (max_eq_right c).symm⟩
        · left; exact max_eq_left c
      · right; exact ⟨x, List.mem_cons_of_mem _ hx, e⟩

variable [IsStrictOrderedRing K]

/-- After initialization, the modes are the given ones in the same order, each divided by its largest absolute value, so that all entries are
within [-1,1] and one is 1 or -1 (if the mode is not zero); the angular frequency is the prescribed one if it is above the small number, and
otherwise 2π times the frequency from the eigenvalue solver. -/
theorem C92_modes (twoPi eps : K) (omega : List K) (ms : List (List K × K)) :
    (initModes twoPi eps omega ms).length = ms.length ∧ ∀ (i : Nat) (v : List K) (f : K), ms[i]? = some (v, f) →
      ∃ v', (initModes twoPi eps omega ms)[i]? = some (v', if omega.getD i 0 > eps ∧ i < omega.length then omega.getD i 0 else f * twoPi) ∧
        (∃ c, v' = v.map (· / c) ∧ ((∃ x ∈ v, x ≠ 0) → 0 < c)) ∧
        ((∃ x ∈ v, x ≠ 0) → (∀ y ∈ v', |y| ≤ 1) ∧ ∃ y ∈ v', |y| = 1) := by
  constructor
  · simp [initModes]
  · intro i v f hi
    have hlt : i < ms.length := (List.getElem?_eq_some_iff.1 hi).1
    have hd : ms.getD i ([], 0) = (v, f) := by rw [List.getD_eq_getElem?_getD, hi]; rfl
    obtain ⟨h1, h2, h3⟩ := normInf_fold v 0
    have hpos : (∃ x ∈ v, x ≠ 0) → 0 < normInf v := by
      rintro ⟨x, hx, hne⟩
      exact lt_of_lt_of_le (abs_pos.2 hne) (h2 x hx)
    refine ⟨v.map (· / normInf v), ?_, ⟨_, rfl, hpos⟩, ?_⟩
    · unfold initModes
      rw [List.getElem?_map, List.getElem?_range hlt, Option.map_some, hd]
      unfold scaleMode
      dsimp only
      by_cases c : i < omega.length
      · rw [List.getElem?_eq_getElem c, List.getD_eq_getElem?_getD, List.getElem?_eq_getElem c]
        simp only [c, and_true, Option.getD_some]
      · rw [List.getElem?_eq_none (by omega), if_neg (by tauto)]
    · intro hx
      have hp := hpos hx
      constructor
      · intro y hy
        obtain ⟨x, hx', rfl⟩ := List.mem_map.1 hy
        rw [abs_div, abs_of_pos hp, div_le_one hp]
        exact h2 x hx'
      · rcases h3 with e | ⟨x, hx', e⟩
        · exact absurd (show normInf v = 0 from e) (ne_of_gt hp)
        · refine ⟨_, List.mem_map.2 ⟨x, hx', rfl⟩, ?_⟩
          rw [abs_div, abs_of_pos hp, e]
          exact div_self (ne_of_gt hp)

omit [LinearOrder K] [IsStrictOrderedRing K] in
theorem axpy_getD (u x : List K) (a : K) (p : Nat) (hp : p < u.length) : (axpy u x a).getD p 0 = u.getD p 0 + a * x.getD p 0 := by
  unfold axpy
  rw [List.getD_eq_getElem?_getD, List.getElem?_map, List.getElem?_range hp, Option.map_some, Option.getD_some]
  split
  · rfl
  · next h =>
    rw [List.getD_eq_getElem?_getD (l := x), List.getElem?_eq_none (by omega)]
    simp

omit [IsStrictOrderedRing K] in
/-- Each entry of the displacement is the sum over the modes of the amplitude, if it is above the small number, times the sine of the angular
frequency times the time, times the entry of the mode. -/
theorem C92_entries (sinf : K → K) (eps : K) (amp : List K) (ms : List (List K × K)) (ndof : Nat) (t : K) (p : Nat) (hp : p < ndof) :
    (combine sinf eps amp ms ndof t).length = ndof ∧
    (combine sinf eps amp ms ndof t).getD p 0 = modeSum sinf (min amp.length ms.length) (fun i => if amp.getD i 0 > eps then amp.getD i 0 else 0)
      (fun i => (ms.getD i ([], 0)).2) (fun i => (ms.getD i ([], 0)).1.getD p 0) t := by
  unfold combine modeSum
  induction min amp.length ms.length with
  | zero =>
    refine ⟨List.length_replicate, ?_⟩
    rw [List.range_zero, List.foldl_nil, Finset.sum_range_zero, List.getD_eq_getElem?_getD, List.getElem?_replicate, if_pos hp]
    rfl
  | succ n ih =>
    obtain ⟨h1, h2⟩ := ih
    rw [List.range_succ, List.foldl_append, List.foldl_cons, List.foldl_nil, Finset.sum_range_succ]
    generalize (List.range n).foldl _ _ = u at h1 h2 ⊢
    beta_reduce at h2 ⊢
    by_cases c : amp.getD n 0 > eps
    · rw [if_pos c, if_pos c]
      refine ⟨by unfold axpy; rw [List.length_map, List.length_range, h1], ?_⟩
      rw [axpy_getD _ _ _ _ (by omega), h2]
    · rw [if_neg c, if_neg c]
      refine ⟨h1, ?_⟩
      rw [h2]; ring

omit [IsStrictOrderedRing K] in
/-- If all amplitudes are above the small number or zero, the displacement is the combination `Σ a_i sin(ω_i t) v_i` of all given modes. -/
theorem C92_combination (sinf : K → K) (eps : K) (amp : List K) (ms : List (List K × K)) (ndof : Nat) (t : K)
    (ha : ∀ i, amp.getD i 0 > eps ∨ amp.getD i 0 = 0) (hl : amp.length ≤ ms.length) (p : Nat) (hp : p < ndof) :
    (combine sinf eps amp ms ndof t).getD p 0 = modeSum sinf ms.length (fun i => amp.getD i 0)
      (fun i => (ms.getD i ([], 0)).2) (fun i => (ms.getD i ([], 0)).1.getD p 0) t := by
  rw [(C92_entries sinf eps amp ms ndof t p hp).2]
  unfold modeSum
  rw [Nat.min_eq_left hl]
  have h1 : ∀ i ∈ Finset.range amp.length, (if amp.getD i 0 > eps then amp.getD i 0 else 0) * sinf ((ms.getD i ([], 0)).2 * t) *
      (ms.getD i ([], 0)).1.getD p 0 = amp.getD i 0 * sinf ((ms.getD i ([], 0)).2 * t) * (ms.getD i ([], 0)).1.getD p 0 := by
    intro i _
    rcases ha i with h | h
    · rw [if_pos h]
    · rw [h, ite_self]
  rw [Finset.sum_congr rfl h1]
  refine Finset.sum_subset (Finset.range_mono hl) ?_
  intro i _ hi
  rw [Finset.mem_range, not_lt] at hi
  rw [List.getD_eq_getElem?_getD (l := amp), List.getElem?_eq_none (by omega)]
  simp

/-- Finding F187: modes with negative amplitude are left out. -/
theorem C92_negative (sinf : K → K) (eps : K) (he : 0 ≤ eps) (amp : List K) (ms : List (List K × K)) (ndof : Nat) (t : K) (i : Nat)
    (hi : amp.getD i 0 < 0) (p : Nat) (hp : p < ndof) :
    (combine sinf eps amp ms ndof t).getD p 0 = (combine sinf eps (amp.set i 0) ms ndof t).getD p 0 := by
  rw [(C92_entries sinf eps amp ms ndof t p hp).2, (C92_entries sinf eps (amp.set i 0) ms ndof t p hp).2]
  unfold modeSum
  rw [List.length_set]
  refine Finset.sum_congr rfl ?_
  intro j hj
  congr 2
  beta_reduce
  rw [Finset.mem_range] at hj
  by_cases c : j = i
  · subst c
    rw [set_getD _ _ _ _ (by omega), if_pos rfl, ite_self, if_neg (by exact not_lt.2 (le_trans (le_of_lt hi) he))]
  · have : (amp.set i 0).getD j 0 = amp.getD j 0 := by
      rw [List.getD_eq_getElem?_getD, List.getD_eq_getElem?_getD, List.getElem?_set, if_neg (Ne.symm c)]
    rw [this]

theorem runSteps_started (sinf : K → K) (eps : K) (amp : List K) (ms : List (List K × K)) (ndof : Nat) (start : K) (h : 0 ≤ start)
    (steps : List (K × K)) : runSteps sinf eps amp ms ndof start steps = steps.map fun s => combine sinf eps amp ms ndof (s.1 - start) := by
  induction steps with
  | nil => rfl
  | cons s ss ih =>
    obtain ⟨t, dt⟩ := s
    unfold runSteps startTime
    dsimp only
    rw [if_neg (not_lt.2 h), ih, List.map_cons]

/-- In any sequence of time steps, each displacement is the combination at the time since the beginning of the first step, if this one is not
negative. -/
theorem C92_steps (sinf : K → K) (eps : K) (amp : List K) (ms : List (List K × K)) (ndof : Nat) (start : K) (hs : start < 0) (t dt : K)
    (h : 0 ≤ t - dt) (steps : List (K × K)) :
    runSteps sinf eps amp ms ndof start ((t, dt) :: steps) =
      ((t, dt) :: steps).map fun s => combine sinf eps amp ms ndof (s.1 - (t - dt)) := by
  unfold runSteps startTime
  dsimp only
  rw [if_pos hs, runSteps_started _ _ _ _ _ _ h, List.map_cons]

/-- Finding F188: as long as the steps start at negative times, each displacement is the combination at the time increment of its own step. -/
theorem C92_negative_start (sinf : K → K) (eps : K) (amp : List K) (ms : List (List K × K)) (ndof : Nat) (start : K) (hs : start < 0)
    (steps : List (K × K)) (h : ∀ s ∈ steps, s.1 - s.2 < 0) :
    runSteps sinf eps amp ms ndof start steps = steps.map fun s => combine sinf eps amp ms ndof s.2 := by
  induction steps generalizing start with
  | nil => rfl
  | cons s ss ih =>
    obtain ⟨t, dt⟩ := s
    have h0 := h (t, dt) List.mem_cons_self
    unfold runSteps startTime
    dsimp only
    rw [if_pos hs, ih _ h0 (fun x hx => h x (List.mem_cons_of_mem _ hx)), List.map_cons, sub_sub_cancel]

example : combine (fun x : ℚ => x) (1/100) [2, -1] [([1, 1/2], 3), ([0, 1], 5)] 2 10 = [60, 30] := by decide +kernel
example : initModes (6 : ℚ) (1/100) [0, 7] [([2, -4], 1), ([5, 0], 2)] = [([1/2, -1], 6), ([1, 0], 7)] := by decide +kernel

end IFEM.EigMode
