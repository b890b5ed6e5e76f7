import Verif.Props.Adaptive
import Mathlib.Data.List.Perm.Subperm

/-!
# C70: refinement of a given share of the total error

The number of elements is the smallest one for which the sum of the largest errors is at least the given share of the total error (and one more, with all others that have the same error).
-/
namespace IFEM.Adapt

variable {K : Type} [Field K] [LinearOrder K]

theorem dorfelLoop_spec (target lim : K) (s : List (K × Nat)) : ∀ cur : K,
    (∃ k, ∃ hk : k < s.length, target ≤ cur + ((s.take k).map Prod.fst).sum ∧ (∀ j, j < k → cur + ((s.take j).map Prod.fst).sum < target) ∧ dorfelLoop target lim cur s = (s[k]).1) ∨
    ((∀ k, k < s.length → cur + ((s.take k).map Prod.fst).sum < target) ∧ dorfelLoop target lim cur s = lim) := by
  induction s with
  | nil => intro cur; right; simp [dorfelLoop]
  | cons p s ih =>
    intro cur
    by_cases h : cur < target
    · rcases ih (cur + p.1) with ⟨k, hk, h1, h2, h3⟩ | ⟨h1, h2⟩
      · left
        refine ⟨k+1, by simpa using hk, by simpa [add_assoc] using h1, ?_, by rw [dorfelLoop, if_pos h, h3]; simp⟩
        intro j hj
        cases j with
        | zero => simpa using h
        | succ j =>
          have := h2 j (by omega)
          simpa [add_assoc] using this
      · right
        refine ⟨?_, by rw [dorfelLoop, if_pos h, h2]⟩
        intro k hk
        cases k with
        | zero => simpa using h
        | succ k =>
          have := h1 k (by simpa using hk)
          simpa [add_assoc] using this
    · left
      exact ⟨0, by simp, by simpa using h, by intro j hj; omega, by rw [dorfelLoop, if_neg h]; simp⟩

theorem sum_take (e : List K) (k : Nat) : (((sorted e).take k).map Prod.fst).sum = Spec.sumErr e ((order e).take k) := by
  rw [(C70_sorted e).2, ← List.map_take, sorted_fst]
  rfl

theorem sum_all (e : List K) : Spec.sumErr e (order e) = e.sum := by
  have h := sum_take e e.length
  rw [List.take_of_length_le (by rw [sorted_length]), List.take_of_length_le (by rw [order_length])] at h
  rw [← h, ((sorted_perm e).map Prod.fst).sum_eq, List.zipIdx_map_fst]

/-- Before position `k` in the sequence: a larger error, or the same error and a larger index. -/
theorem before (e : List K) (p k : Nat) (hpk : p < k) (hk : k < (order e).length) :
    Spec.err e ((order e)[k]) < Spec.err e ((order e)[p]'(by omega)) ∨ (Spec.err e ((order e)[p]'(by omega)) = Spec.err e ((order e)[k]) ∧ (order e)[k] < (order e)[p]'(by omega)) := by
  have hp : p < (order e).length := by omega
  have h := List.pairwise_iff_getElem.1 (sorted_pairwise e) p k (by rw [sorted_length, ← order_length]; exact hp) (by rw [sorted_length, ← order_length]; exact hk) hpk
  have hs := (C70_sorted e).2
  have g : ∀ q (hq : q < (order e).length), (sorted e)[q]'(by rw [sorted_length, ← order_length]; exact hq) = (Spec.err e ((order e)[q]), (order e)[q]) := by
    intro q hq
    have : (sorted e)[q]? = some (Spec.err e ((order e)[q]), (order e)[q]) := by
      conv_lhs => rw [hs]
      rw [List.getElem?_map, List.getElem?_eq_getElem hq]; rfl
    exact (List.getElem?_eq_some_iff.1 this).2
  rw [g p hp, g k hk, pairGe_iff] at h
  rcases h with h | ⟨h1, h2⟩
  · exact Or.inl h
  · right
    refine ⟨h1, lt_of_le_of_ne h2 fun he => ?_⟩
    have := (List.Nodup.getElem_inj_iff (order_nodup e)).1 he
    omega

/-- The marked elements with the given share of the total error, in a sequence with decreasing errors: the first `k` have that share and fewer do not; the marked ones beyond have the same error as the
first one that is not needed. If all are needed and the last one is element 0, then it is left out. -/
theorem C70_dorfel [IsStrictOrderedRing K] [FloorRing K] (e : List K) (beta eps : K) (m : List Nat) (hnn : ∀ x ∈ e, 0 ≤ x) (hb : beta ≤ 100) (hm : mark e .dorfel beta eps = some m) :
    ∃ ord k, Spec.Decreasing e ord ∧ k ≤ e.length ∧ e.sum * (beta/100) ≤ Spec.sumErr e (ord.take k) ∧ (∀ j, j < k → Spec.sumErr e (ord.take j) < e.sum * (beta/100)) ∧
      ((m = ord.take m.length ∧ k ≤ m.length ∧ ∀ i ∈ m.drop k, ord[k]?.map (Spec.err e) = some (Spec.err e i)) ∨
       (k = e.length ∧ ord = m ++ [0])) := by
  obtain ⟨u, hu, hu0, hun, rfl⟩ := mark_some hm
  have hne : e ≠ [] := fun h => by rw [h] at hun; simp at hun; omega
  have hl : sorted e ≠ [] := by rw [← List.length_pos_iff, sorted_length]; exact List.length_pos_iff.2 hne
  have hlast := List.getLast?_eq_some_getLast hl
  have hlen : ((order e).take u).length = u := by rw [List.length_take, order_length]; omega
  have htot : ((sorted e).map Prod.fst).sum = e.sum := by rw [((sorted_perm e).map Prod.fst).sum_eq, List.zipIdx_map_fst]
  unfold refineSize at hu
  simp only [errorLimit, hlast, Option.map_some, Option.some.injEq, htot] at hu
  have hmem : ∀ i, i ∈ (order e).take u ↔ i < e.length ∧ (dorfelLoop (e.sum * (beta/100)) ((sorted e).getLast hl).1 0 (sorted e) < Spec.err e i ∨
      (Spec.err e i = dorfelLoop (e.sum * (beta/100)) ((sorted e).getLast hl).1 0 (sorted e) ∧ i ≠ 0)) := fun i => by
    rw [← hu]; exact mem_upperBound e _ i
  have hnd := order_nodup e
  have hol := order_length e
  refine ⟨order e, ?_⟩
  rcases dorfelLoop_spec (e.sum * (beta/100)) ((sorted e).getLast hl).1 (sorted e) 0 with ⟨k, hk, h1, h2, h3⟩ | ⟨h1, h2⟩
  · rw [h3] at hmem
    rw [sorted_length] at hk
    have hko : k < (order e).length := by omega
    have hLk : ((sorted e)[k]'(by rw [sorted_length]; exact hk)).1 = Spec.err e ((order e)[k]) := by
      have : (sorted e)[k]? = some (Spec.err e ((order e)[k]), (order e)[k]) := by
        conv_lhs => rw [(C70_sorted e).2]
        rw [List.getElem?_map, List.getElem?_eq_getElem hko]; rfl
      rw [(List.getElem?_eq_some_iff.1 this).2]
    rw [hLk] at hmem
    refine ⟨k, (C70_sorted e).1, le_of_lt hk, by rw [zero_add, sum_take] at h1; exact h1, fun j hj => by have := h2 j hj; rwa [zero_add, sum_take] at this, Or.inl ⟨by rw [hlen], ?_, ?_⟩⟩
    · rw [hlen]
      have hsub : (order e).take k ⊆ (order e).take u := by
        intro i hi
        obtain ⟨p, hp, rfl⟩ := List.mem_take_iff_getElem.1 hi
        have hp' : p < k := by omega
        rw [hmem]
        refine ⟨(mem_order e _).1 (List.getElem_mem _), ?_⟩
        rcases before e p k hp' hko with h | ⟨h, h'⟩
        · exact Or.inl h
        · exact Or.inr ⟨h, by omega⟩
      have := (List.Nodup.subperm (hnd.sublist (List.take_sublist _ _)) hsub).length_le
      rw [hlen, List.length_take, hol] at this
      omega
    · intro i hi
      rw [List.getElem?_eq_getElem hko, Option.map_some]
      congr 1
      have him : i ∈ (order e).take u := List.mem_of_mem_drop hi
      have h4 := ((hmem i).1 him).2
      have h5 : Spec.err e i ≤ Spec.err e ((order e)[k]) := by
        rw [List.drop_take] at hi
        have hi' := List.mem_of_mem_take hi
        obtain ⟨q, hq, rfl⟩ := List.mem_drop_iff_getElem.1 hi'
        rcases Nat.eq_zero_or_pos q with rfl | hq0
        · simp
        · have := before e k (k+q) (by omega) (by omega)
          rcases this with h | h
          · exact le_of_lt h
          · exact le_of_eq h.1.symm
      rcases h4 with h | h
      · exact absurd h5 (not_le.2 h)
      · exact h.1.symm
  · rw [h2] at hmem
    have htarget : e.sum * (beta/100) ≤ Spec.sumErr e ((order e).take e.length) := by
      rw [List.take_of_length_le (by omega), sum_all]
      have h0 : 0 ≤ e.sum := List.sum_nonneg hnn
      have : beta/100 ≤ 1 := by rw [div_le_one (by norm_num)]; exact hb
      nlinarith
    have hlow : ∀ j, j < e.length → Spec.sumErr e ((order e).take j) < e.sum * (beta/100) := fun j hj => by
      have := h1 j (by rw [sorted_length]; exact hj)
      rwa [zero_add, sum_take] at this
    have hLmin : ∀ i, i < e.length → ((sorted e).getLast hl).1 ≤ Spec.err e i := by
      intro i hi
      have him : (Spec.err e i, i) ∈ sorted e := (mem_sorted e _ i).2 ⟨hi, rfl⟩
      have hpl : sorted e = (sorted e).dropLast ++ [(sorted e).getLast hl] := (List.dropLast_append_getLast hl).symm
      have hpw := sorted_pairwise e
      rw [hpl] at him hpw
      rcases List.mem_append.1 him with h | h
      · have := (List.pairwise_append.1 hpw).2.2 _ h _ (List.mem_singleton_self _)
        rw [pairGe_iff] at this
        rcases this with h | h
        · exact le_of_lt h
        · exact le_of_eq h.1.symm
      · rw [List.mem_singleton] at h
        rw [← h]
    have hin : ∀ i, i < e.length → i ≠ 0 → i ∈ (order e).take u := by
      intro i hi h0
      rw [hmem]
      refine ⟨hi, ?_⟩
      rcases lt_or_eq_of_le (hLmin i hi) with h | h
      · exact Or.inl h
      · exact Or.inr ⟨h.symm, h0⟩
    have hfull : ∀ v, (∀ i, i < e.length → i ∈ (order e).take v) → e.length ≤ v := by
      intro v hv
      have hsub : List.range e.length ⊆ (order e).take v := fun i hi => hv i (List.mem_range.1 hi)
      have := (List.Nodup.subperm List.nodup_range hsub).length_le
      rw [List.length_range, List.length_take, hol] at this
      omega
    refine ⟨e.length, (C70_sorted e).1, le_refl _, htarget, hlow, ?_⟩
    by_cases h0 : 0 ∈ (order e).take u
    · left
      have hue : u = e.length := by
        have := hfull u (fun i hi => by
          by_cases hi0 : i = 0
          · rw [hi0]; exact h0
          · exact hin i hi hi0)
        omega
      refine ⟨by rw [hlen], by rw [hlen]; omega, fun i hi => ?_⟩
      rw [List.drop_of_length_le (by rw [hlen]; omega)] at hi
      simp at hi
    · right
      refine ⟨rfl, ?_⟩
      have hpos : 0 < e.length := by omega
      have hd0 : 0 ∈ (order e).drop u := by
        have := (mem_order e 0).2 hpos
        rw [← List.take_append_drop u (order e), List.mem_append] at this
        exact this.resolve_left h0
      have hall : ∀ i ∈ (order e).drop u, i = 0 := by
        intro i hi
        by_contra hi0
        have h3 := hin i ((mem_order e i).1 (List.mem_of_mem_drop hi)) hi0
        exact (List.disjoint_take_drop hnd (le_refl u)) h3 hi
      have hdn : ((order e).drop u).Nodup := hnd.sublist (List.drop_sublist _ _)
      have hd : (order e).drop u = [0] := by
        match hq : (order e).drop u with
        | [] => rw [hq] at hd0; simp at hd0
        | [a] => rw [hq] at hd0; simp at hd0; rw [hd0]
        | a :: b :: l =>
          rw [hq] at hall hdn
          have h1 := hall a (by simp)
          have h2 := hall b (by simp)
          rw [h1, h2] at hdn
          simp at hdn
      rw [← hd, List.take_append_drop]

end IFEM.Adapt
