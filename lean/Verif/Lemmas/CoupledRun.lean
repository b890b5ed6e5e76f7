import Verif.Lemmas.Coupled
/-!
# Lemmas about staggered iterations: the invariant is kept
-/
namespace IFEM.Cpl
open Spec
variable {K σ : Type} {n : Nat} [Field K] [LinearOrder K]

theorem not_bad {c : ConvStatus} (h : bad c = false) : ¬ (c = .failure ∨ c = .diverged) := by
  rw [← bad_iff]; simp [h]

/-- What the log has after both simulators have solved iteration `k` and the check is done. -/
theorem sweep_inv (sim : Pair K σ n) (P : Prm K) (f : Bool) (s0 : σ) (b0 : Bool) (st : St K σ n) (conv : ConvStatus) (h : Inv sim P f s0 b0 st conv) (hc0 : conv ≠ .converged)
    (s1 s2 : σ) (ca cb c : ConvStatus) (h1 : pick sim f st.iter st.s = (s1, ca)) (h2 : pick sim (!f) st.iter s1 = (s2, cb))
    (hc : c = if f then sim.check st.iter s2 ca cb else sim.check st.iter s2 cb ca) (ha : bad ca = false) (hb : bad cb = false) (hd : bad c = false)
    (l : List (Ev K σ n)) (hl : l = st.log ++ [.solved f st.iter st.s ca, .solved (!f) st.iter s1 cb, .checked st.iter s2 c]) :
    Leads sim s0 l s2 ∧ l.filterMap solvedKey = ((List.range (st.iter + 1)).flatMap fun k => [(f, k), (!f, k)]) ∧
    l.filterMap checkedKey = List.range (st.iter + 1) ∧ l.filterMap relaxedKey = (if P.omega0 = 0 then [] else List.range' 1 (st.iter - 1)) ∧
    l.filterMap postKey = [] ∧ (∀ e ∈ l, ¬ badEv e) ∧ (∀ e ∈ l, Truth sim P l e) ∧ Ev.checked st.iter s2 c ∈ l ∧
    (∀ j s, Ev.checked j s .converged ∈ l → j = st.iter ∧ c = .converged) := by
  subst hl
  refine ⟨?_, ?_, ?_, ?_, ?_, ?_, ?_, ?_, ?_⟩
  · refine leads_append sim _ _ _ _ _ h.leads ?_
    exact leads_append sim [_, _] [_] _ s2 _ (leads_sweep sim f _ _ _ _ _ _ h1 h2) ⟨rfl, rfl⟩
  · rw [List.filterMap_append, h.solvedK, List.range_succ, List.flatMap_append]
    rfl
  · rw [List.filterMap_append, h.checkedK, List.range_succ]
    rfl
  · rw [List.filterMap_append, h.relaxedK]
    exact List.append_nil _
  · rw [List.filterMap_append, h.postK]
    rfl
  · intro e he
    rcases List.mem_append.1 he with he | he
    · exact h.good e he
    · simp only [List.mem_cons, List.not_mem_nil, or_false] at he
      rcases he with rfl | rfl | rfl
      · exact not_bad ha
      · exact not_bad hb
      · exact not_bad hd
  · intro e he
    rcases List.mem_append.1 he with he | he
    · exact truth_mono sim P _ _ e (h.truth e he)
    · simp only [List.mem_cons, List.not_mem_nil, or_false] at he
      rcases he with rfl | rfl | rfl
      · exact truth_solved sim P _ _ _ _ _ _ h1
      · exact truth_solved sim P _ _ _ _ _ _ h2
      · exact truth_checked sim P _ f st.iter st.s s1 s2 ca cb c (by simp) (by simp) hc
  · simp
  · intro j s hm
    rcases List.mem_append.1 hm with hm | hm
    · exact absurd (h.notyet j s hm).2 hc0
    · simp only [List.mem_cons, List.not_mem_nil, or_false, reduceCtorEq, false_or, Ev.checked.injEq] at hm
      exact ⟨hm.1, hm.2.2.symm⟩

variable [IsStrictOrderedRing K]

theorem round_inv (sim : Pair K σ n) (P : Prm K) (f : Bool) (s0 : σ) (b0 : Bool) (st : St K σ n) (conv : ConvStatus) (h : Inv sim P f s0 b0 st conv) (hc0 : conv ≠ .converged)
    (st1 : St K σ n) (c : ConvStatus) (hs : Sweep sim f st.iter st st1 (some c)) (st2 : St K σ n) (hr : relax sim P st.iter st1 = some st2) :
    Inv sim P f s0 b0 { st2 with iter := st.iter + 1 } c := by
  generalize hco : some c = oc at hs
  cases hs with
  | fail1 => cases hco
  | fail2 => cases hco
  | fail3 => cases hco
  | ok s1 s2 ca cb c' h1 h2 hc ha hb hd =>
    cases hco
    obtain ⟨i1, i2, i3, i4, i5, i6, i7, i8, i9⟩ := sweep_inv sim P f s0 b0 st conv h hc0 s1 s2 ca cb c h1 h2 hc ha hb hd _ rfl
    have hcur := h.cur
    have hfirst := h.first
    generalize hlog : st.log ++ [Ev.solved f st.iter st.s ca, Ev.solved (!f) st.iter s1 cb, Ev.checked st.iter s2 c] = l at *
    have hpre : ∃ l', l = st.log ++ l' := ⟨_, hlog.symm⟩
    unfold relax at hr
    by_cases h0 : P.omega0 = 0
    · rw [if_pos h0] at hr
      cases hr
      refine ⟨hfirst, i1, i2, i3, ?_, i5, i6, i7, fun h => absurd h (Nat.succ_ne_zero _), fun _ => ⟨s2, i8⟩, fun j s hm => ⟨by have := (i9 j s hm).1; show j + 1 = st.iter + 1; omega, (i9 j s hm).2⟩,
        fun h => absurd h0 h⟩
      rw [i4, if_pos h0, if_pos h0]
    rw [if_neg h0] at hr
    rw [if_neg h0] at i4
    by_cases hk : 0 < st.iter
    · rw [if_pos hk] at hr
      dsimp only at hr
      obtain ⟨⟨r, hr1, hr2⟩, hr3⟩ := hcur h0 hk
      split at hr
      · cases hr
      rename_i w hw
      cases hr
      have hx : Truth sim P l (.relaxed st.iter w s2 ((1 - w) • st.rlx.prevSol + w • sim.relaxVec s2)) := by
        refine ⟨hk, ⟨c, i8⟩, st.rlx.omega, st.rlx.prevSol, r, ?_, rfl, ?_⟩
        · obtain ⟨l', rfl⟩ := hpre
          exact current_mono sim P _ _ _ _ _ _ hr1
        · by_cases ha : P.aitken = true
          · rw [if_pos ha] at hw ⊢
            rw [← hr2 ha]
            exact aitken_rule _ _ _ _ _ hw
          · rw [if_neg ha] at hw ⊢
            rw [← Option.some.inj hw]
            exact hr3 (by simpa using ha)
      refine ⟨hfirst, leads_append sim _ _ _ _ _ i1 ⟨rfl, rfl⟩, ?_, ?_, ?_, ?_, ?_, ?_, fun h => absurd h (Nat.succ_ne_zero _),
        fun _ => ⟨s2, List.mem_append_left _ i8⟩, ?_, fun _ _ => ⟨⟨_, Or.inr ⟨hk, s2, by simp, rfl⟩, ?_⟩, ?_⟩⟩
      · rw [List.filterMap_append, i2]; exact List.append_nil _
      · rw [List.filterMap_append, i3]; exact List.append_nil _
      · rw [List.filterMap_append, i4, if_neg h0]
        show List.range' 1 (st.iter - 1) ++ [st.iter] = List.range' 1 (st.iter + 1 - 1)
        obtain ⟨q, hq⟩ : ∃ q, st.iter = q + 1 := ⟨st.iter - 1, by omega⟩
        rw [hq, Nat.add_sub_cancel, Nat.add_sub_cancel, List.range'_concat]
        congr 2; omega
      · rw [List.filterMap_append, i5]; rfl
      · intro e he
        rcases List.mem_append.1 he with he | he
        · exact i6 e he
        · rw [List.mem_singleton] at he; subst he; exact fun h => h
      · intro e he
        rcases List.mem_append.1 he with he | he
        · exact truth_mono sim P _ _ e (i7 e he)
        · rw [List.mem_singleton] at he; subst he; exact truth_mono sim P _ _ _ hx
      · intro j s hm
        have hm : Ev.checked j s ConvStatus.converged ∈ l := by
          rcases List.mem_append.1 hm with hm | hm
          · exact hm
          · simp at hm
        exact ⟨by have := (i9 j s hm).1; show j + 1 = st.iter + 1; omega, (i9 j s hm).2⟩
      · intro ha; dsimp only; rw [if_pos ha]
      · intro ha
        rw [ha] at hw
        rw [← hr3 ha]
        exact (Option.some.inj hw).symm
    · have hk0 : st.iter = 0 := by omega
      rw [if_neg hk] at hr
      cases hr
      refine ⟨hfirst, i1, i2, i3, ?_, i5, i6, i7, fun h => absurd h (Nat.succ_ne_zero _), fun _ => ⟨s2, i8⟩, fun j s hm => ⟨by have := (i9 j s hm).1; show j + 1 = st.iter + 1; omega, (i9 j s hm).2⟩,
        fun _ _ => ⟨⟨sim.residual s2, Or.inl ⟨?_, s2, c, ?_, rfl, rfl, rfl⟩, ?_⟩, fun _ => rfl⟩⟩
      · rw [i4, if_neg h0]
        show List.range' 1 (st.iter - 1) = List.range' 1 (st.iter + 1 - 1)
        rw [hk0]
      · show st.iter + 1 - 1 = 0
        omega
      · rw [hk0] at i8; exact i8
      · intro ha; dsimp only; rw [if_pos ha]

/-- How the loop ends. -/
theorem loop_spec (sim : Pair K σ n) (P : Prm K) (f : Bool) (s0 : σ) (b0 : Bool) (m : Nat) (conv : ConvStatus) (st : St K σ n) (h : Inv sim P f s0 b0 st conv)
    (st' : St K σ n) (ok : Bool) (hl : loop sim P f m conv st = some (st', ok)) :
    (ok = true ∧ ∃ c, Inv sim P f s0 b0 st' c ∧ st'.iter ≤ st.iter + m ∧ (c = .converged ∨ st'.iter = st.iter + m)) ∨
    (ok = false ∧ ∃ st1 c, Inv sim P f s0 b0 st1 c ∧ c ≠ .converged ∧ st1.iter < st.iter + m ∧ Sweep sim f st1.iter st1 st' none) := by
  induction m generalizing conv st with
  | zero =>
    cases hl
    exact Or.inl ⟨rfl, conv, h, Nat.le_refl _, Or.inr rfl⟩
  | succ m ih =>
    unfold loop at hl
    by_cases hc : conv = .converged
    · rw [if_pos hc] at hl
      cases hl
      exact Or.inl ⟨rfl, conv, h, by omega, Or.inl hc⟩
    · rw [if_neg hc] at hl
      have hs := sweep_spec sim f st.iter st
      dsimp only at hl
      generalize sweep sim f st.iter st = r at hl hs
      obtain ⟨r1, r2⟩ := r
      cases r2 with
      | none =>
        cases hl
        exact Or.inr ⟨rfl, st, conv, h, hc, by omega, hs⟩
      | some c =>
        dsimp only at hl hs
        cases hrl : relax sim P st.iter r1 with
        | none => rw [hrl] at hl; cases hl
        | some st2 =>
          rw [hrl] at hl
          dsimp only at hl
          have hi := round_inv sim P f s0 b0 st conv h hc r1 c hs st2 hrl
          rcases ih c _ hi hl with ⟨e1, c', e2, e3, e4⟩ | ⟨e1, st1, c', e2, e3, e4, e5⟩
          · refine Or.inl ⟨e1, c', e2, ?_, ?_⟩
            · have : st'.iter ≤ st.iter + 1 + m := e3
              omega
            · rcases e4 with e4 | e4
              · exact Or.inl e4
              · right
                have : st'.iter = st.iter + 1 + m := e4
                omega
          · refine Or.inr ⟨e1, st1, c', e2, e3, ?_, e5⟩
            have : st1.iter < st.iter + 1 + m := e4
            omega

theorem start_inv (sim : Pair K σ n) (P : Prm K) (f : Bool) (st : St K σ n) (h : st.log = []) : Inv sim P f st.s st.first { st with iter := 0 } .ok := by
  obtain ⟨s, rlx, it, fi, log⟩ := st
  cases h
  refine ⟨rfl, rfl, rfl, rfl, ?_, rfl, by simp, by simp, by simp, by simp, by simp, by simp⟩
  simp

end IFEM.Cpl
