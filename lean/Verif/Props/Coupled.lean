import Verif.Lemmas.CoupledRun
import Mathlib.Algebra.BigOperators.Intervals
import Mathlib.Algebra.BigOperators.Ring.Finset
import Mathlib.Tactic.Module
/-!
# C77: staggered iterations

Two coupled simulators are solved in turn until both have converged, with or without (Aitken) relaxation.
-/
namespace IFEM.Props
open Cpl IFEM.Spec
variable {K σ : Type} {n : Nat} [Field K] [LinearOrder K] [IsStrictOrderedRing K]

/-- **C77** (success). A step that succeeds consists of complete iterations `0, ..., m-1` in which both simulators solve in the given order, followed by the convergence
check and, from the second iteration on, by relaxation if enabled; nothing has failed or diverged; the iterations end as soon as a check says so, or after `max + 1` of them (at
least one, if `max` is not negative); then each simulator is post-processed once. -/
theorem C77_success (sim : Pair K σ n) (P : Prm K) (f : Bool) (st st' : St K σ n) (h0 : st.log = []) (h : solveStep sim P f st = some (st', true)) :
    ∃ m l s1 s2, st'.log = l ++ [.post true s1, .post false s2] ∧ l.filterMap postKey = [] ∧ st'.iter = m ∧ st'.first = false ∧
      st'.log.filterMap solvedKey = ((List.range m).flatMap fun k => [(f, k), (!f, k)]) ∧ st'.log.filterMap checkedKey = List.range m ∧
      st'.log.filterMap relaxedKey = (if P.omega0 = 0 then [] else List.range' 1 (m - 1)) ∧
      (∀ e ∈ st'.log, ¬ badEv e) ∧ (m : Int) ≤ max 0 (getMaxit P + 1) ∧
      ((∃ s, Ev.checked (m-1) s .converged ∈ st'.log) ∨ (m : Int) = max 0 (getMaxit P + 1)) ∧
      (∀ j s, Ev.checked j s .converged ∈ st'.log → j + 1 = m) := by
  unfold solveStep at h
  cases hl : loop sim P f (getMaxit P + 1).toNat .ok { st with iter := 0 } with
  | none => rw [hl] at h; cases h
  | some r =>
    obtain ⟨st1, ok⟩ := r
    rw [hl] at h
    cases ok with
    | false => cases h
    | true =>
      cases h
      rcases loop_spec sim P f st.s st.first _ _ _ (start_inv sim P f st h0) st1 true hl with ⟨-, c, hi, hm, hc⟩ | ⟨e, -⟩
      · have hm : st1.iter ≤ 0 + (getMaxit P + 1).toNat := hm
        have hc : c = .converged ∨ st1.iter = 0 + (getMaxit P + 1).toNat := hc
        refine ⟨st1.iter, st1.log, _, _, rfl, hi.postK, rfl, rfl, ?_, ?_, ?_, ?_, by omega, ?_, ?_⟩
        · dsimp only; rw [List.filterMap_append, hi.solvedK]; exact List.append_nil _
        · dsimp only; rw [List.filterMap_append, hi.checkedK]; exact List.append_nil _
        · dsimp only; rw [List.filterMap_append, hi.relaxedK]; exact List.append_nil _
        · intro e he
          rcases List.mem_append.1 he with he | he
          · exact hi.good e he
          · simp only [List.mem_cons, List.not_mem_nil, or_false] at he
            rcases he with rfl | rfl <;> exact fun h => h
        · rcases hc with hc | hc
          · left
            subst hc
            have hpos : 0 < st1.iter := by
              by_contra hz
              exact hi.conv0 (by omega) rfl
            obtain ⟨s, hs⟩ := hi.last hpos
            exact ⟨s, List.mem_append_left _ hs⟩
          · right; omega
        · intro j s hm
          rcases List.mem_append.1 hm with hm | hm
          · exact (hi.notyet j s hm).1
          · simp at hm
      · cases e

/-- **C77** (failure). A step fails with the first simulator or check that fails or diverges: nothing is done after it, in particular there is no post-processing. -/
theorem C77_failure (sim : Pair K σ n) (P : Prm K) (f : Bool) (st st' : St K σ n) (h0 : st.log = []) (h : solveStep sim P f st = some (st', false)) :
    ∃ l e, st'.log = l ++ [e] ∧ badEv e ∧ (∀ e' ∈ l, ¬ badEv e') ∧ st'.log.filterMap postKey = [] ∧ st'.first = st.first ∧
      (st'.iter : Int) ≤ getMaxit P ∧ st'.log.filterMap solvedKey <+: ((List.range (st'.iter + 1)).flatMap fun k => [(f, k), (!f, k)]) ∧
      (∀ j s, Ev.checked j s .converged ∉ st'.log) := by
  unfold solveStep at h
  cases hl : loop sim P f (getMaxit P + 1).toNat .ok { st with iter := 0 } with
  | none => rw [hl] at h; cases h
  | some r =>
    obtain ⟨st1, ok⟩ := r
    rw [hl] at h
    cases ok with
    | true => cases h
    | false =>
      cases h
      rcases loop_spec sim P f st.s st.first _ _ _ (start_inv sim P f st h0) _ false hl with ⟨e, -⟩ | ⟨-, st2, c, hi, hc, hm, hs⟩
      · cases e
      · have hm : st2.iter < 0 + (getMaxit P + 1).toNat := hm
        have hno : ∀ j s, Ev.checked j s .converged ∉ st2.log := fun j s hj => hc (hi.notyet j s hj).2
        generalize hco : (none : Option ConvStatus) = oc at hs
        cases hs with
        | ok => cases hco
        | fail1 s1 ca h1 ha =>
          refine ⟨st2.log, _, rfl, (bad_iff _).1 ha, hi.good, ?_, hi.first, by dsimp only; omega, ?_, ?_⟩
          · dsimp only; rw [List.filterMap_append, hi.postK]; rfl
          · dsimp only; rw [List.filterMap_append, hi.solvedK, List.range_succ, List.flatMap_append]
            exact (List.prefix_append_right_inj _).2 ⟨[(!f, st2.iter)], rfl⟩
          · intro j s hj
            rcases List.mem_append.1 hj with hj | hj
            · exact hno j s hj
            · simp at hj
        | fail2 s1 s2 ca cb h1 h2 ha hb =>
          refine ⟨st2.log ++ [.solved f st2.iter st2.s ca], .solved (!f) st2.iter s1 cb, by rw [List.append_assoc]; rfl, (bad_iff _).1 hb, ?_, ?_, hi.first, by dsimp only; omega, ?_, ?_⟩
          · intro e he
            rcases List.mem_append.1 he with he | he
            · exact hi.good e he
            · rw [List.mem_singleton] at he; subst he; exact not_bad ha
          · dsimp only; rw [List.filterMap_append, hi.postK]; rfl
          · dsimp only; rw [List.filterMap_append, hi.solvedK, List.range_succ, List.flatMap_append]
            exact List.prefix_rfl
          · intro j s hj
            rcases List.mem_append.1 hj with hj | hj
            · exact hno j s hj
            · simp at hj
        | fail3 s1 s2 ca cb c' h1 h2 hc' ha hb hd =>
          refine ⟨st2.log ++ [.solved f st2.iter st2.s ca, .solved (!f) st2.iter s1 cb], .checked st2.iter s2 c', by rw [List.append_assoc]; rfl, (bad_iff _).1 hd, ?_, ?_, hi.first, by dsimp only; omega, ?_, ?_⟩
          · intro e he
            rcases List.mem_append.1 he with he | he
            · exact hi.good e he
            · simp only [List.mem_cons, List.not_mem_nil, or_false] at he
              rcases he with rfl | rfl
              · exact not_bad ha
              · exact not_bad hb
          · dsimp only; rw [List.filterMap_append, hi.postK]; rfl
          · dsimp only; rw [List.filterMap_append, hi.solvedK, List.range_succ, List.flatMap_append]
            exact List.prefix_rfl
          · intro j s hj
            rcases List.mem_append.1 hj with hj | hj
            · exact hno j s hj
            · simp only [List.mem_cons, List.not_mem_nil, or_false, reduceCtorEq, false_or, Ev.checked.injEq] at hj
              rw [← hj.2.2] at hd
              cases hd

/-- **C77** (continuity). Whatever the outcome, the log leads from the initial to the final state without gaps, and what it says is true: each status is the one the simulator
returned, each check is about the statuses of both simulators in that iteration (in the right order), and each relaxed solution is the combination of the solution of the iteration before and the new one. -/
theorem C77_truth (sim : Pair K σ n) (P : Prm K) (f : Bool) (st st' : St K σ n) (ok : Bool) (h0 : st.log = []) (h : solveStep sim P f st = some (st', ok)) :
    Leads sim st.s st'.log st'.s ∧ ∀ e ∈ st'.log, Truth sim P st'.log e := by
  unfold solveStep at h
  cases hl : loop sim P f (getMaxit P + 1).toNat .ok { st with iter := 0 } with
  | none => rw [hl] at h; cases h
  | some r =>
    obtain ⟨st1, ok1⟩ := r
    rw [hl] at h
    have hs := loop_spec sim P f st.s st.first _ _ _ (start_inv sim P f st h0) st1 ok1 hl
    cases ok1 with
    | true =>
      cases h
      rcases hs with ⟨-, c, hi, -⟩ | ⟨e, -⟩
      · refine ⟨leads_append sim _ _ _ _ _ hi.leads ⟨rfl, rfl, rfl⟩, ?_⟩
        intro e he
        rcases List.mem_append.1 he with he | he
        · exact truth_mono sim P _ _ e (hi.truth e he)
        · simp only [List.mem_cons, List.not_mem_nil, or_false] at he
          rcases he with rfl | rfl <;> trivial
      · cases e
    | false =>
      cases h
      rcases hs with ⟨e, -⟩ | ⟨-, st2, c, hi, -, -, hs⟩
      · cases e
      · generalize hco : (none : Option ConvStatus) = oc at hs
        cases hs with
        | ok => cases hco
        | fail1 s1 ca h1 ha =>
          refine ⟨leads_append sim _ _ _ _ _ hi.leads ?_, ?_⟩
          · cases f
            · exact ⟨rfl, by simpa [pick, afterEv, Leads] using congrArg Prod.fst h1⟩
            · exact ⟨rfl, by simpa [pick, afterEv, Leads] using congrArg Prod.fst h1⟩
          · intro e he
            rcases List.mem_append.1 he with he | he
            · exact truth_mono sim P _ _ e (hi.truth e he)
            · rw [List.mem_singleton] at he; subst he; exact truth_solved sim P _ _ _ _ _ _ h1
        | fail2 s1 s2 ca cb h1 h2 ha hb =>
          refine ⟨leads_append sim _ _ _ _ _ hi.leads (leads_sweep sim f _ _ _ _ _ _ h1 h2), ?_⟩
          intro e he
          rcases List.mem_append.1 he with he | he
          · exact truth_mono sim P _ _ e (hi.truth e he)
          · simp only [List.mem_cons, List.not_mem_nil, or_false] at he
            rcases he with rfl | rfl
            · exact truth_solved sim P _ _ _ _ _ _ h1
            · exact truth_solved sim P _ _ _ _ _ _ h2
        | fail3 s1 s2 ca cb c' h1 h2 hc' ha hb hd =>
          refine ⟨leads_append sim _ _ _ _ _ hi.leads (leads_append sim [_, _] [_] _ s2 _ (leads_sweep sim f _ _ _ _ _ _ h1 h2) ⟨rfl, rfl⟩), ?_⟩
          intro e he
          rcases List.mem_append.1 he with he | he
          · exact truth_mono sim P _ _ e (hi.truth e he)
          · simp only [List.mem_cons, List.not_mem_nil, or_false] at he
            rcases he with rfl | rfl | rfl
            · exact truth_solved sim P _ _ _ _ _ _ h1
            · exact truth_solved sim P _ _ _ _ _ _ h2
            · exact truth_checked sim P _ f st2.iter st2.s s1 s2 ca cb c' (by simp) (by simp) hc'

omit [Field K] [LinearOrder K] [IsStrictOrderedRing K] in
/-- **C77** (check). The default check: the step has converged if and only if both simulators have; it has failed or diverged if and only if one of them has; the order does not matter. -/
theorem C77_check (a b : ConvStatus) :
    (checkConvergence a b = .converged ↔ a = .converged ∧ b = .converged) ∧
    (bad (checkConvergence a b) = true ↔ bad a = true ∨ bad b = true) ∧ (checkConvergence a b = .failure ↔ a = .failure ∨ b = .failure) ∧
    checkConvergence a b = checkConvergence b a := by
  cases a <;> cases b <;> decide

/-- **C77** (relaxation). With a fixed factor, the relaxed solution after iteration `k` is the weighted mean of the solutions of all iterations so far. -/
theorem C77_relaxed (sim : Pair K σ n) (P : Prm K) (ha : P.aitken = false) (log : List (Ev K σ n)) (ht : ∀ e ∈ log, Truth sim P log e) (G : Nat → Fin n → K)
    (hG : ∀ k s c, Ev.checked k s c ∈ log → sim.relaxVec s = G k) (k : Nat) (w : K) (s : σ) (x : Fin n → K) (h : Ev.relaxed k w s x ∈ log) :
    w = P.omega0 ∧ x = (1 - P.omega0) ^ k • G 0 + ∑ j ∈ Finset.range k, (P.omega0 * (1 - P.omega0) ^ (k - 1 - j)) • G (j + 1) := by
  induction k generalizing w s x with
  | zero => exact absurd (ht _ h).1 (Nat.lt_irrefl 0)
  | succ k ih =>
    obtain ⟨-, ⟨c, hc⟩, wp, xp, rp, hcur, hx, hw⟩ := ht _ h
    rw [ha] at hw
    have hw : w = P.omega0 := by simpa using hw
    refine ⟨hw, ?_⟩
    have hxp : xp = (1 - P.omega0) ^ k • G 0 + ∑ j ∈ Finset.range k, (P.omega0 * (1 - P.omega0) ^ (k - 1 - j)) • G (j + 1) := by
      rw [Nat.add_sub_cancel] at hcur
      rcases hcur with ⟨hj, s', c', hm, -, hx', -⟩ | ⟨hj, s', hm, -⟩
      · subst hj
        rw [hx', hG 0 s' c' hm]; simp
      · exact (ih wp s' xp hm).2
    rw [hx, hG _ _ _ hc, hxp, hw, Finset.sum_range_succ, smul_add, smul_smul, Finset.smul_sum]
    have hs : ∑ j ∈ Finset.range k, (1 - P.omega0) • (P.omega0 * (1 - P.omega0) ^ (k - 1 - j)) • G (j + 1) =
        ∑ j ∈ Finset.range k, (P.omega0 * (1 - P.omega0) ^ (k + 1 - 1 - j)) • G (j + 1) := by
      refine Finset.sum_congr rfl fun j hj => ?_
      have hj := Finset.mem_range.1 hj
      rw [smul_smul, show k + 1 - 1 - j = (k - 1 - j) + 1 by omega, pow_succ]
      congr 1; ring
    rw [hs, pow_succ, mul_comm, show k + 1 - 1 - k = 0 by omega, pow_zero, mul_one, add_assoc]

/-- **C77** (weights). The weights sum to one: equal solutions are not changed by relaxation, whatever the factors are. -/
theorem C77_weights (sim : Pair K σ n) (P : Prm K) (log : List (Ev K σ n)) (ht : ∀ e ∈ log, Truth sim P log e) (g : Fin n → K)
    (hG : ∀ k s c, Ev.checked k s c ∈ log → sim.relaxVec s = g) (k : Nat) (w : K) (s : σ) (x : Fin n → K) (h : Ev.relaxed k w s x ∈ log) : x = g := by
  induction k generalizing w s x with
  | zero => exact absurd (ht _ h).1 (Nat.lt_irrefl 0)
  | succ k ih =>
    obtain ⟨-, ⟨c, hc⟩, wp, xp, rp, hcur, hx, -⟩ := ht _ h
    have hxp : xp = g := by
      rw [Nat.add_sub_cancel] at hcur
      rcases hcur with ⟨hj, s', c', hm, -, hx', -⟩ | ⟨hj, s', hm, -⟩
      · rw [hx', hG 0 s' c' hm]
      · exact ih wp s' xp hm
    rw [hx, hxp, hG _ _ _ hc]
    module

end IFEM.Props
