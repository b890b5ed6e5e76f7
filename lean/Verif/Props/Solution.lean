import Verif.Model.Solution
import Mathlib.Tactic.Ring
import Mathlib.Tactic.Linarith
/-!
# C31, C47: stack of solution vectors
-/
namespace IFEM.Props
variable {R : Type}

theorem copyInto_same (src dst : List R) (h : src.length = dst.length) : copyInto src dst = some src := by
  unfold copyInto
  rw [if_pos (by omega), h]
  simp

/-- All vectors have `nd` elements. -/
def SameSize (nd : Nat) (sol : List (List R)) : Prop := ∀ v ∈ sol, v.length = nd

theorem SameSize.set {nd : Nat} {sol : List (List R)} (h : SameSize nd sol) (i : Nat) (v : List R) (hv : v.length = nd) :
    SameSize nd (sol.set i v) := by
  intro w hw
  rcases List.mem_or_eq_of_mem_set hw with h' | h'
  · exact h w h'
  · rw [h']; exact hv

theorem pushState_spec (nd nVec n : Nat) (hv : 0 < nVec) (cnt i : Nat) (sol : List (List R)) (hs : SameSize nd sol)
    (hi : i + cnt = nVec) (hlen : n + nVec + nVec ≤ sol.length) :
    ∃ sol', pushState nVec n cnt i sol = some sol' ∧ SameSize nd sol' ∧ sol'.length = sol.length ∧
      ∀ k, sol'[k]? = if n + nVec + i ≤ k ∧ k < n + nVec + nVec then sol[k - nVec]? else sol[k]? := by
  induction cnt generalizing i sol with
  | zero =>
    refine ⟨sol, rfl, hs, rfl, fun k => ?_⟩
    rw [if_neg (by omega)]
  | succ cnt ih =>
    have h1 : n + i < sol.length := by omega
    have h2 : n + i + nVec < sol.length := by omega
    rw [pushState, List.getElem?_eq_getElem h1, List.getElem?_eq_getElem h2]
    dsimp only
    rw [copyInto_same _ _ (by rw [hs _ (List.getElem_mem h1), hs _ (List.getElem_mem h2)])]
    dsimp only
    obtain ⟨sol', e, hs', hl', hk⟩ := ih (i+1) (sol.set (n+i+nVec) sol[n+i]) (hs.set _ _ (hs _ (List.getElem_mem h1))) (by omega)
      (by rw [List.length_set]; exact hlen)
    refine ⟨sol', e, hs', by rw [hl', List.length_set], fun k => ?_⟩
    rw [hk k, List.getElem?_set, List.getElem?_set]
    by_cases hk1 : n + nVec + (i+1) ≤ k ∧ k < n + nVec + nVec
    · rw [if_pos hk1, if_neg (show ¬ n + i + nVec = k - nVec by omega), if_pos (by omega)]
    · rw [if_neg hk1]
      by_cases hk2 : n + i + nVec = k
      · rw [if_pos hk2, if_pos (show n + i + nVec < sol.length by omega), if_pos (by omega)]
        subst hk2
        rw [show n + i + nVec - nVec = n + i by omega, List.getElem?_eq_getElem h1]
      · rw [if_neg hk2, if_neg (by omega)]

theorem pushStates_spec (nd nVec : Nat) (hv : 0 < nVec) (m : Nat) (sol : List (List R)) (hs : SameSize nd sol)
    (hlen : (m+1) * nVec ≤ sol.length) :
    ∃ sol', pushStates nVec m sol = some sol' ∧ SameSize nd sol' ∧ sol'.length = sol.length ∧
      ∀ k, sol'[k]? = if nVec ≤ k ∧ k < (m+1) * nVec then sol[k - nVec]? else sol[k]? := by
  induction m generalizing sol with
  | zero =>
    refine ⟨sol, rfl, hs, rfl, fun k => ?_⟩
    rw [if_neg (by omega)]
  | succ m ih =>
    have e1 : (m+1+1) * nVec = m * nVec + nVec + nVec := by ring
    have e2 : (m+1) * nVec = m * nVec + nVec := by ring
    obtain ⟨sol1, f1, hs1, hl1, hk1⟩ := pushState_spec nd nVec (m*nVec) hv nVec 0 sol hs (by omega) (by omega)
    obtain ⟨sol2, f2, hs2, hl2, hk2⟩ := ih sol1 hs1 (by omega)
    refine ⟨sol2, ?_, hs2, by omega, fun k => ?_⟩
    · rw [pushStates, f1]; exact f2
    · rw [hk2 k, hk1 k, hk1 (k - nVec), e1, e2]
      by_cases h : nVec ≤ k ∧ k < m * nVec + nVec
      · rw [if_pos h, if_neg (show ¬ (m * nVec + nVec + 0 ≤ k - nVec ∧ _) by omega), if_pos (by omega)]
      · rw [if_neg h]
        by_cases h' : nVec ≤ k ∧ k < m * nVec + nVec + nVec
        · rw [if_pos (by omega), if_pos h']
        · rw [if_neg (by omega), if_neg h']

/-- **C31**. With `nVec` vectors per state, pushing succeeds and moves state `s` to state `s+1`, keeps the current state `0`, and drops only the oldest
complete state.  Vectors behind the last complete state are left alone. -/
theorem C31_push (nd nVec : Nat) (hv : 0 < nVec) (sol : List (List R)) (hs : ∀ v ∈ sol, v.length = nd) :
    ∃ sol', pushSolution nVec sol = some sol' ∧ sol'.length = sol.length ∧
      (∀ i < nVec, sol'[i]? = sol[i]?) ∧
      (∀ s i, i < nVec → s + 1 < sol.length / nVec → sol'[(s+1) * nVec + i]? = sol[s * nVec + i]?) ∧
      (∀ k, (sol.length / nVec) * nVec ≤ k → sol'[k]? = sol[k]?) := by
  unfold pushSolution
  rw [if_neg (by omega)]
  have hdm := Nat.div_mul_le_self sol.length nVec
  by_cases h2 : sol.length / nVec < 2
  · rw [if_pos h2]
    exact ⟨sol, rfl, rfl, fun _ _ => rfl, fun s i _ h => by omega, fun _ _ => rfl⟩
  · rw [if_neg h2]
    obtain ⟨sol', e, -, hl, hk⟩ := pushStates_spec nd nVec hv (sol.length / nVec - 1) sol hs (by
      rw [show sol.length / nVec - 1 + 1 = sol.length / nVec by omega]; exact hdm)
    rw [show sol.length / nVec - 1 + 1 = sol.length / nVec by omega] at hk
    refine ⟨sol', e, hl, fun i hi => ?_, fun s i hi hs1 => ?_, fun k hk1 => ?_⟩
    · rw [hk i, if_neg (by omega)]
    · have hb : (s+2) * nVec ≤ sol.length / nVec * nVec := Nat.mul_le_mul_right nVec (by omega)
      have e1 : (s+2) * nVec = (s+1) * nVec + nVec := by ring
      have e2 : (s+1) * nVec = s * nVec + nVec := by ring
      rw [hk _, if_pos ⟨by omega, by omega⟩]
      congr 1
      omega
    · rw [hk k, if_neg (by omega)]

/-- **C31** (history). After any number `m` of time steps, each pushing the stack and then replacing the current state by the newly computed one, state `s` of the stack
holds the solution computed `s` steps ago, for all `s ≤ m` that fit in the stack. -/
theorem C31_history (nd nVec : Nat) (hv : 0 < nVec) (N : Nat) (hN : 0 < N) (cur : Nat → List (List R))
    (hcur : ∀ t, (cur t).length = nVec) (hsz : ∀ t, ∀ v ∈ cur t, v.length = nd)
    (stack : Nat → List (List R)) (h0l : (stack 0).length = N * nVec) (h0s : ∀ v ∈ stack 0, v.length = nd)
    (h0 : ∀ i < nVec, (stack 0)[i]? = (cur 0)[i]?)
    (hstep : ∀ t, ∃ q, pushSolution nVec (stack t) = some q ∧ stack (t+1) = cur (t+1) ++ q.drop nVec) (m : Nat) :
    ∀ s ≤ m, s < N → ∀ i < nVec, (stack m)[s * nVec + i]? = (cur (m - s))[i]? := by
  have inv : ∀ m, (stack m).length = N * nVec ∧ (∀ v ∈ stack m, v.length = nd) ∧
      ∀ s ≤ m, s < N → ∀ i < nVec, (stack m)[s * nVec + i]? = (cur (m - s))[i]? := by
    intro m
    induction m with
    | zero =>
      refine ⟨h0l, h0s, fun s hs _ i hi => ?_⟩
      obtain rfl : s = 0 := by omega
      simpa using h0 i hi
    | succ m ih =>
      obtain ⟨hl, hs, hh⟩ := ih
      obtain ⟨q, hq, e⟩ := hstep m
      obtain ⟨q', hq', hql, -, hp, -⟩ := C31_push nd nVec hv (stack m) hs
      rw [hq] at hq'
      injection hq' with hq'
      subst hq'
      have hdiv : (stack m).length / nVec = N := by rw [hl, Nat.mul_div_cancel _ hv]
      have hNv : nVec ≤ N * nVec := Nat.le_mul_of_pos_left nVec hN
      obtain ⟨q2, hq2, hqs, -, -⟩ : ∃ q2, pushSolution nVec (stack m) = some q2 ∧ SameSize nd q2 ∧ True ∧ True := by
        unfold pushSolution
        rw [if_neg (by omega)]
        split
        · exact ⟨_, rfl, hs, trivial, trivial⟩
        · obtain ⟨a, b, c, -, -⟩ := pushStates_spec nd nVec hv ((stack m).length / nVec - 1) (stack m) hs (by
            rw [show (stack m).length / nVec - 1 + 1 = (stack m).length / nVec by omega]; exact Nat.div_mul_le_self _ _)
          exact ⟨a, b, c, trivial, trivial⟩
      rw [hq] at hq2
      injection hq2 with hq2
      subst hq2
      refine ⟨?_, ?_, fun s hsm hsN i hi => ?_⟩
      · rw [e, List.length_append, hcur, List.length_drop, hql, hl]; omega
      · intro v hv'
        rw [e] at hv'
        rcases List.mem_append.mp hv' with h | h
        · exact hsz _ v h
        · exact hqs v (List.mem_of_mem_drop h)
      · rw [e]
        cases s with
        | zero =>
          rw [List.getElem?_append_left (by rw [hcur]; omega)]
          simp
        | succ s =>
          have e1 : (s+1) * nVec = s * nVec + nVec := by ring
          rw [List.getElem?_append_right (by rw [hcur]; omega), hcur, List.getElem?_drop,
            show nVec + ((s+1) * nVec + i - nVec) = (s+1) * nVec + i by omega, hp s i hi (by omega), hh s (by omega) (by omega) i hi]
          congr 2
          omega
  exact (inv m).2.2

/-- Non-trivial case: three states of two vectors. -/
example : pushSolution 2 [[1], [2], [3], [4], [5], [6], [7]] = some [[1], [2], [1], [2], [3], [4], [7]] := by decide

/-- **C47**. Saving the solution under a new name and restoring it into an object with the same number of vectors gives the saved solution, whatever
other data is saved before or after. -/
theorem C47_round_trip (data : SerializeMap R) (name : String) (sol old : List (List R)) (hn : data.lookup name = none)
    (hl : old.length = sol.length) (others : List (String × List (List R))) :
    restoreSolution (others.foldl (fun d o => (saveSolution d o.1 o.2).2) (saveSolution data name sol).2) name old = some (true, sol) := by
  have h0 : (saveSolution data name sol).2.lookup name = some sol := by
    simp only [saveSolution, hn, Option.isSome_none, Bool.false_eq_true, if_false]
    rw [List.lookup_append, hn]
    simp [List.lookup]
  have step : ∀ (d : SerializeMap R) (o : String × List (List R)), d.lookup name = some sol → (saveSolution d o.1 o.2).2.lookup name = some sol := by
    intro d o h
    simp only [saveSolution]
    split
    · exact h
    · rw [List.lookup_append, h]; rfl
  have hf : ∀ (os : List (String × List (List R))) (d : SerializeMap R), d.lookup name = some sol →
      (os.foldl (fun d o => (saveSolution d o.1 o.2).2) d).lookup name = some sol := by
    intro os
    induction os with
    | nil => intro d h; exact h
    | cons o os ih => intro d h; exact ih _ (step d o h)
  unfold restoreSolution
  rw [hf _ _ h0]
  dsimp only
  rw [if_pos (by omega), hl, List.take_length]

/-- **C47 fails** if the container already has data under this name: the new solution is not saved, while success is reported. -/
theorem C47_counterexample_existing_name : (saveSolution [("sim", [[0]])] "sim" [[(1 : Int)]]).1 = true ∧
    restoreSolution (saveSolution [("sim", [[0]])] "sim" [[(1 : Int)]]).2 "sim" [[5]] = some (true, [[0]]) := by decide

end IFEM.Props
