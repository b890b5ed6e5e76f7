import Verif.Spec.LagNodes
import Mathlib.Algebra.Order.Ring.Rat
import Mathlib.Tactic.Ring
import Mathlib.Tactic.FieldSimp
import Mathlib.Data.Fin.VecNotation
import Mathlib.Algebra.CharZero.Defs
/-!
# C98: Nodal coordinates of Lagrange patches
-/
namespace IFEM.LagNodes
open IFEM.Spec

variable {K : Type} [Field K]

theorem addDispl_length (nsd : Nat) (l : List (P3 K)) (d : List K) : (addDispl nsd l d).length = l.length := by
  induction l generalizing d with
  | nil => rfl
  | cons X l ih => simp [addDispl, ih]

theorem addDispl_coord (nsd : Nat) (l : List (P3 K)) (d : List K) (n : Nat) (hn : n < l.length) (i : Fin 3) :
    nodeCoord (addDispl nsd l d) n i = nodeCoord l n i + if i.val < nsd then d.getD (nsd * n + i.val) 0 else 0 := by
  induction l generalizing d n with
  | nil => cases hn
  | cons X l ih =>
    cases n with
    | zero =>
      show X i + (d.take nsd).getD i.val 0 = X i + _
      rw [List.getD_eq_getElem?_getD, List.getElem?_take]
      split <;> simp
    | succ n =>
      show nodeCoord (addDispl nsd l (d.drop nsd)) n i = nodeCoord l n i + _
      rw [ih _ _ (by simpa using hn)]
      congr 1
      rw [List.getD_eq_getElem?_getD, List.getElem?_drop, List.getD_eq_getElem?_getD]
      congr 3
      rw [Nat.mul_succ]; omega

theorem step_length (coord : List (P3 K)) (u : Upd K) : (step coord u).length = coord.length := by
  cases u with
  | displ d nsd => show (updateCoords coord d nsd).1.length = _; unfold updateCoords; split <;> simp [addDispl_length]
  | origin o => simp [step, updateOrigin]

/-- A displacement is accepted exactly if it has `nsd` components for each node; otherwise nothing is changed. -/
theorem C98_accepted (coord : List (P3 K)) (d : List K) (nsd : Nat) :
    ((updateCoords coord d nsd).2 = true ↔ d.length = nsd * coord.length) ∧ ((updateCoords coord d nsd).2 = false → (updateCoords coord d nsd).1 = coord) := by
  unfold updateCoords
  by_cases h : d.length = nsd * coord.length <;> simp [h]

/-- One update moves each node by the movement asked for. -/
theorem C98_step (coord : List (P3 K)) (u : Upd K) (n : Nat) (hn : n < coord.length) (i : Fin 3) :
    nodeCoord (step coord u) n i = nodeCoord coord n i + move coord.length n i u := by
  cases u with
  | displ d nsd =>
    show nodeCoord (updateCoords coord d nsd).1 n i = _
    unfold updateCoords move
    by_cases h : d.length = nsd * coord.length
    · rw [if_neg (by simpa using h), addDispl_coord _ _ _ _ hn]
      simp [h]
    · simp [h]
  | origin o =>
    unfold nodeCoord
    simp [step, updateOrigin, move, hn]

/-- After any sequence of updates each node is at its first position plus the sum of its movements, and no node is added or removed. -/
theorem C98_history (l : List (Upd K)) (coord : List (P3 K)) (n : Nat) (hn : n < coord.length) (i : Fin 3) :
    (l.foldl step coord).length = coord.length ∧
    nodeCoord (l.foldl step coord) n i = nodeCoord coord n i + (l.map (move coord.length n i)).sum := by
  induction l generalizing coord with
  | nil => simp
  | cons u l ih =>
    have := ih (step coord u) (by rw [step_length]; exact hn)
    rw [step_length] at this
    rw [List.foldl_cons]
    refine ⟨this.1, ?_⟩
    rw [this.2, C98_step coord u n hn, List.map_cons, List.sum_cons, add_assoc]

/-- The order of the updates does not matter. -/
theorem C98_order (l l' : List (Upd K)) (h : l.Perm l') (coord : List (P3 K)) : l.foldl step coord = l'.foldl step coord := by
  by_cases h0 : coord = []
  · subst h0
    have : ∀ m : List (Upd K), m.foldl step ([] : List (P3 K)) = [] := by
      intro m
      induction m with
      | nil => rfl
      | cons u m ih => rw [List.foldl_cons, List.length_eq_zero_iff.mp (step_length [] u)]; exact ih
    rw [this, this]
  · have hp : 0 < coord.length := List.length_pos_of_ne_nil h0
    apply List.ext_getElem
    · rw [(C98_history l coord 0 hp 0).1, (C98_history l' coord 0 hp 0).1]
    · intro n h1 h2
      funext i
      have hn : n < coord.length := by rw [← (C98_history l coord 0 hp 0).1]; exact h1
      have e := (C98_history l coord n hn i).2.trans ((congrArg _ (h.map _).sum_eq).trans (C98_history l' coord n hn i).2.symm)
      unfold nodeCoord at e
      simpa [h1, h2] using e

theorem sumNodes_eq (coord : List (P3 K)) (l : List Nat) (X : P3 K) :
    ((∀ n ∈ l, n < coord.length) → sumNodes coord l X = some fun i => X i + (l.map fun n => nodeCoord coord n i).sum) ∧
    ((∃ n ∈ l, coord.length ≤ n) → sumNodes coord l X = none) := by
  induction l generalizing X with
  | nil => simp [sumNodes]
  | cons n l ih =>
    unfold sumNodes
    constructor
    · intro h
      have hn := h n (by simp)
      rw [List.getElem?_eq_getElem hn]
      simp only
      rw [(ih _).1 (fun m hm => h m (by simp [hm]))]
      congr 1
      funext i
      have e : nodeCoord coord n i = coord[n] i := by unfold nodeCoord; simp [hn]
      rw [List.map_cons, List.sum_cons, e, add_assoc]
    · rintro ⟨m, hm, hl⟩
      by_cases hn : n < coord.length
      · rw [List.getElem?_eq_getElem hn]
        simp only
        apply (ih _).2
        simp only [List.mem_cons] at hm
        rcases hm with rfl | hm
        · omega
        · exact ⟨m, hm, hl⟩
      · rw [List.getElem?_eq_none (by omega)]

/-- The geometric center of an element is the mean value of its nodes; it exists exactly if the element has nodes and all of them exist. -/
theorem C98_center (coord : List (P3 K)) (l : List Nat) :
    (l ≠ [] → (∀ n ∈ l, n < coord.length) → center coord l = some fun i => (l.map fun n => nodeCoord coord n i).sum / (l.length : K)) ∧
    (center coord l = none ↔ l = [] ∨ ∃ n ∈ l, coord.length ≤ n) := by
  have h1 : l ≠ [] → (∀ n ∈ l, n < coord.length) → center coord l = some fun i => (l.map fun n => nodeCoord coord n i).sum / (l.length : K) := by
    intro h0 h
    unfold center
    rw [if_neg h0, (sumNodes_eq coord l _).1 h]
    simp [div_eq_mul_inv]
  refine ⟨h1, ?_⟩
  constructor
  · intro h
    by_contra hc
    simp only [not_or, not_exists, not_and, not_le] at hc
    rw [h1 hc.1 hc.2] at h
    cases h
  · rintro (h | h)
    · simp [center, h]
    · unfold center
      rw [(sumNodes_eq coord l _).2 h]
      split <;> rfl

theorem sum_shift (l : List Nat) (f : Nat → K) (o : K) : (l.map fun n => f n + o).sum = (l.map f).sum + (l.length : K) * o := by
  induction l with
  | nil => simp
  | cons n l ih => simp [ih]; ring

/-- Shifting the origin shifts the center of each element. -/
theorem C98_center_shift [CharZero K] (coord : List (P3 K)) (o : P3 K) (l : List Nat) :
    center (updateOrigin coord o) l = (center coord l).map fun X i => X i + o i := by
  by_cases h0 : l = []
  · simp [center, h0]
  by_cases h : ∀ n ∈ l, n < coord.length
  · rw [(C98_center _ l).1 h0 (by simpa [updateOrigin] using h), (C98_center _ l).1 h0 h]
    simp only [Option.map_some, Option.some.injEq]
    funext i
    have e : (l.map fun n => nodeCoord (updateOrigin coord o) n i) = l.map fun n => nodeCoord coord n i + o i := by
      apply List.map_congr_left
      intro n hn
      exact C98_step coord (.origin o) n (h n hn) i
    rw [e, sum_shift]
    have : (l.length : K) ≠ 0 := by
      rw [Nat.cast_ne_zero]; exact fun e => h0 (List.length_eq_zero_iff.mp e)
    field_simp
  · simp only [not_forall, not_lt] at h
    obtain ⟨n, hn, hl⟩ := h
    have e1 := (C98_center coord l).2.mpr (Or.inr ⟨n, hn, hl⟩)
    have e2 := (C98_center (updateOrigin coord o) l).2.mpr (Or.inr ⟨n, hn, by simpa [updateOrigin] using hl⟩)
    rw [e1, e2]; rfl

/-- The nodal field is given exactly if the vector has the same number of values for each of the `nno` nodes, which are at least those of the patch; its
columns are the values of the first nodes, in their order. -/
theorem C98_field (coord : List (P3 K)) (sol : List K) (nno : Nat) (hn : 0 < nno) :
    ∃ F ok, nodalField coord sol nno = some (F, ok) ∧ (ok = true ↔ coord.length ≤ nno ∧ ∃ nComp, sol.length = nno * nComp) ∧
    ∀ nComp, ok = true → sol.length = nno * nComp → F.length = coord.length ∧ ∀ n, n < coord.length → ∃ col, F[n]? = some col ∧ col.length = nComp ∧
      ∀ c, c < nComp → nComp * n + c < sol.length ∧ col.getD c 0 = sol.getD (nComp * n + c) 0 := by
  unfold nodalField
  rw [if_neg (by omega)]
  simp only
  by_cases h : nno < coord.length ∨ sol.length / nno * nno ≠ sol.length
  · rw [if_pos h]
    refine ⟨_, _, rfl, ?_, by simp⟩
    simp only [Bool.false_eq_true, false_iff, not_and, not_exists]
    rintro hl k hk
    rcases h with h | h
    · omega
    · apply h
      rw [hk, Nat.mul_div_cancel_left _ hn, Nat.mul_comm]
  · rw [if_neg h]
    simp only [not_or, not_lt, not_not] at h
    refine ⟨_, _, rfl, ?_, ?_⟩
    · simp only [true_iff]
      exact ⟨h.1, _, by rw [Nat.mul_comm]; exact h.2.symm⟩
    · intro k _ hk
      have e : sol.length / nno = k := by rw [hk, Nat.mul_div_cancel_left _ hn]
      rw [e]
      refine ⟨by simp, fun n hn' => ⟨(List.range k).map fun c => sol.getD (n * k + c) 0, by simp [hn'], by simp, fun c hc => ⟨?_, ?_⟩⟩⟩
      · have h1 : k * (n + 1) ≤ k * nno := Nat.mul_le_mul_left _ (by omega)
        rw [hk, Nat.mul_comm nno, Nat.mul_succ] at *
        omega
      · rw [List.getD_eq_getElem?_getD, List.getElem?_map, List.getElem?_range hc, Nat.mul_comm n]
        simp

/-- The field of a patch without nodes in the vector: the code divides by zero. -/
theorem C98_field_zero (coord : List (P3 K)) (sol : List K) : nodalField coord sol 0 = none := rfl

/-- Two nodes in the plane, moved by a displacement and a shift; a displacement of wrong size is refused. -/
example :
    let c : List (P3 ℚ) := [![0, 0, 5], ![1, 0, 6]]
    let r := [Upd.displ [1, 2, 3, 4] 2, .origin ![10, 20, 30], .displ [1] 2].foldl step c
    (nodeCoord r 0 0 = 11 ∧ nodeCoord r 0 1 = 22 ∧ nodeCoord r 0 2 = 35 ∧ nodeCoord r 1 0 = 14 ∧ nodeCoord r 1 1 = 24 ∧ nodeCoord r 1 2 = 36) ∧
    ((center c [0, 1]).map fun X => (X 0, X 1, X 2)) = some (1/2, 0, 11/2) ∧
    nodalField c [1, 2, 3, 4, 5, 6] 3 = some ([[1, 2], [3, 4]], true) := by decide +kernel

end IFEM.LagNodes
