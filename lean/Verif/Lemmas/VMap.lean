import Verif.Model.Sparse
import Verif.Lemmas.Assem
/-! Lemmas about the ordered map, tables, and segments. -/
namespace IFEM
variable {R : Type}

namespace VMap

theorem keyLt_iff (a b : Nat × Nat) : keyLt a b = true ↔ a.1 < b.1 ∨ (a.1 = b.1 ∧ a.2 < b.2) := by
  simp [keyLt]

theorem keyLt_trans {a b c : Nat × Nat} (h1 : keyLt a b = true) (h2 : keyLt b c = true) : keyLt a c = true := by
  rw [keyLt_iff] at *; omega

theorem keyLt_ne {a b : Nat × Nat} (h : keyLt a b = true) : a ≠ b := by
  rintro rfl; rw [keyLt_iff] at h; omega

theorem keyLt_total {a b : Nat × Nat} (h : a ≠ b) (h1 : ¬ keyLt a b = true) : keyLt b a = true := by
  rw [keyLt_iff] at *
  have : a.1 ≠ b.1 ∨ a.2 ≠ b.2 := by
    by_contra hc; push Not at hc; exact h (Prod.ext hc.1 hc.2)
  omega

/-- Iteration order. -/
def Sorted (m : VMap R) : Prop := m.Pairwise fun a b => keyLt a.1 b.1 = true

theorem Sorted.nodup {m : VMap R} (h : Sorted m) : (m.map Prod.fst).Nodup := by
  unfold List.Nodup
  rw [List.pairwise_map]
  exact h.imp fun hab => keyLt_ne hab

@[simp] theorem find?_nil (k : Nat × Nat) : find? ([] : VMap R) k = none := rfl

theorem find?_cons (p : (Nat × Nat) × R) (m : VMap R) (k : Nat × Nat) :
    find? (p :: m) k = if p.1 = k then some p.2 else find? m k := by
  unfold find?
  rw [List.find?_cons]
  by_cases h : p.1 = k
  · simp [h]
  · have : (p.1 == k) = false := by simpa using h
    rw [this, if_neg h]

theorem find?_eq_none {m : VMap R} {k : Nat × Nat} (h : ∀ p ∈ m, p.1 ≠ k) : find? m k = none := by
  induction m with
  | nil => rfl
  | cons p m ih =>
    rw [find?_cons, if_neg (h p List.mem_cons_self)]
    exact ih fun q hq => h q (List.mem_cons_of_mem _ hq)

theorem find?_isSome_iff {m : VMap R} {k : Nat × Nat} : (find? m k).isSome ↔ k ∈ m.map Prod.fst := by
  induction m with
  | nil => simp
  | cons p m ih =>
    rw [find?_cons]
    by_cases h : p.1 = k
    · simp [h]
    · rw [if_neg h, ih]
      simp [Ne.symm h]

theorem find?_eq_some {m : VMap R} (hn : (m.map Prod.fst).Nodup) {k : Nat × Nat} {v : R} :
    find? m k = some v ↔ (k, v) ∈ m := by
  induction m with
  | nil => simp
  | cons p m ih =>
    rw [List.map_cons, List.nodup_cons] at hn
    rw [find?_cons, List.mem_cons]
    by_cases h : p.1 = k
    · rw [if_pos h]
      constructor
      · intro hv; cases hv; left; exact Prod.ext h.symm rfl
      · rintro (hv | hv)
        · rw [← hv]
        · exact absurd (List.mem_map.2 ⟨(k, v), hv, h.symm⟩) hn.1
    · rw [if_neg h, ih hn.2]
      constructor
      · exact Or.inr
      · rintro (hv | hv)
        · exact absurd (by rw [← hv]) h
        · exact hv

/-- Lookup is invariant under reordering when keys are unique. -/
theorem find?_perm {m m' : VMap R} (hp : m.Perm m') (hn : (m.map Prod.fst).Nodup) (k : Nat × Nat) :
    find? m k = find? m' k := by
  have hn' := (hp.map Prod.fst).nodup_iff.1 hn
  cases h : find? m k with
  | some v =>
    have := (find?_eq_some hn).1 h
    exact ((find?_eq_some hn').2 (hp.mem_iff.1 this)).symm
  | none =>
    cases h' : find? m' k with
    | none => rfl
    | some v =>
      have := (find?_eq_some hn).2 (hp.mem_iff.2 ((find?_eq_some hn').1 h'))
      rw [h] at this; cases this

variable [Zero R]

theorem mem_keys_modify (f : R → R) (k : Nat × Nat) (m : VMap R) (k' : Nat × Nat) :
    k' ∈ (modify f k m).map Prod.fst ↔ k' = k ∨ k' ∈ m.map Prod.fst := by
  induction m with
  | nil => simp [modify]
  | cons p m ih =>
    obtain ⟨k0, x⟩ := p
    unfold modify
    by_cases h : k = k0
    · subst h; simp
    · have hb : (k == k0) = false := by simpa using h
      simp only [hb, Bool.false_eq_true, if_false]
      by_cases h2 : keyLt k k0 = true
      · rw [if_pos h2]; simp
      · rw [if_neg h2, List.map_cons, List.mem_cons, ih, List.map_cons, List.mem_cons]
        simp only
        tauto

theorem sorted_modify (f : R → R) (k : Nat × Nat) {m : VMap R} (hs : Sorted m) : Sorted (modify f k m) := by
  induction m with
  | nil => simp [modify, Sorted]
  | cons p m ih =>
    obtain ⟨k0, x⟩ := p
    unfold Sorted at hs
    rw [List.pairwise_cons] at hs
    unfold modify
    by_cases h : k = k0
    · subst h
      simp only [beq_self_eq_true, if_true]
      unfold Sorted
      rw [List.pairwise_cons]
      exact ⟨hs.1, hs.2⟩
    · have hb : (k == k0) = false := by simpa using h
      simp only [hb, Bool.false_eq_true, if_false]
      by_cases h2 : keyLt k k0 = true
      · rw [if_pos h2]
        unfold Sorted
        rw [List.pairwise_cons, List.pairwise_cons]
        refine ⟨?_, hs.1, hs.2⟩
        intro q hq
        rcases List.mem_cons.1 hq with rfl | hq
        · exact h2
        · exact keyLt_trans h2 (hs.1 q hq)
      · rw [if_neg h2]
        unfold Sorted
        rw [List.pairwise_cons]
        refine ⟨?_, ih hs.2⟩
        intro q hq
        have : q.1 ∈ (modify f k m).map Prod.fst := List.mem_map_of_mem hq
        rcases (mem_keys_modify f k m q.1).1 this with he | he
        · rw [he]; exact keyLt_total h h2
        · obtain ⟨q', hq', he⟩ := List.mem_map.1 he
          rw [← he]; exact hs.1 q' hq'

theorem find?_modify (f : R → R) (k : Nat × Nat) {m : VMap R} (hs : Sorted m) (k' : Nat × Nat) :
    find? (modify f k m) k' = if k' = k then some (f ((find? m k).getD 0)) else find? m k' := by
  induction m with
  | nil =>
    rw [modify, find?_cons]
    by_cases h : k' = k
    · simp [h]
    · rw [if_neg (Ne.symm h), if_neg h]
  | cons p m ih =>
    obtain ⟨k0, x⟩ := p
    unfold Sorted at hs
    rw [List.pairwise_cons] at hs
    unfold modify
    by_cases h : k = k0
    · subst h
      simp only [beq_self_eq_true, if_true]
      rw [find?_cons, find?_cons, find?_cons]
      by_cases h' : k' = k
      · simp [h']
      · simp [h', Ne.symm h']
    · have hb : (k == k0) = false := by simpa using h
      simp only [hb, Bool.false_eq_true, if_false]
      by_cases h2 : keyLt k k0 = true
      · rw [if_pos h2, find?_cons]
        have hnone : find? ((k0, x) :: m) k = none := by
          apply find?_eq_none
          intro q hq
          rcases List.mem_cons.1 hq with rfl | hq
          · exact Ne.symm h
          · exact (keyLt_ne (keyLt_trans h2 (hs.1 q hq))).symm
        by_cases h' : k' = k
        · subst h'; simp [hnone]
        · simp only [if_neg (Ne.symm h'), if_neg h']
      · rw [if_neg h2, find?_cons, ih hs.2, find?_cons, find?_cons]
        by_cases h' : k' = k
        · subst h'
          simp only [if_neg (Ne.symm h), if_true]
        · simp only [if_neg h']

end VMap

/-! ## Tables -/

/-- The table of the first `n` values of `F`. -/
def tab {α : Type _} (n : Nat) (F : Nat → α) : List α := (List.range n).map F

@[simp] theorem tab_length {α : Type _} (n : Nat) (F : Nat → α) : (tab n F).length = n := by simp [tab]

theorem at0?_tab {α : Type _} {n : Nat} (F : Nat → α) {i : Nat} (h : i < n) : at0? (tab n F) (i : Int) = some (F i) := by
  simp [tab, h]

theorem set0?_tab {α : Type _} {n : Nat} (F : Nat → α) {i : Nat} (h : i < n) (v : α) :
    set0? (tab n F) (i : Int) v = some (tab n (Function.update F i v)) := by
  unfold set0?
  rw [if_pos ⟨by omega, by simpa using h⟩]
  congr 1
  apply List.ext_getElem
  · simp
  · intro j h1 h2
    simp only [Int.toNat_natCast, tab, List.getElem_set, List.getElem_map, List.getElem_range, Function.update_apply]
    by_cases hij : i = j
    · simp [hij]
    · simp [hij, Ne.symm hij]

theorem tab_congr {α : Type _} {n : Nat} {F G : Nat → α} (h : ∀ i < n, F i = G i) : tab n F = tab n G := by
  unfold tab
  apply List.map_congr_left
  intro i hi
  exact h i (by simpa using hi)

theorem resizeTo_nil {α : Type} (n : Nat) (v : α) : Sparse.resizeTo [] n v = tab n fun _ => v := by
  simp [Sparse.resizeTo, tab]

/-! ## Segments of a list sorted by a major index -/

theorem lt_countP_le {α : Type _} (f : α → Nat) (T : List α) (hs : T.Pairwise fun a b => f a ≤ f b) (j q : Nat)
    (hq : q < T.length) : q < T.countP (fun t => f t ≤ j) ↔ f T[q] ≤ j := by
  induction T generalizing q with
  | nil => simp at hq
  | cons t T ih =>
    rw [List.pairwise_cons] at hs
    rw [List.countP_cons]
    by_cases h : f t ≤ j
    · simp only [h, decide_true, if_true]
      cases q with
      | zero => simp [h]
      | succ q =>
        simp only [List.getElem_cons_succ]
        rw [← ih hs.2 q (by simpa using hq)]
        omega
    · have h0 : T.countP (fun t => f t ≤ j) = 0 := by
        rw [List.countP_eq_zero]
        intro x hx
        have := hs.1 x hx
        simp; omega
      simp only [h, decide_false, h0]
      constructor
      · intro hc; simp at hc
      · intro hc
        exfalso
        cases q with
        | zero => exact h (by simpa using hc)
        | succ q =>
          have := hs.1 _ (List.getElem_mem (l := T) (n := q) (by simpa using hq))
          simp only [List.getElem_cons_succ] at hc
          omega

end IFEM
