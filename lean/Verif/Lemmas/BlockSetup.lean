import Verif.Props.BlockNumbers
import Mathlib.Data.List.Perm.Basic
import Mathlib.Algebra.BigOperators.Intervals
import Mathlib.Tactic.Common
/-!
# Lemmas on setting up the blocks of an element
-/
namespace IFEM.Lem
open IFEM IFEM.Blk IFEM.Spec.Blk IFEM.Props

/-- A list given by a function of the position. -/
def tab {α : Type} (n : Nat) (f : Nat → α) : List α := (List.range n).map f

theorem tab_len {α : Type} (n : Nat) (f : Nat → α) : (tab n f).length = n := by simp [tab]

theorem tab_get {α : Type} {n : Nat} {f : Nat → α} {k : Nat} (h : k < n) : (tab n f)[k]? = some (f k) := by
  simp [tab, h]

theorem tab_congr {α : Type} {n : Nat} {f g : Nat → α} (h : ∀ k < n, f k = g k) : tab n f = tab n g :=
  List.map_congr_left fun k hk => h k (List.mem_range.1 hk)

theorem tab_rep {α : Type} (n : Nat) (x : α) : List.replicate n x = tab n fun _ => x := by
  unfold tab
  refine List.ext_getElem? fun k => ?_
  by_cases h : k < n <;> simp [h, List.getElem?_replicate]

theorem tab_modify {α : Type} (n : Nat) (f : Nat → α) (p : Nat) (φ : α → α) : (tab n f).modify p φ = tab n fun k => if k = p then φ (f k) else f k := by
  unfold tab
  refine List.ext_getElem? fun k => ?_
  rw [List.getElem?_modify]
  by_cases h : k < n
  · by_cases e : p = k
    · subst e; simp [h]
    · simp [h, e, Ne.symm e]
  · simp [h]

theorem tab_set {α : Type} (n : Nat) (f : Nat → α) (p : Nat) (x : α) : (tab n f).set p x = tab n fun k => if k = p then x else f k := by
  unfold tab
  refine List.ext_getElem? fun k => ?_
  rw [List.getElem?_set]
  by_cases h : k < n
  · by_cases e : p = k
    · subst e; simp [h]
    · simp [h, e, Ne.symm e]
  · by_cases e : p = k
    · subst e; simp [h]
    · simp [h, e]

variable {R : Type} [Zero R] (c : Config)

theorem resize_empty (r s : Nat) : (⟨0, 0, []⟩ : Mat R).resize r s false = Mat.zero r s := by
  unfold Mat.resize Mat.zero
  simp only [Bool.false_eq_true, if_false]
  by_cases h1 : 0 = r ∧ 0 = s
  · rw [if_pos h1, ← h1.1, ← h1.2]; simp
  · rw [if_neg h1]
    by_cases h2 : 0 * 0 = r * s
    · rw [if_pos h2, ← h2]; simp
    · rw [if_neg h2]; simp

theorem resize_same (r s : Nat) : (Mat.zero r s : Mat R).resize r s false = Mat.zero r s := by
  unfold Mat.resize Mat.zero
  simp

/-- The state after the calls of `redim` for the blocks in `P`. -/
def afterRedim (nA nB : Nat) (zero : Nat → Bool) (P : List Nat) : Elm R :=
  ⟨tab nA fun p => if 0 < p ∧ p - 1 ∈ P ∧ zero (p-1) = false then Mat.zero (c.nen (c.bas (p-1)) * c.cmp (p-1)) (c.nen (c.bas (p-1)) * c.cmp (p-1)) else ⟨0, 0, []⟩,
   tab nB fun p => if 0 < p ∧ p - 1 ∈ P then List.replicate (c.nen (c.bas (p-1)) * c.cmp (p-1)) 0 else [],
   0,
   tab c.nBlk fun k => if k ∈ P then ⟨(c.bas k : Int) + 1, c.cmp k, 0⟩ else ⟨0, 0, 0⟩,
   tab c.nBas fun j => ⟨if ∃ k ∈ P, c.bas k = j then c.nen j else 0, (P.map fun k => if c.bas k = j then c.cmp k else 0).sum⟩,
   []⟩

theorem afterRedim_nil (nA nB : Nat) (zero : Nat → Bool) : (afterRedim c nA nB zero [] : Elm R) = Elm.init c.nBlk c.nBas nA nB := by
  unfold afterRedim Elm.init
  simp only [tab_rep]
  congr 1
  all_goals exact tab_congr fun k _ => by simp

theorem redim_step (nA nB : Nat) (zero : Nat → Bool) (P : List Nat) (k : Nat) (hk : k < c.nBlk) (hP : k ∉ P) (hA : c.nBlk < nA) (hB : c.nBlk < nB) :
    (afterRedim c nA nB zero P : Elm R).redim (k+1) (c.nen (c.bas k)) (c.cmp k) (if zero k then -((c.bas k : Int) + 1) else (c.bas k : Int) + 1) =
      (true, afterRedim c nA nB zero (P ++ [k])) := by
  have hb : ((if zero k then -((c.bas k : Int) + 1) else (c.bas k : Int) + 1).natAbs : Int) = (c.bas k : Int) + 1 := by
    by_cases h : zero k <;> simp only [h, if_true, if_false, Bool.false_eq_true] <;> omega
  have hA' : redimA (afterRedim c nA nB zero P : Elm R) (k+1) (c.nen (c.bas k)) (c.cmp k) (if zero k then -((c.bas k : Int) + 1) else (c.bas k : Int) + 1) =
      (true, (afterRedim c nA nB zero (P ++ [k]) : Elm R).A) := by
    unfold redimA afterRedim
    by_cases h : zero k
    · rw [if_pos h, if_pos (by omega)]
      dsimp only
      congr 1
      refine tab_congr fun p _ => ?_
      by_cases e : 0 < p ∧ p - 1 = k
      · rw [if_neg (fun h' => by rw [e.2, h] at h'; exact Bool.noConfusion h'.2.2), if_neg (fun h' => by rw [e.2, h] at h'; exact Bool.noConfusion h'.2.2)]
      · by_cases h' : 0 < p ∧ p - 1 ∈ P ∧ zero (p-1) = false
        · rw [if_pos h', if_pos ⟨h'.1, List.mem_append_left _ h'.2.1, h'.2.2⟩]
        · rw [if_neg h', if_neg]
          rintro ⟨a, b, d⟩
          rcases List.mem_append.1 b with b | b
          · exact h' ⟨a, b, d⟩
          · exact e ⟨a, List.mem_singleton.1 b⟩
    · rw [if_neg h, if_neg (by omega), if_pos (by simp only [tab_len]; omega)]
      dsimp only
      rw [tab_modify]
      congr 1
      refine tab_congr fun p _ => ?_
      by_cases e : p = k+1
      · subst e
        simp only [Nat.add_sub_cancel]
        rw [if_pos trivial, if_neg (fun h' => hP h'.2.1), if_pos ⟨by omega, by simp, by simpa using h⟩, resize_empty]
      · rw [if_neg e]
        by_cases h' : 0 < p ∧ p - 1 ∈ P ∧ zero (p-1) = false
        · rw [if_pos h', if_pos ⟨h'.1, List.mem_append_left _ h'.2.1, h'.2.2⟩]
        · rw [if_neg h', if_neg]
          rintro ⟨a, b, d⟩
          rcases List.mem_append.1 b with b | b
          · exact h' ⟨a, b, d⟩
          · have := List.mem_singleton.1 b
            omega
  have hB' : redimB (afterRedim c nA nB zero P : Elm R) (k+1) (c.nen (c.bas k)) (c.cmp k) = (true, (afterRedim c nA nB zero (P ++ [k]) : Elm R).b) := by
    unfold redimB afterRedim
    rw [if_pos (by simp only [tab_len]; omega)]
    dsimp only
    rw [tab_modify]
    congr 1
    refine tab_congr fun p _ => ?_
    by_cases e : p = k+1
    · subst e
      simp only [Nat.add_sub_cancel]
      rw [if_pos trivial, if_neg (fun h' => hP h'.2), if_pos ⟨by omega, by simp⟩]
      unfold vresize
      by_cases h : c.nen (c.bas k) * c.cmp k = ([] : List R).length
      · rw [if_pos h, h]; rfl
      · rw [if_neg h]
    · rw [if_neg e]
      by_cases h' : 0 < p ∧ p - 1 ∈ P
      · rw [if_pos h', if_pos ⟨h'.1, List.mem_append_left _ h'.2⟩]
      · rw [if_neg h', if_neg]
        rintro ⟨a, b⟩
        rcases List.mem_append.1 b with b | b
        · exact h' ⟨a, b⟩
        · have := List.mem_singleton.1 b
          omega
  have hS : redimBasis (afterRedim c nA nB zero P : Elm R).basisInfo (c.nen (c.bas k)) (c.cmp k) ((c.bas k : Int) + 1) = (true, (afterRedim c nA nB zero (P ++ [k]) : Elm R).basisInfo) := by
    have hv := c.valid k hk
    have hlen : (afterRedim c nA nB zero P : Elm R).basisInfo.length = c.nBas := tab_len _ _
    unfold redimBasis
    rw [if_pos (by rw [hlen]; omega)]
    unfold afterRedim
    dsimp only
    rw [tab_modify]
    congr 1
    refine tab_congr fun j _ => ?_
    rw [show ((c.bas k : Int) + 1).toNat - 1 = c.bas k by omega]
    rw [List.map_append, List.sum_append]
    by_cases e : j = c.bas k
    · subst e
      have hex : ∃ k' ∈ P ++ [k], c.bas k' = c.bas k := ⟨k, by simp, rfl⟩
      rw [if_pos rfl, if_pos hex]
      simp
    · rw [if_neg e]
      have : (∃ k' ∈ P ++ [k], c.bas k' = j) ↔ ∃ k' ∈ P, c.bas k' = j := by
        constructor
        · rintro ⟨k', a, b⟩
          rcases List.mem_append.1 a with a | a
          · exact ⟨k', a, b⟩
          · rw [List.mem_singleton.1 a] at b
            exact absurd b.symm e
        · rintro ⟨k', a, b⟩
          exact ⟨k', List.mem_append_left _ a, b⟩
      simp only [this, List.map_cons, List.map_nil, List.sum_cons, List.sum_nil, add_zero]
      rw [show (if c.bas k = j then c.cmp k else 0) = 0 from if_neg (fun h => e h.symm), add_zero]
  unfold Elm.redim
  rw [if_neg (by omega), hA', hB', hb, hS]
  have hl : (afterRedim c nA nB zero P : Elm R).blockInfo.length = c.nBlk := by simp [afterRedim, tab_len]
  rw [hl, decide_eq_true (by omega)]
  simp only [Bool.and_true, Nat.add_sub_cancel, Bool.true_and]
  unfold afterRedim
  congr 2
  dsimp only
  rw [tab_set]
  refine tab_congr fun p _ => ?_
  by_cases e : p = k
  · subst e; simp
  · rw [if_neg e]
    simp [e]

/-- All calls of `redim`. -/
theorem redim_all (nA nB : Nat) (zero : Nat → Bool) (hA : c.nBlk < nA) (hB : c.nBlk < nB) (P Q : List Nat) (hQ : ∀ k ∈ Q, k < c.nBlk) (hn : (P ++ Q).Nodup) :
    Q.foldl (fun (r : Bool × Elm R) k =>
      let t := r.2.redim (k+1) (c.nen (c.bas k)) (c.cmp k) (if zero k then -((c.bas k : Int) + 1) else (c.bas k : Int) + 1)
      (r.1 && t.1, t.2)) (true, afterRedim c nA nB zero P) = (true, afterRedim c nA nB zero (P ++ Q)) := by
  induction Q generalizing P with
  | nil => simp
  | cons k Q ih =>
    rw [List.foldl_cons]
    dsimp only
    rw [redim_step c nA nB zero P k (hQ k List.mem_cons_self) (fun h => ?_) hA hB]
    · have := ih (P ++ [k]) (fun k hk => hQ k (List.mem_cons_of_mem _ hk)) (by simpa using hn)
      rw [List.append_assoc] at this
      exact this
    · exact (List.nodup_append.1 hn).2.2 k h k List.mem_cons_self rfl

end IFEM.Lem
