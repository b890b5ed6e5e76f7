import Verif.Model.Arrays
import Mathlib.Data.List.Basic
import Mathlib.Data.List.Count
import Mathlib.Tactic.Linarith
/-! Lemmas about the checked array accessors. -/
namespace IFEM
variable {α : Type _}

@[simp] theorem at0?_natCast (a : List α) (i : Nat) : at0? a (i : Int) = a[i]? := by
  simp [at0?]

@[simp] theorem at1?_natCast_succ (a : List α) (i : Nat) : at1? a ((i : Int) + 1) = a[i]? := by
  simp [at1?]

theorem at0?_eq_some {a : List α} {i : Int} {x : α} (h : at0? a i = some x) :
    0 ≤ i ∧ i.toNat < a.length ∧ a[i.toNat]? = some x := by
  unfold at0? at h
  split at h
  · exact ⟨by assumption, (List.getElem?_eq_some_iff.1 h).1, h⟩
  · cases h

theorem at0?_isSome_iff {a : List α} {i : Int} : (at0? a i).isSome ↔ 0 ≤ i ∧ i < a.length := by
  unfold at0?
  split
  · simp; omega
  · simp; omega

theorem at1?_isSome_iff {a : List α} {i : Int} : (at1? a i).isSome ↔ 1 ≤ i ∧ i ≤ a.length := by
  unfold at1?
  rw [at0?_isSome_iff]; omega

theorem at0?_some_of_bounds {a : List α} {i : Int} (h0 : 0 ≤ i) (h1 : i < a.length) :
    ∃ x, at0? a i = some x ∧ a[i.toNat]? = some x := by
  have h : i.toNat < a.length := by omega
  refine ⟨a[i.toNat], ?_, ?_⟩ <;> simp [at0?, h0, h]

theorem intRange_nat (a n : Nat) : intRange (a : Int) ((a : Int) + n) = (List.range n).map (fun k : Nat => ((a + k : Nat) : Int)) := by
  unfold intRange
  have : ((a : Int) + n - a).toNat = n := by omega
  rw [this]; simp

theorem set0?_eq_some {a : List α} {i : Int} {x : α} {b : List α} (h : set0? a i x = some b) :
    0 ≤ i ∧ i.toNat < a.length ∧ b = a.set i.toNat x := by
  unfold set0? at h
  split at h
  · rename_i hc; cases h; exact ⟨hc.1, hc.2, rfl⟩
  · cases h

theorem set1?_eq_some {a : List α} {i : Int} {x : α} {b : List α} (h : set1? a i x = some b) :
    1 ≤ i ∧ (i-1).toNat < a.length ∧ b = a.set (i-1).toNat x := by
  obtain ⟨h1, h2, h3⟩ := set0?_eq_some h
  exact ⟨by omega, h2, h3⟩

theorem mem_intRange {a b i : Int} : i ∈ intRange a b ↔ a ≤ i ∧ i < b := by
  unfold intRange
  simp only [List.mem_map, List.mem_range]
  constructor
  · rintro ⟨k, hk, rfl⟩; omega
  · rintro ⟨h1, h2⟩; exact ⟨(i-a).toNat, by omega, by omega⟩

end IFEM
