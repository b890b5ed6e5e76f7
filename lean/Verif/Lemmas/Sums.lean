import Mathlib.Algebra.BigOperators.Fin
import Mathlib.Algebra.BigOperators.Group.List.Basic
import Mathlib.Algebra.BigOperators.Ring.Finset
import Mathlib.Data.List.FinRange
import Mathlib.Tactic.Ring
/-! Sums over lists and index ranges. -/
namespace IFEM

theorem sum_map_flatMap {α β M : Type _} [AddMonoid M] (l : List α) (f : α → List β) (g : β → M) :
    ((l.flatMap f).map g).sum = (l.map fun x => ((f x).map g).sum).sum := by
  induction l with
  | nil => simp
  | cons x xs ih => simp [List.flatMap_cons, ih]

theorem sum_map_filter {α M : Type _} [AddMonoid M] (l : List α) (p : α → Bool) (g : α → M) :
    ((l.filter p).map g).sum = (l.map fun x => if p x then g x else 0).sum := by
  induction l with
  | nil => simp
  | cons x xs ih =>
    by_cases h : p x <;> simp [h, ih]

theorem sum_finRange {M : Type _} [AddCommMonoid M] {n : Nat} (f : Fin n → M) :
    ((List.finRange n).map f).sum = ∑ i, f i := by
  rw [Fin.sum_univ_def]

open Finset in
/-- Diagonal plus strictly upper triangle taken twice is the whole square. -/
theorem tri_sum {M : Type _} [AddCommMonoid M] {n : Nat} (G : Fin n → Fin n → M) :
    ∑ j, (G j j + ∑ i, if i < j then (G i j + G j i) else 0) = ∑ i, ∑ j, G i j := by
  have h1 : ∀ j, ∑ i, G j i = G j j + (∑ i, if i < j then G j i else 0) + ∑ i, if j < i then G j i else 0 := by
    intro j
    have : ∀ i, G j i = (if i = j then G j i else 0) + (if i < j then G j i else 0) + (if j < i then G j i else 0) := by
      intro i
      rcases lt_trichotomy i j with h | h | h
      · simp [h, h.ne, h.not_gt]
      · simp [h]
      · simp [h, h.ne', h.not_gt]
    rw [Finset.sum_congr rfl (fun i _ => this i), Finset.sum_add_distrib, Finset.sum_add_distrib]
    congr 2
    simp
  have h2 : ∀ i j : Fin n, (if i < j then (G i j + G j i) else 0) =
      (if i < j then G i j else 0) + (if i < j then G j i else 0) := by
    intro i j; split <;> simp
  rw [Finset.sum_congr rfl (fun j _ => h1 j)]
  simp only [h2, Finset.sum_add_distrib]
  rw [Finset.sum_comm (f := fun (x i : Fin n) => if x < i then G x i else 0)]
  rw [add_assoc, add_comm (∑ x : Fin n, ∑ i : Fin n, if i < x then G i x else 0)]

end IFEM
