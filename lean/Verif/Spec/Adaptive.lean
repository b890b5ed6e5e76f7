import Mathlib.Algebra.Order.Field.Basic

/-!
# Specification of the selection of elements for refinement
-/
namespace IFEM.Adapt.Spec

variable {K : Type} [Field K] [LinearOrder K]

/-- The error of element (or function) `i`. -/
def err (e : List K) (i : Nat) : K := e.getD i 0

/-- A sequence of all elements with decreasing errors. -/
def Decreasing (e : List K) (order : List Nat) : Prop := order.Perm (List.range e.length) ∧ order.Pairwise fun i j => err e j ≤ err e i

/-- A set of elements such that no element outside has a larger error than one inside. -/
def Largest (e : List K) (m : List Nat) : Prop := m.Nodup ∧ (∀ i ∈ m, i < e.length) ∧ ∀ i ∈ m, ∀ j, j < e.length → j ∉ m → err e j ≤ err e i

/-- The sum of the errors of some elements. -/
def sumErr (e : List K) (m : List Nat) : K := (m.map (err e)).sum

/-- The sum of the errors of all functions of all patches with the global number `g`. -/
def total (patches : List (List Nat × List K)) (g : Nat) : K := (patches.map fun p => (((p.1.zip p.2).filter fun q => q.1 = g).map Prod.snd).sum).sum

end IFEM.Adapt.Spec
