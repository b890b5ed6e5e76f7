import Verif.Model.Sparse
import Mathlib.Algebra.BigOperators.Group.List.Basic
/-!
# Specification: the matrix represented by a sparse storage

`SpVal M r c` is what a user reads through the const `operator()`.  `Consistent` is the storage
invariant; it is shown to hold initially and to be maintained by all operations.
-/
namespace IFEM
open Sparse
variable {R : Type}

/-- The value read at `(r,c)`. -/
def SpVal [Zero R] (M : Sparse R) (r c : Nat) : R := (M.get? r c).getD 0

/-- The row (row format) or column (column format) number of an entry. -/
def majorOf (col : Bool) (p : (Nat × Nat) × R) : Nat := if col then p.1.2 else p.1.1

/-- The index stored in `JA` for an entry. -/
def minorOf (col : Bool) (p : (Nat × Nat) × R) : Int := if col then (p.1.1 : Int) - 1 else (p.1.2 : Int)

/-- The storage `M` holds exactly the entries `T`. -/
structure Holds (M : Sparse R) (T : VMap R) : Prop where
  nodup : (T.map Prod.fst).Nodup
  range : ∀ p ∈ T, 1 ≤ p.1.1 ∧ p.1.1 ≤ M.nrow ∧ 1 ≤ p.1.2 ∧ p.1.2 ≤ M.ncol
  edit  : M.editable ≠ .locked → M.elem = T ∧ T.Pairwise (fun a b => VMap.keyLt a.1 b.1 = true) ∧
            M.IA = [] ∧ M.JA = [] ∧ M.A = []
  lock  : M.editable = .locked →
            T.Pairwise (fun a b => majorOf M.colFormat a ≤ majorOf M.colFormat b) ∧
            M.JA = T.map (minorOf M.colFormat) ∧ M.A = T.map Prod.snd ∧
            M.IA = (List.range ((if M.colFormat then M.ncol else M.nrow) + 1)).map fun j =>
              ((if M.colFormat then 0 else 1 : Int) + (T.countP fun p => majorOf M.colFormat p ≤ j : Nat))

/-- Storage invariant. -/
def Consistent (M : Sparse R) : Prop := ∃ T, Holds M T

/-- Entry `(r,c)` is stored. -/
def Stored (M : Sparse R) (r c : Nat) : Prop := ∃ T, Holds M T ∧ (r, c) ∈ T.map Prod.fst

end IFEM
