import Verif.Model.Supel
import Verif.Spec.Matrix
import Verif.Spec.Sparse
import Mathlib.Data.Matrix.Basic
/-!
# Specification of superelements

The equations `1 … n` of a substructure are divided into internal ones and retained ones, each group in increasing order.
-/
namespace IFEM.Spec
open IFEM
variable {K : Type}

/-- The division of `n` equations into `n1` internal and `n2` retained ones (numbered from zero). -/
structure Division (n n1 n2 : Nat) where
  int : Fin n1 → Fin n
  ext : Fin n2 → Fin n
  int_mono : StrictMono int
  ext_mono : StrictMono ext
  all : Function.Bijective (Sum.elim int ext)

/-- The sparse matrix has the given dimensions and entries. -/
structure SpRep [Zero K] (M : Sparse K) {r c : Nat} (A : Matrix (Fin r) (Fin c) K) : Prop where
  rows : M.nrow = r
  cols : M.ncol = c
  ent : ∀ (i : Fin r) (j : Fin c), SpVal M (i.1 + 1) (j.1 + 1) = A i j

/-- The solver succeeds for every right-hand side, with a solution. -/
def SolvesFor [Field K] (solve : Sparse K → List K → Option (List K)) {m : Nat} (A : Matrix (Fin m) (Fin m) K) : Prop :=
  ∀ M : Sparse K, SpRep M A → ∀ b : Fin m → K, ∃ x : Fin m → K, solve M (List.ofFn b) = some (List.ofFn x) ∧ A.mulVec x = b

/-- The equation numbers of the given nodes are those of the retained equations. -/
def Retains (s : Sam K) (nodes : List Int) {n n1 n2 : Nat} (d : Division n n1 n2) : Prop :=
  ∃ L, nodes.mapM s.getNodeEqns = some L ∧ L.flatten.Perm (List.ofFn fun k => ((d.ext k).1 : Int) + 1)

/-- The transformation of `m` nodes: the nodal matrix repeated on the diagonal, and otherwise zero. -/
def nodal [Zero K] {N : Nat} (m : Nat) (T : Matrix (Fin N) (Fin N) K) : Matrix (Fin (m * N)) (Fin (m * N)) K :=
  fun p q => if p.divNat = q.divNat then T p.modNat q.modNat else 0

/-- The first `N` columns. -/
def leading {N c : Nat} (h : N ≤ c) (T : Matrix (Fin N) (Fin c) K) : Matrix (Fin N) (Fin N) K := fun i j => T i (Fin.castLE h j)

end IFEM.Spec
