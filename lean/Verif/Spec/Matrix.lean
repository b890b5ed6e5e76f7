import Verif.Model.Mat
import Mathlib.LinearAlgebra.Matrix.Defs
import Mathlib.Data.Matrix.Mul
import Mathlib.Data.List.OfFn
/-!
# Specification of dense matrices

A matrix object of the code represents a matrix in the usual sense if it has its dimensions and its entries, column by column.
-/
namespace IFEM.Spec

variable {R : Type} {r c : Nat}

/-- `m` holds the matrix `A`. -/
structure Rep (m : Mat R) (A : Matrix (Fin r) (Fin c) R) : Prop where
  rows : m.nrow = r
  cols : m.ncol = c
  size : m.elem.length = r * c
  ent : ∀ (i : Fin r) (j : Fin c), m.elem[i.1 + r * j.1]? = some (A i j)

/-- `m` holds `A`, or its transpose if `t` is set; that is, `A` is what a product with the flag `t` takes for `m`. -/
def RepOp (m : Mat R) (t : Bool) (A : Matrix (Fin r) (Fin c) R) : Prop :=
  if t then Rep m A.transpose else Rep m A

end IFEM.Spec
