import Verif.Spec.Matrix
import Verif.Model.WeakOps
import Mathlib.Algebra.BigOperators.Fin
import Mathlib.Logic.Equiv.Fin.Basic
/-!
# Specification of the weak operators

An element matrix is a bilinear form in the coefficients of a test and a trial function, an
element vector a linear form in the coefficients of a test function.  An operator of the code is
described by the form it adds.
-/
namespace IFEM.Spec.Weak
open IFEM IFEM.Spec

variable {R : Type} [Field R] {n c d r s : Nat}

/-- The coefficients of the function `i` for the component `k` in a vector that holds all
components of the first function, then all of the second, and so on. -/
def nodal (x : Fin (n * c) → R) (i : Fin n) (k : Fin c) : R := x (finProdFinEquiv (i, k))

/-- The value of the component `k` of the field with the nodal values `u`, for the function values
`N` at the point. -/
def fval (N : Fin n → R) (u : Fin n → Fin c → R) (k : Fin c) : R := ∑ i, N i * u i k

/-- The derivative of the component `k` in the direction `l`. -/
def der (D : Matrix (Fin n) (Fin d) R) (u : Fin n → Fin c → R) (k : Fin c) (l : Fin d) : R := ∑ i, D i l * u i k

/-- The bilinear form of a matrix. -/
def bil (E : Matrix (Fin r) (Fin s) R) (v : Fin r → R) (u : Fin s → R) : R := ∑ i, ∑ j, v i * E i j * u j

/-- The linear form of a vector. -/
def lin (e : Fin r → R) (v : Fin r → R) : R := ∑ i, v i * e i

/-- The operation `f`, applied to any matrix of the given dimensions, succeeds and adds the form
`T` to its bilinear form. -/
def AddsForm (r s : Nat) (f : Mat R → Option (Mat R)) (T : (Fin r → R) → (Fin s → R) → R) : Prop :=
  ∀ (m : Mat R) (E : Matrix (Fin r) (Fin s) R), Rep m E →
    ∃ m' E', f m = some m' ∧ Rep m' E' ∧ ∀ v u, bil E' v u = bil E v u + T v u

/-- The operation `f`, applied to any vector of the given length, succeeds and adds the form `T`
to its linear form. -/
def AddsVec (r : Nat) (f : List R → Option (List R)) (T : (Fin r → R) → R) : Prop :=
  ∀ e : Fin r → R, ∃ e', f (List.ofFn e) = some (List.ofFn e') ∧ ∀ v, lin e' v = lin e v + T v

/-- The operation `f` on a list of matrices, some of which (those at the positions `idx i`) have
given dimensions, succeeds, adds the form `T i` to the block `i`, and leaves all other entries of
the list as they are. -/
def AddsBlocks {ι : Type} (rr cc : ι → Nat) (idx : ι → Nat) (f : List (Mat R) → Option (List (Mat R)))
    (T : ∀ i, (Fin (rr i) → R) → (Fin (cc i) → R) → R) : Prop :=
  ∀ (EM : List (Mat R)) (E : ∀ i, Matrix (Fin (rr i)) (Fin (cc i)) R), (∀ i, ∃ m, EM[idx i]? = some m ∧ Rep m (E i)) →
    ∃ EM', f EM = some EM' ∧ (∀ p, (∀ i, idx i ≠ p) → EM'[p]? = EM[p]?) ∧
      ∀ i, ∃ m' E', EM'[idx i]? = some m' ∧ Rep m' E' ∧ ∀ v u, bil E' v u = bil (E i) v u + T i v u

/-- The same for a list of vectors. -/
def AddsVecs {ι : Type} (rr : ι → Nat) (idx : ι → Nat) (f : List (List R) → Option (List (List R))) (T : ∀ i, (Fin (rr i) → R) → R) : Prop :=
  ∀ (EV : List (List R)) (e : ∀ i, Fin (rr i) → R), (∀ i, EV[idx i]? = some (List.ofFn (e i))) →
    ∃ EV', f EV = some EV' ∧ (∀ p, (∀ i, idx i ≠ p) → EV'[p]? = EV[p]?) ∧
      ∀ i, ∃ e', EV'[idx i]? = some (List.ofFn e') ∧ ∀ v, lin e' v = lin (e i) v + T i v

/-- The finite element `fe` has, for the basis `b`, the function values `N` and the gradients `D`. -/
structure IsBasis (fe : IFEM.Weak.FE R) (b : Nat) (N : Fin n → R) (D : Matrix (Fin n) (Fin d) R) : Prop where
  values : fe.basis b = List.ofFn N
  grads : Rep (fe.grad b) D

/-- One basis for every component of a vector field; the gradients have one column per component. -/
def Bases {nn : Fin d → Nat} (fe : IFEM.Weak.FE R) (N : ∀ k : Fin d, Fin (nn k) → R) (D : ∀ k : Fin d, Matrix (Fin (nn k)) (Fin d) R) : Prop :=
  (fe.grad 1).ncol = d ∧ ∀ k : Fin d, IsBasis fe (k+1) (N k) (D k)

/-- Transport of a quantity with values `u` and gradient `du` by the velocity `a`, tested with
values `v` and gradient `dv`: `(a·∇u)·v`, `-(a·∇v)·u`, or the mean of both. -/
def transport (form : IFEM.Weak.Form) (a : Fin d → R) (u : Fin c → R) (du : Fin c → Fin d → R) (v : Fin c → R) (dv : Fin c → Fin d → R) : R :=
  match form with
  | .convective => ∑ k, ∑ l, a l * du k l * v k
  | .conservative => -∑ k, ∑ l, a l * dv k l * u k
  | .skew => (∑ k, ∑ l, a l * du k l * v k - ∑ k, ∑ l, a l * dv k l * u k) / 2

/-- The transport of a scalar quantity. -/
def transport1 (form : IFEM.Weak.Form) (a : Fin d → R) (u : R) (du : Fin d → R) (v : R) (dv : Fin d → R) : R :=
  transport form a (fun _ : Fin 1 => u) (fun _ => du) (fun _ => v) (fun _ => dv)

end IFEM.Spec.Weak
