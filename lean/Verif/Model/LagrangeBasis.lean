import Mathlib.Algebra.Order.Field.Basic
/-!
# Lagrange basis functions

Models `src/ASM/Lagrange.C` and `src/Utility/LagrangeInterpolator.C`.  `double` is an arbitrary linearly ordered field (exact arithmetic);
the error print-out is left out.
-/
namespace IFEM.Lag
variable {K : Type} [Field K]

/-- `for (int j = 0; j < degree; j++) if (j != polnum) retval *= (xi - points[j]) / (points[polnum] - points[j])`
(Lagrange.C:60-73, LagrangeInterpolator.C:17-25). -/
def evalLoop (points : List K) (polnum : Nat) (xi : K) : K :=
  (List.range points.length).foldl
    (fun r j => if j ≠ polnum then r * ((xi - points.getD j 0) / (points.getD polnum 0 - points.getD j 0)) else r) 1

/-- The inner loop of the derivative (Lagrange.C:65-68). -/
def prodLoop (points : List K) (polnum j : Nat) (xi : K) : K :=
  (List.range points.length).foldl
    (fun r i => if i ≠ polnum ∧ i ≠ j then r * ((xi - points.getD i 0) / (points.getD polnum 0 - points.getD i 0)) else r) 1

/-- The loop of the derivative (Lagrange.C:59-70). -/
def derivLoop (points : List K) (polnum : Nat) (xi : K) : K :=
  (List.range points.length).foldl
    (fun r j => if j ≠ polnum then r + prodLoop points polnum j xi / (points.getD polnum 0 - points.getD j 0) else r) 0

variable [LinearOrder K]

/-- `Lagrange1D::eval` (Lagrange.C:35-76); `none` if it returns false. -/
def eval1D (points : List K) (polnum : Int) (xi : K) (deriv : Bool) : Option K :=
  if polnum < 0 ∨ polnum ≥ points.length then none
  else if deriv = true ∧ (xi < points.headD 0 ∨ xi > points.getLastD 0) then none
  else if deriv then some (derivLoop points polnum.toNat xi) else some (evalLoop points polnum.toNat xi)

/-- `for (i = 0; i < p1; i++) if (!L1.eval(i,x1,tempval1[i],deriv)) return false` (Lagrange.C:131-141, 159-169); the vector has initially the
elements `init` (`n1` elements for values, `p1` for derivatives). -/
def evalDir (points : List K) (xi : K) (deriv : Bool) (init : List K) : Option (List K) :=
  (List.range points.length).foldlM (fun (v : List K) (i : Nat) => (eval1D points (i : Int) xi deriv).map fun e => v.set i e) init

/-- The loops `for k, for j, for i` (Lagrange.C:147-150, 176-179). -/
def tensorLoop {α : Type} (n1 n2 n3 : Nat) (f : Nat → Nat → Nat → α) : List α :=
  (List.range n3).flatMap fun k => (List.range n2).flatMap fun j => (List.range n1).map fun i => f i j k

/-- The values of all basis functions, and their derivatives if asked for: row `c` of the derivatives holds the derivatives of basis function `c`
with respect to the `ndim` coordinates.  Columns of empty directions (only possible if a later direction is not empty) are taken to be zero. -/
structure Basis (K : Type) where
  val : List K
  der : Option (List (List K))
  deriving DecidableEq

/-- `n1 = p1 > 0 ? p1 : 1` (Lagrange.C:117-119). -/
def dirSize (points : List K) : Nat := if points.length > 0 then points.length else 1

/-- `Lagrange::computeBasis` with point arrays (Lagrange.C:107-187).
`old` is the value array on entry: elements beyond the number of basis functions are left as they are. The derivative matrix is taken to have the right size. -/
def computeBasis (old : List K) (withDer : Bool) (points1 : List K) (x1 : K) (points2 : List K) (x2 : K) (points3 : List K) (x3 : K) : Option (Basis K) :=
  let n1 := dirSize points1
  let n2 := dirSize points2
  let n3 := dirSize points3
  match evalDir points1 x1 false (List.replicate n1 1), evalDir points2 x2 false (List.replicate n2 1), evalDir points3 x3 false (List.replicate n3 1) with
  | some v1, some v2, some v3 =>
    let val := tensorLoop n1 n2 n3 (fun i j k => v1.getD i 0 * v2.getD j 0 * v3.getD k 0) ++ old.drop (n1*n2*n3)
    if withDer then
      match evalDir points1 x1 true (List.replicate points1.length 0), evalDir points2 x2 true (List.replicate points2.length 0),
          evalDir points3 x3 true (List.replicate points3.length 0) with
      | some d1, some d2, some d3 =>
        let ndim := if points3.length > 0 then 3 else if points2.length > 0 then 2 else 1
        some ⟨val, some (tensorLoop n1 n2 n3 fun i j k =>
          [if points1.length > 0 then d1.getD i 0 * v2.getD j 0 * v3.getD k 0 else 0,
           if points2.length > 0 then v1.getD i 0 * d2.getD j 0 * v3.getD k 0 else 0,
           if points3.length > 0 then v1.getD i 0 * v2.getD j 0 * d3.getD k 0 else 0].take ndim)⟩
      | _, _, _ => none
    else some ⟨val, none⟩
  | _, _, _ => none

/-- `points1[i] = -1.0 + (i+i)/double(p1-1)` (Lagrange.C:86-88, 100-102).  For `p1 = 1` the code divides by zero; that case is not described by this definition. -/
def uniformPoints (p : Nat) : List K := (List.range p).map fun i : Nat => -1 + ((i + i : Nat) : K) / ((p - 1 : Nat) : K)

/-- `LagrangeInterpolator::evaluate` (LagrangeInterpolator.C:17-25). -/
def interpEvaluate (grid : List K) (x : K) (nr : Nat) : K := evalLoop grid nr x

/-- `LagrangeInterpolator::interpolate` (LagrangeInterpolator.C:28-36). -/
def interpolate (grid : List K) (x : K) (data : List K) : K :=
  (List.range data.length).foldl (fun r i => r + data.getD i 0 * interpEvaluate grid x i) 0

/-- `LagrangeInterpolator::get` (LagrangeInterpolator.C:39-47): the rows of the matrix. -/
def interpMatrix (grid xg : List K) : List (List K) := xg.map fun x => (List.range grid.length).map fun i => interpEvaluate grid x i

end IFEM.Lag
