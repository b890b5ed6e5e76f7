import Mathlib.Algebra.Order.Field.Basic
import Mathlib.Algebra.Order.Ring.Abs

/-!
# Chebyshev functions and the one-dimensional Lagrange interpolator

Models `src/Utility/Chebyshev.C`, `src/Utility/Chebyshev.h` and
`src/Utility/LagrangeInterpolator.C`, `.h`.

Simplifications: the floating point numbers are the elements of an ordered field, in which division
by zero gives zero (the theorems exclude it); the text file is a list of numbers; the numbers of
coefficients are natural numbers.
-/

namespace IFEM.Cheby

variable {K : Type} [Field K]

/-- Chebyshev.C:22-30, the recursion on a non-negative `polnum`. -/
def pol1 : Nat → K → K
  | 0, _ => 1
  | 1, xi => xi
  | n + 2, xi => 2*xi*pol1 (n+1) xi - pol1 n xi

/-- Chebyshev.C:33-41, the recursion on a non-negative `polnum`. -/
def pol2 : Nat → K → K
  | 0, _ => 1
  | 1, xi => 2*xi
  | n + 2, xi => 2*xi*pol2 (n+1) xi - pol2 n xi

/-- Chebyshev.C:22-30 `Chebyshev::evalPol1`: a negative number is treated like zero. -/
def evalPol1 (polnum : Int) (xi : K) : K := pol1 polnum.toNat xi

/-- Chebyshev.C:33-41 `Chebyshev::evalPol2`. -/
def evalPol2 (polnum : Int) (xi : K) : K := pol2 polnum.toNat xi

/-- Chebyshev.C:44-50 `Chebyshev::evalDer1`. -/
def evalDer1 (polnum : Int) (xi : K) : K :=
  if polnum ≤ 0 then 0 else polnum * evalPol2 (polnum - 1) xi

/-- Chebyshev.C:53-56 `Chebyshev::evalDer2`. -/
def evalDer2 (polnum : Int) (xi : K) : K :=
  ((polnum + 1) * evalPol1 (polnum + 1) xi - xi * evalPol2 polnum xi) / (xi*xi - 1)

/-- Chebyshev.C:59-70 `Chebyshev::eval2Der1`. -/
def eval2Der1 [LinearOrder K] (polnum : Int) (xi : K) : K :=
  if polnum < 2 then 0
  else if |xi - 1| < 1/1000000 then ((polnum : K)^4 - (polnum : K)^2)/3
  else if |1 + xi| < 1/1000000 then (-1)^polnum.toNat * ((polnum : K)^4 - (polnum : K)^2)/3
  else polnum * ((polnum + 1) * evalPol1 polnum xi - evalPol2 polnum xi) / (xi*xi - 1)

/-- Chebyshev.h: class `ChebyshevFunc` (the members `coefs`, `n`, `domain`). -/
structure Func (K : Type) where
  /-- Number of coefficients in each direction -/
  n : Fin 3 → Nat
  /-- Lower end of the physical domain, `domain[i][0]` -/
  lo : Fin 3 → K
  /-- Upper end of the physical domain, `domain[i][1]` -/
  hi : Fin 3 → K
  /-- The coefficients -/
  coefs : List K

/-- Chebyshev.C:88-98 `ChebyshevFunc::read`: three lines with the number of coefficients and the
domain (zero coefficients becomes one), and then the coefficients.  Numbers missing from the stream
leave the zeros of `resize`; superfluous numbers are not read. -/
def read (n : Fin 3 → Nat) (lo hi : Fin 3 → K) (nums : List K) : Func K :=
  let n' := fun i => if n i = 0 then 1 else n i
  let m := n' 0 * n' 1 * n' 2
  { n := n', lo := lo, hi := hi, coefs := nums.take m ++ List.replicate (m - nums.length) 0 }

/-- Chebyshev.C:73-85: the constructor for a file that cannot be opened. -/
def noFile (lo hi : Fin 3 → K) : Func K := { n := fun _ => 0, lo := lo, hi := hi, coefs := [] }

/-- Chebyshev.h: `struct Func`, a function and a weight in one direction. -/
structure Dir (K : Type) where
  /-- Function to evaluate -/
  f : Int → K → K
  /-- Weight -/
  w : K

/-- Chebyshev.C:111-119: the natural coordinate in one direction. -/
def coord (F : Func K) (X : Fin 3 → K) (c : Fin 3) : K :=
  -1 + 2 * (X c - F.lo c) / (F.hi c - F.lo c)

/-- Chebyshev.C:111-119: the lambda `eval`. -/
def evalDir (F : Func K) (X : Fin 3 → K) (g : Fin 3 → Dir K) (c : Fin 3) : List K :=
  (List.range (F.n c)).map fun i : Nat => (g c).f (i : Int) (coord F X c) * (g c).w

/-- matrix.h:1525-1545 `outer_product` (`X·Yᵗ`): the element array, column by column. -/
def outer (X Y : List K) : List K := Y.flatMap fun y => X.map fun x => x * y

/-- `std::inner_product` over the first range, starting from zero. -/
def inner (a b : List K) : K := (a.zip b).foldl (fun s p => s + p.1 * p.2) 0

/-- Chebyshev.C:108-135 `ChebyshevFunc::evaluateTP`. -/
def evaluateTP (F : Func K) (X : Fin 3 → K) (g : Fin 3 → Dir K) : K :=
  if F.n 1 = 1 ∧ F.n 2 = 1 then inner F.coefs (evalDir F X g 0)
  else if F.n 2 = 1 then inner F.coefs (outer (evalDir F X g 0) (evalDir F X g 1))
  else inner F.coefs (outer (outer (evalDir F X g 0) (evalDir F X g 1)) (evalDir F X g 2))

/-- Chebyshev.C:103: the function itself in one direction. -/
def dirVal : Dir K := { f := evalPol1, w := 1 }

/-- Chebyshev.C:101-105 `ChebyshevFunc::evaluate`. -/
def evaluate (F : Func K) (X : Fin 3 → K) : K := evaluateTP F X fun _ => dirVal

/-- Chebyshev.C:143: the first derivative in one direction (`c` counted from zero). -/
def dirDer (F : Func K) (c : Fin 3) : Dir K := { f := evalDer1, w := 2 / (F.hi c - F.lo c) }

/-- Chebyshev.C:138-149 `ChebyshevFunc::deriv` (the direction counted from zero). -/
def deriv (F : Func K) (X : Fin 3 → K) (c : Fin 3) : K :=
  if F.n c = 1 then 0
  else evaluateTP F X fun d => if c = d then dirDer F c else dirVal

/-- Chebyshev.C:160: the second derivative in one direction. -/
def dirDer2 [LinearOrder K] (F : Func K) (c : Fin 3) : Dir K :=
  { f := eval2Der1, w := 4 / (F.hi c - F.lo c)^2 }

/-- Chebyshev.C:152-172 `ChebyshevFunc::dderiv` (the directions counted from zero). -/
def dderiv [LinearOrder K] (F : Func K) (X : Fin 3 → K) (c1 c2 : Fin 3) : K :=
  if F.n c1 = 1 ∨ F.n c2 = 1 then 0
  else if c1 = c2 then evaluateTP F X fun d => if c1 = d then dirDer2 F c1 else dirVal
  else evaluateTP F X fun d =>
    if c1 = d then dirDer F c1 else if c2 = d then dirDer F c2 else dirVal

/-- Chebyshev.C:175-182: class `ChebyshevVecFunc`; at most three functions, and the number of
components. -/
structure VecFun (K : Type) where
  /-- The component functions -/
  f : List (Func K)
  /-- Number of components -/
  ncmp : Nat

/-- Chebyshev.C:175-182, the constructor: `none` without any input (`f.front()` is null). -/
def mkVec (fs : List (Func K)) : Option (VecFun K) :=
  match fs with
  | [] => none
  | f0 :: _ => some { f := fs.take 3, ncmp := if f0.n 2 = 1 then 2 else fs.length }

/-- Chebyshev.C:185-188 `ChebyshevVecFunc::evaluate`. -/
def vecEvaluate (V : VecFun K) (X : Fin 3 → K) : List K :=
  (List.range 3).map fun c => match V.f[c]? with
    | some g => evaluate g X
    | none => 0

/-- A direction, from its number counted from zero. -/
def dirOf (d : Nat) : Option (Fin 3) := if h : d < 3 then some ⟨d, h⟩ else none

/-- Chebyshev.C:191-200 and 242-251: one entry of the gradient; `none` for a null pointer or an
index outside the arrays. -/
def gradEntry (f : List (Func K)) (X : Fin 3 → K) (d c : Nat) : Option K :=
  match f[c]?, dirOf d with
  | some g, some d => some (deriv g X d)
  | _, _ => none

/-- Chebyshev.C:203-213 and 254-264: one entry of the Hessian. -/
def hessEntry [LinearOrder K] (f : List (Func K)) (X : Fin 3 → K) (d2 d1 c : Nat) : Option K :=
  match f[c]?, dirOf d1, dirOf d2 with
  | some g, some d1, some d2 => some (dderiv g X d1 d2)
  | _, _, _ => none

/-- Chebyshev.C:191-200, 242-251: the double loop over directions and components. -/
def gradLoop (f : List (Func K)) (X : Fin 3 → K) (nsd ncmp : Nat) : Option (List K) :=
  (((List.range nsd).flatMap fun d => (List.range ncmp).map fun c => gradEntry f X d c)).mapM id

/-- Chebyshev.C:203-213, 254-264: the triple loop. -/
def hessLoop [LinearOrder K] (f : List (Func K)) (X : Fin 3 → K) (nsd ncmp : Nat) :
    Option (List K) :=
  ((List.range nsd).flatMap fun d2 => (List.range nsd).flatMap fun d1 =>
    (List.range ncmp).map fun c => hessEntry f X d2 d1 c).mapM id

/-- Chebyshev.C:191-200 `ChebyshevVecFunc::evalGradient`. -/
def vecGradient (V : VecFun K) (X : Fin 3 → K) : Option (List K) := gradLoop V.f X V.ncmp V.ncmp

/-- Chebyshev.C:203-213 `ChebyshevVecFunc::evalHessian`. -/
def vecHessian [LinearOrder K] (V : VecFun K) (X : Fin 3 → K) : Option (List K) :=
  hessLoop V.f X V.ncmp V.ncmp

/-- Chebyshev.C:216-224: class `ChebyshevTensorFunc`, the number of space dimensions being the
integer square root of the number of inputs; TensorFunction.h:31-34 `ncmp`. -/
def tensorDim (f : List (Func K)) : Nat := Nat.sqrt f.length

/-- Chebyshev.C:227-238 `ChebyshevTensorFunc::evaluate`: the component `(i,j)` (counted from zero)
of the tensor, the counter running over the columns. -/
def tensorEvaluate (f : List (Func K)) (X : Fin 3 → K) (i j : Nat) : Option K :=
  (f[i + tensorDim f * j]?).map fun g => evaluate g X

/-- Chebyshev.C:241-251 `ChebyshevTensorFunc::evalGradient`. -/
def tensorGradient (f : List (Func K)) (X : Fin 3 → K) : Option (List K) :=
  gradLoop f X (tensorDim f) (tensorDim f * tensorDim f)

/-- Chebyshev.C:254-264 `ChebyshevTensorFunc::evalHessian`. -/
def tensorHessian [LinearOrder K] (f : List (Func K)) (X : Fin 3 → K) : Option (List K) :=
  hessLoop f X (tensorDim f) (tensorDim f * tensorDim f)

/-- LagrangeInterpolator.C:17-25 `evaluate`: the body of the loop. -/
def lagStep (grid : List K) (x : K) (nr : Nat) (res : K) (j : Nat) : K :=
  if j ≠ nr then res * ((x - grid.getD j 0) / (grid.getD nr 0 - grid.getD j 0)) else res

/-- LagrangeInterpolator.C:17-25 `LagrangeInterpolator::evaluate`. -/
def lagEvaluate (grid : List K) (x : K) (nr : Nat) : K :=
  (List.range grid.length).foldl (lagStep grid x nr) 1

/-- LagrangeInterpolator.C:28-36 `LagrangeInterpolator::interpolate`. -/
def lagInterpolate (grid : List K) (x : K) (data : List K) : K :=
  (List.range data.length).foldl (fun res i => res + data.getD i 0 * lagEvaluate grid x i) 0

/-- LagrangeInterpolator.C:39-47 `LagrangeInterpolator::get`: the rows of the matrix. -/
def lagGet (grid xg : List K) : List (List K) :=
  xg.map fun x => (List.range grid.length).map fun i => lagEvaluate grid x i

end IFEM.Cheby
