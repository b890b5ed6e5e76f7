import Mathlib.Algebra.Order.Field.Basic
import Mathlib.Algebra.Order.Ring.Abs


/-!
# Legendre polynomials and integration rules of spectral elements (`src/Utility/Legendre.C`)

Numbers are elements of an ordered field (exact arithmetic).  The eigenvalue solver of LAPACK (`DenseMatrix::solveEigNon`, DenseMatrix.C:676-706) is a parameter.
-/
namespace IFEM.Legendre

variable {K : Type} [Field K] [LinearOrder K]

/-- One turn of the loop over polynomial degrees.  Legendre.C:123-124, 156-157. -/
def evalStep (x : K) (val : List K) (i : Nat) : Option (List K) := do
  let a ← val[i-1]?
  let b ← val[i-2]?
  if i < val.length then
    some (val.set i (((2*i-1 : Nat) : K)/(i : K)*x*a - ((i-1 : Nat) : K)/(i : K)*b))
  else
    none

/-- The values of the polynomials of degree `0, ..., n` (`n ≥ 1`).  Legendre.C:120-124 and (identical) 153-157. -/
def evalAll (n : Nat) (x : K) : Option (List K) :=
  (List.range' 2 (n-1)).foldlM (evalStep x) (((List.replicate (n+1) 0).set 0 1).set 1 x)

/-- `Legendre::eval`.  Legendre.C:104-128.  `none`: returns false. -/
def eval (n : Int) (x : K) : Option K :=
  if n < 1 then none
  else if x < -1 ∨ x > 1 then none
  else do
    let val ← evalAll n.toNat x
    val.getLast?

/-- `Legendre::derEval`.  Legendre.C:131-161.  `none`: returns false.  Division by zero does not occur, as `|x| < 1` in the last branch. -/
def derEval (n : Int) (x : K) : Option K :=
  if n < 1 then none
  else if x < -1 ∨ x > 1 then none
  else if x = 1 ∨ x = -1 then
    some (x^(n-1).toNat*(n.toNat : K)*((n.toNat + 1 : Nat) : K)/2)
  else do
    let val ← evalAll n.toNat x
    let a ← val[n.toNat-1]?
    let b ← val[n.toNat]?
    some ((n.toNat : K)/(1 - x*x)*a - (n.toNat : K)*x/(1 - x*x)*b)

/-- Assignment to the element in row `i` and column `j` (counted from one) of a matrix, given by its elements. -/
def setE (A : Nat → Nat → K) (i j : Nat) (v : K) : Nat → Nat → K := fun a b => if a = i ∧ b = j then v else A a b

/-- The body of the loop over inner rows.  Legendre.C:30-31. -/
def glRow (A : Nat → Nat → K) (i : Nat) : Nat → Nat → K :=
  setE (setE A i (i-1) (((i-1 : Nat) : K)/((2*i-1 : Nat) : K))) i (i+1) ((i : K)/((2*i-1 : Nat) : K))

/-- The matrix handed to the eigenvalue solver (elements counted from one).  Legendre.C:23-34. -/
def glMatrix (n : Nat) : Nat → Nat → K :=
  let A := setE (fun _ _ => 0) 1 2 1
  if n > 2 then
    setE ((List.range' 2 (n-2)).foldl glRow A) n (n-1) (((n-1 : Nat) : K)/((2*n-1 : Nat) : K))
  else
    A

/-- `Legendre::GL`.  Legendre.C:18-51.  Returns the weights and points; `none`: returns false.
`eig n A` is the result of the eigenvalue solver for the leading `n` rows and columns of `A`, the real and the imaginary parts.
Division by zero gives zero here, and infinity in C++ (this happens with two points). -/
def gaussGL (eig : Nat → (Nat → Nat → K) → Option (List K × List K)) (n : Int) : Option (List K × List K) :=
  if n < 2 then none
  else do
    let (evalpoints, _) ← eig n.toNat (glMatrix n.toNat)
    let points := evalpoints.mergeSort (fun a b => decide (a ≤ b))
    let weights ← points.mapM fun x => do
      let L ← derEval n x
      some (2/((1 - x*x)*L*L))
    some (weights, points)

/-- One turn of the iteration for an inner point.  Legendre.C:85-88.  A zero value `L` gives an infinite `points[i]` in C++, which `eval` refuses in the next turn. -/
def gllStep (n : Nat) (ptemp : K) : Option K := do
  let L ← eval ((n : Int)-1) ptemp
  let Ld ← derEval ((n : Int)-1) ptemp
  if L = 0 then none else some (ptemp + ((1 - ptemp*ptemp)*Ld)/(((n-1 : Nat) : K)*(n : K)*L))

/-- The iteration for an inner point (`while` loop), with at most `fuel` turns.  Legendre.C:82-90.  `none`: returns false, or not finished. -/
def gllPoint (tol : K) (n : Nat) : (fuel : Nat) → K → Option K
  | 0, _ => none
  | fuel+1, p => do
    let p' ← gllStep n p
    if |p' - p| > tol then gllPoint tol n fuel p' else some p'

/-- The weight in a point.  Legendre.C:64-68, 93-97. -/
def gllWeight (n : Nat) (x : K) : Option K := do
  let L ← eval ((n : Int)-1) x
  some (2/(((n-1 : Nat) : K)*(n : K)*L*L))

/-- `Legendre::GLL`.  Legendre.C:55-100.  Returns the weights and points.  `none`: returns false, addresses the empty array (`n = 0`), or an iteration takes more than
`fuel` turns.  Legendre.C:77 fixes `tol` to `1e-8`. -/
def gaussGLL (eig : Nat → (Nat → Nat → K) → Option (List K × List K)) (tol : K) (fuel : Nat) (n : Nat) : Option (List K × List K) :=
  if n = 0 then none
  else
    let points := ((List.replicate n 0).set 0 (-1)).set (n-1) 1
    if n < 3 then do
      let weights ← points.mapM (gllWeight n)
      some (weights, points)
    else do
      let (_, xg) ← gaussGL eig ((n : Int)-1)
      let inner ← (List.range' 1 (n-2)).mapM fun i => do
        let a ← xg[i-1]?
        let b ← xg[i]?
        gllPoint tol n fuel ((a + b)/2)
      let points := [-1] ++ inner ++ [1]
      let weights ← points.mapM (gllWeight n)
      some (weights, points)

/-- An element off the diagonal, or a preliminary zero on it.  Legendre.C:173-180. -/
def dEntry (n : Nat) (p : List K) (i j : Nat) : Option K :=
  if i = j then some 0
  else do
    let pi ← p[i-1]?
    let pj ← p[j-1]?
    let l1 ← eval ((n : Int)-1) pi
    let l2 ← eval ((n : Int)-1) pj
    some (l1/(l2*(pi - pj)))

/-- `Legendre::basisDerivatives`, the part after the points `p` have been computed.  Legendre.C:170-185.  Rows of the result. -/
def derivMatrix (n : Nat) (p : List K) : Option (Nat → Nat → K) := do
  let rows ← (List.range' 1 n).mapM fun i => (List.range' 1 n).mapM fun j => dEntry n p i j
  let D : Nat → Nat → K := fun i j => (rows.getD (i-1) []).getD (j-1) 0
  let D := setE D 1 1 (-(n : K)*((n-1 : Nat) : K)/4)
  some (setE D n n (-D 1 1))

/-- `Legendre::basisDerivatives`.  Legendre.C:164-187. -/
def basisDerivatives (eig : Nat → (Nat → Nat → K) → Option (List K × List K)) (tol : K) (fuel : Nat) (n : Nat) : Option (Nat → Nat → K) := do
  let (_, p) ← gaussGLL eig tol fuel n
  derivMatrix n p

end IFEM.Legendre
