import Verif.Model.Newmark
/-!
# Backward difference formulas

Models `TimeIntegration::BDF`, `TimeIntegration::BDFD2` (src/Utility/BDF.h, src/Utility/BDF.C) and `BDFMats` (src/ASM/BDFMats.h,
src/ASM/BDFMats.C).  `double` is an arbitrary linearly ordered field (exact arithmetic); the step counter does not overflow.
-/
namespace IFEM
variable {K : Type} [Field K] [LinearOrder K]

/-- Member data of `BDF` and `BDFD2` (BDF.h:69-72, 89).  `coefs2` is present in `BDFD2` only, which is the object with `degree = 2`. -/
structure Bdf (K : Type) where
  degree : Nat
  step   : Int
  coefs  : List K
  coefs1 : List K
  coefs2 : List K

namespace Bdf

/-- `BDF::setOrder` (BDF.C:25-40). -/
def setOrder (s : Bdf K) (order : Int) : Bdf K :=
  if s.degree > 1 then s
  else
    let c1 : List K := if order < 1 then [1] else [1, -1]
    { s with
      coefs1 := c1
      coefs := if order < 2 then c1 else [3/2, -2, 1/2] }

/-- Constructor `BDF::BDF(order)` (BDF.C:18-22). -/
def make (order : Int) : Bdf K :=
  let s : Bdf K := ⟨1, 0, [], [], []⟩
  if order ≥ 0 then s.setOrder order else s

/-- Constructor `BDFD2::BDFD2(order,step_)` (BDF.C:77-95).  `coefs.resize(n,1.0)` of the empty vector is `replicate n 1`; a negative
order (resize of size 1 for -1, undefined below) is truncated at zero elements. -/
def makeD2 (order step : Int) : Bdf K :=
  let c1 : List K := if order < 1 then [1] else [2, -2]
  let c2 : List K := if order > 1 then [5/2, -8, 11/2] else []
  let n : Nat := if order ≤ 2 then (order + 2).toNat else 4
  let c : List K := List.replicate n 1
  ⟨2, step, if order = 1 then c.set 1 (-2) else if order ≥ 2 then [2, -5, 4, -1] else c, c1, c2⟩

/-- `BDF::getActualOrder` (BDF.h:44). -/
def getActualOrder (s : Bdf K) : Int := s.coefs.length - s.degree

/-- `BDF::getOrder` (BDF.C:43-46). -/
def getOrder (s : Bdf K) : Int :=
  if s.step < s.degree + 1 then s.coefs1.length - 1 else s.coefs.length - s.degree

/-- `BDF::advanceStep` (BDF.C:49-65): the return value and the new object.  The step counter is only incremented if the
problem is not stationary. -/
def advanceStep (s : Bdf K) (dt dtn : K) : Bool × Bdf K :=
  if s.coefs1.length < 2 then (false, s)
  else
    let s := { s with step := s.step + 1 }
    if s.step > 2 ∧ s.degree = 1 ∧ s.coefs.length = 3 ∧ dt > 0 ∧ dtn > 0 then
      let tau := dt / dtn
      let taup1 := tau + 1
      (true, { s with coefs := [(1 + 2*tau) / taup1, -taup1, tau*tau / taup1] })
    else (true, s)

/-- `BDF::getCoefs` (BDF.C:68-71) for `degree = 1`, `BDFD2::getCoefs` (BDF.C:98-106) for `degree = 2`. -/
def getCoefs (s : Bdf K) : List K :=
  if s.degree = 1 then if s.step < 2 then s.coefs1 else s.coefs
  else if s.step < 2 then s.coefs1
  else if s.step = 2 ∧ s.getActualOrder ≥ 2 then s.coefs2
  else s.coefs

/-- `BDF::extrapolate` (BDF.h:58-66), `none` if a value is missing. -/
def extrapolate (s : Bdf K) (values : List K) : Option K :=
  match values[0]? with
  | none => none
  | some v0 =>
    if s.step > 1 ∧ s.getActualOrder = 2 then (values[1]?).map fun v1 => 2 * v0 - v1
    else some v0

end Bdf

variable {ι : Type} [Fintype ι]

/-- The factor `dtcoeff` (BDFMats.C:20, 42). -/
def bdfDt (s : Bdf K) (h : K) : K := if s.degree = 2 then h * h else h

open Matrix in
/-- `BDFMats::getNewtonMatrix` (BDFMats.C:17-34): `A[1]` mass, `A[2]` stiffness matrix; `none` if there is no coefficient. -/
def bdfNewton (s : Bdf K) (h : K) (M Kt : Matrix ι ι K) : Option (Matrix ι ι K) :=
  (s.getCoefs[0]?).map fun c => (c / bdfDt s h) • M + Kt

open Matrix in
/-- The loop of `BDFMats::getRHSVector` over the coefficients (BDFMats.C:44-46); `none` if `vec[i]` does not exist. -/
def bdfRHSLoop (s : Bdf K) (h : K) (M : Matrix ι ι K) (vec : List (ι → K)) : Nat → List K → (ι → K) → Option (ι → K)
  | _, [], db => some db
  | i, c :: cs, db =>
    match vec[i]? with
    | none => none
    | some v => bdfRHSLoop s h M vec (i+1) cs (db + (-c / bdfDt s h) • (M *ᵥ v))

/-- `BDFMats::getRHSVector` (BDFMats.C:37-54), with non-empty `A`. -/
def bdfRHS (s : Bdf K) (h : K) (M : Matrix ι ι K) (vec : List (ι → K)) (b : ι → K) : Option (ι → K) :=
  if vec.length > 3 then bdfRHSLoop s h M vec 0 s.getCoefs b else some b

end IFEM
