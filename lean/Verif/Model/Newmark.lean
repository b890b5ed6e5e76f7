import Mathlib.Data.Matrix.Mul
import Mathlib.Algebra.Order.Field.Basic
/-!
# Newmark-type time integration

Models the solution updates of `NewmarkSIM`, `GenAlphaSIM`, `NewmarkNLSIM`, `HHTSIM` (src/SIM) and the element matrices
`NewmarkMats`, `HHTMats`, `BDFMats` (src/ASM).

Simplifications: `double` is a linearly ordered field (exact arithmetic); all vectors of one object have the same length and are
functions `ι → K`; finite rotations (`rotUpd`), `updateConfiguration` and printing are not modelled.  An element matrix that is absent
(`A.size()` too small) or empty is `none`.
-/
namespace IFEM
open Matrix

variable {K : Type} [Field K] [LinearOrder K] {ι : Type} [Fintype ι]

/-- Displacement, velocity and acceleration: `solution[0]`, `solution[1]`, `solution[2]` (NewmarkSIM.C:303-305). -/
structure NmSol (K ι : Type) where
  u : ι → K
  v : ι → K
  a : ι → K

/-- `NewmarkSIM::predictStep` (NewmarkSIM.C:309-344). -/
def nmPredict (predictor : Char) (beta gamma dt : K) (s : NmSol K ι) : Option (NmSol K ι) :=
  if predictor = 'a' then
    let u := s.u + dt • s.v
    let u := u + (dt * dt * (1/2 - beta)) • s.a
    let v := s.v + (dt * (1 - gamma)) • s.a
    some ⟨u, v, 0⟩
  else if predictor = 'v' then
    let u := s.u + dt • s.v
    let u := u + (dt * dt * (1/2 - beta / gamma)) • s.a
    some ⟨u, s.v, (1 - 1 / gamma) • s.a⟩
  else if predictor = 'd' then
    let oldSol := s.v
    let v := (1 - gamma / beta) • s.v
    let v := v + (dt * (1 - 1/2 * gamma / beta)) • s.a
    let a := (1 - 1/2 / beta) • s.a
    let a := a + (-1 / (beta * dt)) • oldSol
    some ⟨s.u, v, a⟩
  else none

/-- `NewmarkSIM::correctStep` (NewmarkSIM.C:363-377). -/
def nmCorrect (solveDisp : Bool) (beta gamma dt : K) (linsol : ι → K) (s : NmSol K ι) : NmSol K ι :=
  ⟨s.u + (if solveDisp then 1 else beta * dt * dt) • linsol,
   s.v + (if solveDisp then gamma / (beta * dt) else gamma * dt) • linsol,
   s.a + (if solveDisp then 1 / (beta * dt * dt) else 1) • linsol⟩

/-- `utl::vector::relax` (matrix.h:192-200). -/
def relax (alfa : K) (X Z : ι → K) : ι → K := if alfa ≠ 1 then alfa • Z + (1 - alfa) • X else Z

/-- Member data of `GenAlphaSIM`: the solution, the previous solution and the current solution at the end of the step
(GenAlphaSIM.h). -/
structure GaSol (K ι : Type) where
  sol  : NmSol K ι
  prev : NmSol K ι
  temp : NmSol K ι

/-- `GenAlphaSIM::advanceStep` (GenAlphaSIM.C:82-89). -/
def gaAdvance (s : GaSol K ι) : GaSol K ι := { s with prev := s.sol }

/-- `GenAlphaSIM::predictStep` (GenAlphaSIM.C:92-108). -/
def gaPredict (alpha_m alpha_f : K) (predictor : Char) (beta gamma dt : K) (s : GaSol K ι) : Option (GaSol K ι) :=
  match nmPredict predictor beta gamma dt s.sol with
  | none => none
  | some p => some { s with
      temp := p
      sol := ⟨relax alpha_f s.prev.u p.u, relax alpha_f s.prev.v p.v, relax alpha_m s.prev.a p.a⟩ }

/-- `GenAlphaSIM::correctStep` (GenAlphaSIM.C:111-159). -/
def gaCorrect (alpha_m alpha_f : K) (solveDisp : Bool) (beta gamma dt : K) (linsol : ι → K) (converged : Bool)
    (s : GaSol K ι) : GaSol K ι :=
  let bdt := beta * dt
  let bdt2 := bdt * dt
  let temp : NmSol K ι :=
    ⟨s.temp.u + (if solveDisp then 1 else bdt2) • linsol,
     s.temp.v + (if solveDisp then gamma / bdt else gamma * dt) • linsol,
     s.temp.a + (if solveDisp then 1 / bdt2 else 1) • linsol⟩
  if converged then { s with temp := temp, sol := temp }
  else { s with
    temp := temp
    sol := ⟨relax alpha_f s.prev.u temp.u, relax alpha_f s.prev.v temp.v, relax alpha_m s.prev.a temp.a⟩ }

/-- Member data of `NewmarkNLSIM` (NewmarkNLSIM.h). -/
structure NlSol (K ι : Type) where
  sol     : NmSol K ι
  incDis  : ι → K
  predVel : ι → K
  predAcc : ι → K

/-- `NewmarkNLSIM::predictStep` (NewmarkNLSIM.C:142-175). -/
def nlPredict (beta gamma dt : K) (s : NlSol K ι) : NlSol K ι :=
  let predVel := (gamma / beta - 1) • s.sol.v
  let predVel := predVel + (dt * (gamma / beta - 2) * (1/2)) • s.sol.a
  let predAcc := (1/2 / beta - 1) • s.sol.a
  let predAcc := predAcc + (1 / (beta * dt)) • s.sol.v
  ⟨⟨s.sol.u, predVel, predAcc⟩, 0, (-1 : K) • predVel, (-1 : K) • predAcc⟩

/-- `NewmarkNLSIM::correctStep` (NewmarkNLSIM.C:188-195). -/
def nlCorrect (beta gamma dt : K) (linsol : ι → K) (s : NlSol K ι) : NlSol K ι :=
  let incDis := s.incDis + (1 : K) • linsol
  { s with
    incDis := incDis
    sol := ⟨s.sol.u + (1 : K) • linsol, s.predVel + (gamma / (beta * dt)) • incDis,
            s.predAcc + (1 / (beta * dt * dt)) • incDis⟩ }

/-- Member data of `HHTSIM`: `pV`, `pA` are the last two solution vectors (HHTSIM.C:101-103). -/
structure HhtSol (K ι : Type) where
  sol    : NmSol K ι
  pV     : ι → K
  pA     : ι → K
  incDis : ι → K

/-- `HHTSIM::predictStep` (HHTSIM.C:179-212). -/
def hhtPredict (beta gamma dt : K) (s : HhtSol K ι) : HhtSol K ι :=
  let pV := (gamma / beta) • s.sol.v
  let pV := pV + (dt * (gamma / beta - 2) * (1/2)) • s.sol.a
  let pA := (1/2 / beta) • s.sol.a
  let pA := pA + (1 / (beta * dt)) • s.sol.v
  ⟨s.sol, pV, pA, 0⟩

/-- `HHTSIM::correctStep` (HHTSIM.C:219-251). -/
def hhtCorrect (beta gamma dt : K) (linsol : ι → K) (iter : Nat) (converged : Bool) (s : HhtSol K ι) : HhtSol K ι :=
  let w : (ι → K) × (ι → K) × (ι → K) × (ι → K) :=
    if iter = 1 ∧ converged = false then
      let v := s.sol.v + (-1 : K) • s.pV
      let a := s.sol.a + (-1 : K) • s.pA
      (v, a, v, a)
    else (s.pV, s.pA, s.pV, s.pA)
  let incDis := s.incDis + (1 : K) • linsol
  ⟨⟨s.sol.u + (1 : K) • linsol, w.1 + (gamma / (beta * dt)) • incDis, w.2.1 + (1 / (beta * dt * dt)) • incDis⟩,
   w.2.2.1, w.2.2.2, incDis⟩

/-! ## Element matrices -/

/-- Parameters of `NewmarkMats` (NewmarkMats.h:57-68). -/
structure NmPar (K : Type) where
  alpha1  : K
  alpha2  : K
  beta    : K
  gamma   : K
  alpha_m : K
  alpha_f : K
  slvDisp : Bool

/-- Constructor of `NewmarkMats` (NewmarkMats.C:17-40). -/
def NmPar.make (a1 a2 b c : K) (generalizedAlpha : Bool) : NmPar K :=
  if generalizedAlpha then
    let alpha_m := |b|
    let alpha_f := c
    let alpha := alpha_f - alpha_m
    { alpha1 := a1, alpha2 := a2, alpha_m := alpha_m, alpha_f := alpha_f,
      beta := 1/4 * (1 - alpha) * (1 - alpha), gamma := 1/2 - alpha, slvDisp := b < 0 }
  else
    { alpha1 := a1, alpha2 := a2, alpha_m := 1, alpha_f := 1, beta := |b|, gamma := c, slvDisp := b < 0 }

/-- `if (A.empty()) N.fill(0.0); else { N = A; N.multiply(w); }` (NewmarkMats.C:50-56, HHTMats.C:40-46). -/
def scaleMat (w : K) : Option (Matrix ι ι K) → Matrix ι ι K
  | none => 0
  | some M => w • M

/-- `N.add(A,w)` if `A` is present. -/
def addMat (N : Matrix ι ι K) (w : K) : Option (Matrix ι ι K) → Matrix ι ι K
  | some A => N + w • A
  | none => N

/-- `r.add(A*x,w)` if `A` is present (NewmarkMats.C:120-131). -/
def addMV (r : ι → K) (A : Option (Matrix ι ι K)) (x : ι → K) (w : K) : ι → K :=
  match A with
  | some A => r + w • (A *ᵥ x)
  | none => r

/-- `if (b.size() > i) r.add(b[i],w); else if (haveDamp) r.add(C*v,w)` (NewmarkMats.C:123-126, HHTMats.C:174-177). -/
def addDamp (r : ι → K) (fd : Option (ι → K)) (C : Option (Matrix ι ι K)) (v : ι → K) (w : K) : ι → K :=
  match fd with
  | some f => r + w • f
  | none => addMV r C v w

/-- `if (alpha > 0.0 && haveA) r.add(A*v,w)` (NewmarkMats.C:128-132, HHTMats.C:169-172). -/
def addRayleigh (r : ι → K) (alpha : K) (A : Option (Matrix ι ι K)) (v : ι → K) (w : K) : ι → K :=
  if alpha > 0 then addMV r A v w else r

/-- `NewmarkMats::getNewtonMatrix` (NewmarkMats.C:43-62); `M`, `Kt`, `C` are `A[1]`, `A[2]`, `A[3]`. -/
def nmNewton (p : NmPar K) (h : K) (M Kt C : Option (Matrix ι ι K)) : Matrix ι ι K :=
  let N := scaleMat (p.alpha_m + p.alpha_f * p.alpha1 * p.gamma * h) M
  let N := addMat N (p.alpha_f * (p.alpha2 * p.gamma + p.beta * h) * h) Kt
  let N := addMat N (p.alpha_f * p.gamma * h) C
  if p.slvDisp then (1 / (p.beta * h * h)) • N else N

/-- `NewmarkMats::getRHSVector` (NewmarkMats.C:82-138); `dF` is `b[0]` on entry, `fd` is `b[1]` (if present). -/
def nmRHS (p : NmPar K) (M Kt C : Option (Matrix ι ι K)) (dF : ι → K) (fd : Option (ι → K)) (vel acc : ι → K) : ι → K :=
  let dF := addMV dF M acc (-1)
  let dF := addDamp dF fd C vel (-1)
  let dF := addRayleigh dF p.alpha1 M vel (-p.alpha1)
  addRayleigh dF p.alpha2 Kt vel (-p.alpha2)

/-- Constructor of `HHTMats` (HHTMats.C:17-22). -/
def NmPar.hht (alpha a b : K) : NmPar K :=
  { NmPar.make a b 0 0 false with beta := 1/4 * (1 - alpha) * (1 - alpha), gamma := 1/2 - alpha }

/-- `HHTMats::getNewtonMatrix` (HHTMats.C:25-53); `M`, `Km`, `Kg`, `C` are `A[1]`, ..., `A[4]`. -/
def hhtNewton (p : NmPar K) (h : K) (M Km Kg C : Option (Matrix ι ι K)) : Matrix ι ι K :=
  let alphaPlus1 := 3/2 - p.gamma
  let gammaObh := p.gamma / (p.beta * h)
  let N := scaleMat (1 / (p.beta * h * h) + alphaPlus1 * p.alpha1 * gammaObh) M
  let N := addMat N (alphaPlus1 + alphaPlus1 * p.alpha2 * gammaObh) Km
  let N := addMat N alphaPlus1 Kg
  addMat N (alphaPlus1 * gammaObh) C

/-- Damping terms at the end of `HHTMats::getRHSVector` (HHTMats.C:167-177); `fd` is `b[3]`, `v` is `vec[iv]`. -/
def hhtDamp (p : NmPar K) (M Km C : Option (Matrix ι ι K)) (fd : Option (ι → K)) (v : ι → K) (w : K) (RHS : ι → K) : ι → K :=
  let RHS := addRayleigh RHS p.alpha1 M v (w * p.alpha1)
  let RHS := addRayleigh RHS p.alpha2 Km v (w * p.alpha2)
  addDamp RHS fd C v w

/-- Inertia terms of `HHTMats::getRHSVector` (HHTMats.C:139-162) and the velocity to be used for the damping terms. -/
def hhtBase (alphaPlus1 : K) (oldHHT isPredictor : Bool) (M : Matrix ι ι K) (sint vel acc : ι → K)
    (pred : Option ((ι → K) × (ι → K))) : (ι → K) × (ι → K) :=
  if oldHHT then (alphaPlus1 • sint + (if isPredictor then (1 : K) else -1) • (M *ᵥ acc), vel)
  else match isPredictor, pred with
    | true, some (V, A) => (M *ᵥ (A - acc), V)
    | _, _ => (alphaPlus1 • sint + (-1 : K) • (M *ᵥ acc), vel)

/-- `HHTMats::getRHSVector` (HHTMats.C:77-182) with mass matrix `M`: `sint` is `b[0]` on entry, `fext` is `b[2]`, `fd` is `b[3]`;
`pred` the predicted velocity and acceleration (if present in `vec`). -/
def hhtRHS (p : NmPar K) (oldHHT isPredictor : Bool) (M : Matrix ι ι K) (Km C : Option (Matrix ι ι K))
    (sint : ι → K) (fext fd : Option (ι → K)) (vel acc : ι → K) (pred : Option ((ι → K) × (ι → K))) : ι → K :=
  let alphaPlus1 := 3/2 - p.gamma
  let base : (ι → K) × (ι → K) := hhtBase alphaPlus1 oldHHT isPredictor M sint vel acc pred
  let RHS := if oldHHT then (match fext with
      | some f => base.1 + alphaPlus1 • f
      | none => base.1) else base.1
  let w := if isPredictor then alphaPlus1 else -alphaPlus1
  hhtDamp p (some M) Km C fd base.2 w RHS

/-- Inertia force stored in `b[1]` by `HHTMats::getRHSVector` (HHTMats.C:95-112). -/
def hhtInertia (p : NmPar K) (M : Matrix ι ι K) (Km C : Option (Matrix ι ι K)) (sint : ι → K) (fext : Option (ι → K))
    (vel : ι → K) : ι → K :=
  let F := match fext with
    | some f => sint + f
    | none => sint
  let F := addRayleigh F p.alpha1 (some M) vel (-p.alpha1)
  let F := addRayleigh F p.alpha2 Km vel (-p.alpha2)
  addMV F C vel (-1)

/-- `HHTSIM::finalizeRHSvector` (HHTSIM.C:117-153): `finert` and `fextPrev` are the stored inertia force and external load of the
previous step, `rext` the external load of this step, `fia` the assembled second right-hand-side vector.  Returns the
right-hand side and the new `Finert`.  Zero vectors need not be distinguished from absent ones. -/
def hhtFinalize (gamma : K) (predicting : Bool) (rhs fia rext finert fextPrev : ι → K) : (ι → K) × (ι → K) :=
  let finert := if predicting then fia + fextPrev else finert
  let rhs := rhs + (if predicting then (1 : K) else gamma - 1/2) • finert
  let rhs := rhs + (3/2 - gamma) • rext
  let rhs := if predicting then rhs + (gamma - 3/2) • fextPrev else rhs
  (rhs, finert)

/-- `NewmarkNLSIM::finalizeRHSvector` (NewmarkNLSIM.C:112-117). -/
def nlFinalize (gamma : K) (rhs finert : ι → K) : ι → K := rhs + (gamma - 1/2) • finert

end IFEM
