import Mathlib.Analysis.SpecialFunctions.Trigonometric.Deriv
/-!
# Functions of time and space

Models `src/Utility/Function.h` and the closed-form function classes of
`src/Utility/Functions.h/.C`: the constant, linear, piece-wise linear, ramp, Dirac, step and
sine functions of time, and the constant, linear, quadratic, rotation, step and interpolated
functions of space, with their values, first and second derivatives and the two queries
`isZero` and `isConstant`.  The driver `ASMbase::updateDirichlet` (src/ASM/ASMbase.C:1227-1270)
is modelled for scalar functions: it picks the coefficient a prescribed degree of freedom gets.

Simplifications: the arithmetic is that of the real numbers; a spatial point is three
coordinates and an optional time (the code's `Vec3`, or `Vec4` when the time is there);
the expression, Chebyshev, field and space-Dirac functions are not modelled; reading the
text of a table is modelled from its rows of numbers.
-/
namespace IFEM.Fn
noncomputable section
open Classical

/-- `zTol`, the tolerance on function values.  Functions.C:33 -/
def zTol : ℝ := 1/10^12

/-- One round of `std::lower_bound` on the abscissas of a table: the search interval starts at
`first` and has `len` points.  Functions.C:226 (the halving of the C++ library). -/
def lbLoop (tab : List (ℝ × ℝ)) (x : ℝ) : ℕ → ℕ → ℕ → ℕ
  | 0, first, _ => first
  | fuel+1, first, len =>
    if len = 0 then first
    else if (tab.getD (first + len/2) (0,0)).1 < x then
      lbLoop tab x fuel (first + len/2 + 1) (len - len/2 - 1)
    else lbLoop tab x fuel first (len/2)

/-- `LinearFunc`: a scaling factor and the points of a piece-wise linear function.
Functions.h:50-88 -/
structure LinearFunc where
  /-- the table -/
  fvals : List (ℝ × ℝ)
  /-- the scaling factor -/
  scale : ℝ

/-- `LinearFunc(const std::vector<Real>& x, const std::vector<Real>& y)`.  Functions.C:211-217 -/
def LinearFunc.ofVectors (xs ys : List ℝ) : LinearFunc := ⟨xs.zip ys, 1⟩

/-- The abscissa and the value taken from one row of a table file.  With a column number below
two the first two columns are swapped; otherwise the columns are read up to the given one, and
a row that ends before it yields its last number.  A row of fewer than two numbers leaves the
two variables unset: the model is `none`.  Functions.C:180-185 -/
def rowPoint (c : ℤ) (row : List ℝ) : Option (ℝ × ℝ) :=
  match row with
  | x :: v :: rest =>
    if c < 2 then some (v, x)
    else some (x, (v :: rest).getD (min (c.toNat - 2) rest.length) 0)
  | _ => none

/-- Appending a point to the table being read: the result, and whether the reading goes on.
Functions.C:186-206 -/
def addPoint (tab : List (ℝ × ℝ)) (x v : ℝ) : List (ℝ × ℝ) × Bool :=
  match tab.getLast? with
  | none => (tab ++ [(x, v)], true)
  | some b =>
    if b.1 ≤ x then (tab ++ [(x, v)], true)
    else if b.1 - x < zTol*b.1 then
      (tab.dropLast ++ [((b.1 + x)/2, b.2), ((b.1 + x)/2, v)], true)
    else (tab, false)

/-- The loop over the rows of a table file.  Functions.C:175-207 -/
def readRows (c : ℤ) : List (List ℝ) → List (ℝ × ℝ) → Option (List (ℝ × ℝ))
  | [], tab => some tab
  | r :: rs, tab =>
    match rowPoint c r with
    | none => none
    | some p =>
      if (addPoint tab p.1 p.2).2 then readRows c rs (addPoint tab p.1 p.2).1
      else some tab

/-- `LinearFunc(const char* file, int c, Real s)` for a file with the given rows.
Functions.C:165-208 -/
def LinearFunc.ofRows (rows : List (List ℝ)) (c : ℤ) (s : ℝ) : Option LinearFunc :=
  (readRows c rows []).map (fun t => ⟨t, s⟩)

/-- `LinearFunc::locate`.  Functions.C:220-227 -/
def LinearFunc.locate (f : LinearFunc) (x : ℝ) : ℕ :=
  if f.fvals.length < 2 then 0
  else lbLoop f.fvals x f.fvals.length 0 f.fvals.length

/-- `LinearFunc::isZero`.  Functions.C:230-237 -/
def LinearFunc.isZero (f : LinearFunc) : Bool :=
  decide ((∀ p ∈ f.fvals, ¬ (p.2 > zTol ∨ p.2 < -zTol)) ∧ f.scale ≤ zTol ∧ f.scale ≥ -zTol)

/-- `LinearFunc::isConstant`.  Functions.h:75 -/
def LinearFunc.isConstant (f : LinearFunc) : Bool := f.fvals.length == 1

/-- The abscissa of table point `i`. -/
def LinearFunc.px (f : LinearFunc) (i : ℕ) : ℝ := (f.fvals.getD i (0,0)).1

/-- The value at table point `i`. -/
def LinearFunc.pf (f : LinearFunc) (i : ℕ) : ℝ := (f.fvals.getD i (0,0)).2

/-- `LinearFunc::deriv`.  Functions.C:240-255 -/
def LinearFunc.deriv (f : LinearFunc) (x : ℝ) : ℝ :=
  if f.fvals = [] then f.scale
  else if f.locate x = 0 ∨ f.locate x ≥ f.fvals.length then 0
  else f.scale*(f.pf (f.locate x) - f.pf (f.locate x - 1)) /
    (f.px (f.locate x) - f.px (f.locate x - 1))

/-- `LinearFunc::evaluate`.  Functions.C:258-275 -/
def LinearFunc.evaluate (f : LinearFunc) (x : ℝ) : ℝ :=
  if f.fvals = [] then f.scale*x
  else if f.locate x = 0 then f.scale*f.pf 0
  else if f.locate x ≥ f.fvals.length then f.scale*f.pf (f.fvals.length - 1)
  else f.scale*(f.pf (f.locate x - 1) + (f.pf (f.locate x) - f.pf (f.locate x - 1)) *
    (x - f.px (f.locate x - 1)) / (f.px (f.locate x) - f.px (f.locate x - 1)))

/-- `LinVecFunc`: a piece-wise linear vector function.  Functions.h:94-116 -/
structure LinVecFunc where
  /-- the table -/
  vvals : List (ℝ × (Fin 3 → ℝ))

/-- The search of `LinVecFunc::evaluate`, on the abscissas.  Functions.C:344-349 -/
def LinVecFunc.find (f : LinVecFunc) (x : ℝ) : ℕ :=
  if f.vvals.length > 1 then
    lbLoop (f.vvals.map (fun p => (p.1, 0))) x f.vvals.length 0 f.vvals.length
  else 0

/-- The abscissa of table point `i`. -/
def LinVecFunc.px (f : LinVecFunc) (i : ℕ) : ℝ := (f.vvals.getD i (0, fun _ => 0)).1

/-- The vector at table point `i`. -/
def LinVecFunc.pf (f : LinVecFunc) (i : ℕ) : Fin 3 → ℝ := (f.vvals.getD i (0, fun _ => 0)).2

/-- `LinVecFunc::evaluate`.  Functions.C:339-362 -/
def LinVecFunc.evaluate (f : LinVecFunc) (x : ℝ) : Fin 3 → ℝ := fun i =>
  if f.vvals = [] then 0
  else if f.find x = 0 then f.pf 0 i
  else if f.find x ≥ f.vvals.length then f.pf (f.vvals.length - 1) i
  else f.pf (f.find x - 1) i + (f.pf (f.find x) i - f.pf (f.find x - 1) i) *
    ((x - f.px (f.find x - 1)) / (f.px (f.find x) - f.px (f.find x - 1)))

/-- The modelled functions of one real argument.  Functions.h:29-214 -/
inductive ScalarFunc where
  /-- `ConstantFunc(v)` -/
  | const (v : ℝ)
  /-- `LinearFunc` -/
  | linear (f : LinearFunc)
  /-- `RampFunc(f,x)` -/
  | ramp (fval xmax : ℝ)
  /-- `DiracFunc(a,x)` -/
  | dirac (amp xmax : ℝ)
  /-- `StepFunc(a,x)` -/
  | step (amp xmax : ℝ)
  /-- `SineFunc(s,f,p)` -/
  | sine (scale freq phase : ℝ)

/-- `evaluate` of the functions of one argument.  Functions.h:41, Functions.C:258-275,365-392 -/
def ScalarFunc.evaluate : ScalarFunc → ℝ → ℝ
  | .const v, _ => v
  | .linear f, x => f.evaluate x
  | .ramp fval xmax, x => if x < xmax then fval*x/xmax else fval
  | .dirac amp xmax, x => if |x - xmax| < 1/10^4 then amp else 0
  | .step amp xmax, x => if x ≥ xmax then amp else 0
  | .sine s f p, x => s*Real.sin (f*x + p)

/-- `deriv` of the functions of one argument; the base class answers zero.
Function.h:136, Functions.C:240-255,371-374,395-398 -/
def ScalarFunc.deriv : ScalarFunc → ℝ → ℝ
  | .const _, _ => 0
  | .linear f, x => f.deriv x
  | .ramp fval xmax, x => if x < xmax then fval/xmax else 0
  | .dirac _ _, _ => 0
  | .step _ _, _ => 0
  | .sine s f p, x => f*s*Real.cos (f*x + p)

/-- `isZero` of the functions of one argument.  Functions.h:38,73,131,158,180,204 -/
def ScalarFunc.isZero : ScalarFunc → Bool
  | .const v => decide (v = 0)
  | .linear f => f.isZero
  | .ramp fval _ => decide (fval = 0)
  | .dirac amp _ => decide (amp = 0)
  | .step amp _ => decide (amp = 0)
  | .sine s _ _ => decide (s = 0)

/-- `isConstant` of the functions of one argument.  The base class answers `true` and the
Dirac and step functions do not override it.  Function.h:43, Functions.h:75,133,206 -/
def ScalarFunc.isConstant : ScalarFunc → Bool
  | .const _ => true
  | .linear f => f.isConstant
  | .ramp _ xmax => decide (xmax ≤ 0)
  | .dirac _ _ => true
  | .step _ _ => true
  | .sine s _ _ => decide (s = 0)

/-- A point in space, with a time if it is a `Vec4`. -/
structure Pt where
  /-- the coordinates -/
  X : Fin 3 → ℝ
  /-- the time component of a `Vec4` -/
  t : Option ℝ

/-- `Xt ? Xt->t : Real(0)`.  Functions.C:403-404 -/
def Pt.time (P : Pt) : ℝ := P.t.getD 0

/-- The modelled scalar functions of a spatial point.  The linear, quadratic and step functions
of x, y and z are three classes each (`LinearXFunc`, ...); here they carry the coordinate.
Functions.h:221-642 -/
inductive RealFunc where
  /-- `ConstFunc(v)` -/
  | const (v : ℝ)
  /-- `ConstTimeFunc(t)` -/
  | constTime (tf : ScalarFunc)
  /-- `SpaceTimeFunc(s,t)` -/
  | spaceTime (sf : RealFunc) (tf : ScalarFunc)
  /-- `LinearXFunc(a,b)`, `LinearYFunc`, `LinearZFunc` -/
  | linear (d : Fin 3) (a b : ℝ)
  /-- `QuadraticXFunc(max,a,b)`, `QuadraticYFunc`, `QuadraticZFunc` -/
  | quad (d : Fin 3) (mx a b : ℝ)
  /-- `LinearRotZFunc(rX,A,x0,y0)` -/
  | rotZ (rX : Bool) (A x0 y0 : ℝ)
  /-- `StepXFunc(v,a,b,dir)` -/
  | stepX (d : Fin 3) (fv x0 x1 : ℝ)
  /-- `StepXYFunc(v,X1,Y1,X0,Y0)` -/
  | stepXY (fv x1 y1 x0 y0 : ℝ)
  /-- `StepXYZFunc(v,x0,x1,tol)` -/
  | stepXYZ (fv : ℝ) (X0 X1 : Fin 3 → ℝ) (eps : ℝ)
  /-- `Interpolate1D(..,dir,ramp)` -/
  | interp (lf : LinearFunc) (d : Fin 3) (ramp : ℝ)

/-- `Xt && time > 0 && Xt->t < time`: the point lies in the ramp-up time.
Functions.C:639-640,658-659 -/
def inRamp (P : Pt) (ramp : ℝ) : Prop :=
  match P.t with
  | none => False
  | some t => ramp > 0 ∧ t < ramp

/-- `Vec3::inside` with a tolerance.  src/Utility/Vec3.h:170-177 -/
def inside (X a b : Fin 3 → ℝ) (tol : ℝ) : Prop :=
  ∀ i, ¬ (X i + tol < a i ∨ X i - tol > b i)

/-- `LinearRotZFunc::evaluate` for the angle `θ`.  Functions.C:565-569 -/
def rotValue (rX : Bool) (x y θ : ℝ) : ℝ :=
  if rX then x*Real.cos θ - y*Real.sin θ - x else x*Real.sin θ + y*Real.cos θ - y

/-- `evaluate` of the functions of a point.
Functions.h:234, Functions.C:401-405,417-421,448-451,460-463,472-475,484-488,509-513,534-538,
559-570,590-605,635-644 -/
def RealFunc.evaluate : RealFunc → Pt → ℝ
  | .const v, _ => v
  | .constTime tf, P => tf.evaluate P.time
  | .spaceTime sf tf, P => sf.evaluate P * tf.evaluate P.time
  | .linear d a b, P => a*P.X d + b
  | .quad d mx a b, P => mx*(a - P.X d)*(P.X d - b)/(((a-b)/2)*((a-b)/2))
  | .rotZ rX A x0 y0, P =>
    match P.t with
    | none => 0
    | some t => rotValue rX (P.X 0 - x0) (P.X 1 - y0) (A*t)
  | .stepX d fv x0 x1, P => if P.X d < x0 ∨ P.X d > x1 then 0 else fv
  | .stepXY fv x1 y1 x0 y0, P =>
    if P.X 0 < x0 ∨ P.X 0 > x1 ∨ P.X 1 < y0 ∨ P.X 1 > y1 then 0 else fv
  | .stepXYZ fv X0 X1 eps, P => if inside P.X X0 X1 eps then fv else 0
  | .interp lf d ramp, P =>
    if inRamp P ramp then lf.evaluate (P.X d)*(P.time/ramp) else lf.evaluate (P.X d)

/-- `Interpolate1D::deriv` before the ramp is applied: the factor of the space part, or nothing
when the direction is another coordinate.  Functions.C:647-655 -/
def interpFactor (lf : LinearFunc) (d : Fin 3) (P : Pt) (dir : ℕ) : Option ℝ :=
  if dir = d.val + 1 then some (lf.deriv (P.X d))
  else if dir > 3 then some (lf.evaluate (P.X d))
  else none

/-- `deriv(X,dir)` of the functions of a point: direction 1, 2, 3 is a coordinate and 4 is the
time.  The base class answers zero.
Function.h:105, Functions.C:408-414,424-431,454-457,466-469,478-481,491-497,516-522,550-556,
573-587,647-664 -/
def RealFunc.deriv : RealFunc → Pt → ℕ → ℝ
  | .const _, _, _ => 0
  | .constTime tf, P, dir => if dir < 4 then 0 else tf.deriv P.time
  | .spaceTime sf tf, P, dir =>
    if dir < 4 then sf.deriv P dir * tf.evaluate P.time
    else sf.evaluate P * tf.deriv P.time
  | .linear d a _, _, dir => if dir = d.val + 1 then a else 0
  | .quad d mx a b, P, dir =>
    if dir ≠ d.val + 1 then 0 else mx*(a + b - 2*P.X d)/(((a-b)/2)*((a-b)/2))
  | .rotZ rX A _ _, P, dir =>
    if dir > 2 then 0
    else match P.t with
      | none => 0
      | some t =>
        if dir = 1 then (if rX then Real.cos (A*t) - 1 else Real.sin (A*t))
        else if dir = 2 then (if rX then -Real.sin (A*t) else Real.cos (A*t) - 1)
        else 0
  | .stepX _ _ _ _, _, _ => 0
  | .stepXY _ _ _ _ _, _, _ => 0
  | .stepXYZ _ _ _ _, _, _ => 0
  | .interp lf d ramp, P, dir =>
    match interpFactor lf d P dir with
    | none => 0
    | some r =>
      if inRamp P ramp then r*((if dir < 4 then P.time else 1)/ramp)
      else if dir > 3 then 0 else r

/-- `dderiv(X,dir1,dir2)`; the base class answers zero.
Function.h:107, Functions.C:434-445,500-506,525-531,541-547 -/
def RealFunc.dderiv : RealFunc → Pt → ℕ → ℕ → ℝ
  | .spaceTime sf tf, P, d1, d2 =>
    if d1 < 4 ∧ d2 < 4 then sf.dderiv P d1 d2 * tf.evaluate P.time
    else if d1 < 4 then sf.deriv P d1 * tf.deriv P.time
    else if d2 < 4 then sf.deriv P d2 * tf.deriv P.time
    else 0
  | .quad d mx a b, _, d1, d2 =>
    if d1 ≠ d.val + 1 ∨ d2 ≠ d.val + 1 then 0 else -mx*2/(((a-b)/2)*((a-b)/2))
  | _, _, _, _ => 0

/-- `isZero` of the functions of a point.
Functions.h:230,253,284,313,338,363,389,417,445,483,513,541,566,632 -/
def RealFunc.isZero : RealFunc → Bool
  | .const v => decide (v = 0)
  | .constTime tf => tf.isZero
  | .spaceTime sf tf => sf.isZero || tf.isZero
  | .linear _ a b => decide (a = 0) && decide (b = 0)
  | .quad _ mx _ _ => decide (mx = 0)
  | .rotZ _ A _ _ => decide (A = 0)
  | .stepX _ fv _ _ => decide (fv = 0)
  | .stepXY fv _ _ _ _ => decide (fv = 0)
  | .stepXYZ fv _ _ _ => decide (fv = 0)
  | .interp lf _ _ => lf.isZero

/-- `isConstant` of the functions of a point: no variation in time.  The base class answers
`true`.  Function.h:43, Functions.h:255,286,485,634 -/
def RealFunc.isConstant : RealFunc → Bool
  | .constTime tf => tf.isConstant
  | .spaceTime _ tf => tf.isConstant
  | .rotZ _ A _ _ => decide (A = 0)
  | .interp _ _ ramp => decide (ramp ≤ 0)
  | _ => true

/-- `RealFunc::gradient`.  Function.h:210-217 -/
def RealFunc.gradient (f : RealFunc) (P : Pt) : Fin 3 → ℝ := fun i => f.deriv P (i.val + 1)

/-- `RealFunc::hessian`: a symmetric tensor, of which the loop sets the entries with
`d1 ≤ d2`; reading an entry below the diagonal gives the one above.  Function.h:220-228 -/
def RealFunc.hessian (f : RealFunc) (P : Pt) : Fin 3 → Fin 3 → ℝ := fun i j =>
  f.dderiv P (min i.val j.val + 1) (max i.val j.val + 1)

/-- `RealFunc::timeDerivative`.  Function.h:234 -/
def RealFunc.timeDerivative (f : RealFunc) (P : Pt) : ℝ := f.deriv P 4

/-- `ASMbase::hasTimeDependentDirichlet` for the scalar functions of the Dirichlet codes in use;
a code without a function is passed over.  src/ASM/ASMbase.C:1207-1224 -/
def hasTimeDependentDirichlet (codes : List ℤ) (func : ℤ → Option RealFunc) : Bool :=
  codes.any (fun c => match func c with
    | some f => !f.isConstant
    | none => false)

/-- The coefficient `ASMbase::updateDirichlet` gives a slave degree of freedom with a scalar
function, at the node position `X` and the given time.  src/ASM/ASMbase.C:1246-1255 -/
def dirichletCoeff (g : RealFunc) (X : Fin 3 → ℝ) (time : ℝ) (tangent : Bool) : ℝ :=
  if g.isZero then 0
  else if tangent then g.timeDerivative ⟨X, some time⟩
  else g.evaluate ⟨X, some time⟩

/-- The spatial part of `parseRealFunc` for `StepXY x0 y0` without an upper corner: the lower
corner keeps its default (-1,-1).  Functions.C:774-779, Functions.h:535-538 -/
def parseStepXY (A x0 y0 : ℝ) : RealFunc := .stepXY A x0 y0 (-1) (-1)

end
end IFEM.Fn
