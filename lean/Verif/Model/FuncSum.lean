import Mathlib.Algebra.Order.Field.Basic
/-!
# Model of weighted sums of functions (src/SIM/FunctionSum.[hC])

A component function is an element of a type `F`; its virtual methods are given by `Ops`.  The number types are exact.
-/
namespace IFEM.FuncSum

variable {F X K : Type} [Field K] [LinearOrder K]

/-- The virtual methods of `FunctionBase` used here (src/Utility/Function.h:145-185).  `initPatch` may change the state of the function. -/
structure Ops (F X K : Type) where
  dim : F → Nat
  typ : F → Nat
  inDomain : F → X → Bool
  initPatch : F → Nat → F × Bool
  value : F → X → List K
  scalar : F → X → K

/-- Data members of `FunctionSum` and the inherited `ncmp` (FunctionSum.h:66-71, Function.h:150, 184). -/
structure Sum (F K : Type) where
  ncmp : Nat
  comps : List (F × K)

/-- The constructor without functions (FunctionSum.h:31, Function.h:150). -/
def Sum.empty : Sum F K := ⟨1, []⟩

/-- `FunctionSum::add` (FunctionSum.C:30-47). -/
def Sum.add (o : Ops F X K) (s : Sum F K) (f : F) (w : K) : Sum F K × Bool :=
  match s.comps with
  | [] => (⟨o.dim f, [(f, w)]⟩, true)
  | c :: _ => if o.dim f = o.dim c.1 then ({ s with comps := s.comps ++ [(f, w)] }, true) else (s, false)

/-- `FunctionSum::getType` (FunctionSum.C:50-60). -/
def Sum.getType (o : Ops F X K) (s : Sum F K) : Nat :=
  match s.comps with
  | [] => 0
  | c :: cs => if (c :: cs).any (fun d => o.typ d.1 ≠ o.typ c.1) then 0 else o.typ c.1

/-- `FunctionSum::inDomain` (FunctionSum.C:63-70). -/
def Sum.inDomain (o : Ops F X K) (s : Sum F K) (x : X) : Bool := s.comps.any fun c => o.inDomain c.1 x

/-- `FunctionSum::initPatch` (FunctionSum.C:73-80): the loop with the flag `affected`. -/
def initLoop (o : Ops F X K) (idx : Nat) : List (F × K) → Bool → List (F × K) × Bool
  | [], a => ([], a)
  | c :: cs, a =>
    let r := o.initPatch c.1 idx
    let t := initLoop o idx cs (a || r.2)
    ((r.1, c.2) :: t.1, t.2)

/-- `FunctionSum::initPatch` (FunctionSum.C:73-80). -/
def Sum.initPatch (o : Ops F X K) (s : Sum F K) (idx : Nat) : Sum F K × Bool :=
  let t := initLoop o idx s.comps false
  ({ s with comps := t.1 }, t.2)

/-- `sum.add(val,w)` of `utl::vector` with unit strides (src/LinAlg/matrix.h:1183-1198): the number of entries is that of the shorter vector. -/
def axpy (sum val : List K) (w : K) : List K :=
  if sum = [] then val.map (fun v => w * v) else
  sum.zipIdx.map fun p => match val[p.2]? with
    | some v => p.1 + w * v
    | none => p.1

/-- The maximum loop of `getValue` (FunctionSum.C:93-95), for values that are not longer than the sum. -/
def maxWith (sum val : List K) : List K :=
  sum.zipIdx.map fun p => match val[p.2]? with
    | some v => if v > p.1 then v else p.1
    | none => p.1

/-- The loop of `getValue` (FunctionSum.C:86-96), from component number `i`. -/
def valueLoop (o : Ops F X K) (x : X) : Nat → List (F × K) → List K → List K
  | _, [], sum => sum
  | i, (f, w) :: cs, sum =>
    valueLoop o x (i+1) cs (if 0 < w then axpy sum (o.value f x) w else if i = 0 then o.value f x else maxWith sum (o.value f x))

/-- `FunctionSum::getValue` (FunctionSum.C:83-99). -/
def Sum.getValue (o : Ops F X K) (s : Sum F K) (x : X) : List K := valueLoop o x 0 s.comps (List.replicate s.ncmp 0)

/-- The loop of `getScalarValue` (FunctionSum.C:105-113), from component number `i`. -/
def scalarLoop (o : Ops F X K) (x : X) : Nat → List (F × K) → K → K
  | _, [], sum => sum
  | i, (f, w) :: cs, sum =>
    scalarLoop o x (i+1) cs
      (if 0 < w then sum + o.scalar f x * w
       else if i = 0 ∨ o.scalar f x > sum then o.scalar f x else sum)

/-- `FunctionSum::getScalarValue` (FunctionSum.C:102-116). -/
def Sum.getScalarValue (o : Ops F X K) (s : Sum F K) (x : X) : K := scalarLoop o x 0 s.comps 0

/-- A sequence of calls of `add`, with the results. -/
def Sum.addAll (o : Ops F X K) : Sum F K → List (F × K) → Sum F K × List Bool
  | s, [] => (s, [])
  | s, (f, w) :: l =>
    let r := s.add o f w
    let t := Sum.addAll o r.1 l
    (t.1, r.2 :: t.2)

end IFEM.FuncSum
