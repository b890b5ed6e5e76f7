import Mathlib.Algebra.Order.Field.Basic
import Mathlib.Algebra.Order.Group.Abs
/-!
# Field functions read from a result file

Models `FieldFuncHDF5` and `FieldFunction` in `src/Utility/FieldFunctions.{h,C}`: the choice of the time level for a given time, and the loading of its data.

Simplifications: exact arithmetic; the file is the list of the times stored for the levels 0, 1, …, a level outside it cannot be read; `load` of the data of a level is a parameter, which also tells
whether it succeeds; the point in space and the patch are in the evaluation `val` of the data.
-/
namespace IFEM.FieldFile

variable {K : Type} [Field K] [LinearOrder K]

/-- The members of `FieldFuncHDF5` (FieldFunctions.h:97-104). -/
structure Levels (K : Type) where
  multi     : Bool
  lastLevel : Int
  lastTime  : K
deriving DecidableEq

/-- `FIXED_LEVEL` (FieldFunctions.h:34). -/
def fixedLevel : Nat := 2^24

/-- `HDF5Reader::readDouble` of the time of a level (HDF5Reader.C:86-102). -/
def readTime (f : List K) (l : Int) : Option K := if 0 ≤ l then f[l.toNat]? else none

/-- The loop in `FieldFuncHDF5::findClosestLevel` (FieldFunctions.C:80-96); `t` is the local variable with that name; the first argument bounds the number of rounds (`none` if it is used up). -/
def search (f : List K) (time : K) (inc : Int) : Nat → K → Levels K → Option (Int × Levels K)
  | 0, _, _ => none
  | n+1, t, s =>
    match readTime f (s.lastLevel + inc) with
    | none => some (-1, { s with lastTime := t, lastLevel := s.lastLevel + inc })
    | some t' =>
      if |time - t'| ≥ |time - s.lastTime| then some (s.lastLevel, s)
      else search f time inc n t' { s with lastTime := t', lastLevel := s.lastLevel + inc }

/-- `FieldFuncHDF5::findClosestLevel` (FieldFunctions.C:72-98); `junk` is the value of the uninitialized variable `t`. -/
def findClosestLevel (f : List K) (junk time : K) (s : Levels K) : Option (Int × Levels K) :=
  if !s.multi then some (s.lastLevel, s)
  else if time = s.lastTime then some (s.lastLevel, s)
  else search f time (if time > s.lastTime then 1 else -1) (f.length + s.lastLevel.natAbs + 2) junk s

variable {D V : Type}

/-- `FieldFunction`: the levels, the level of the data, and the data (`field`, `none` if empty; FieldFunctions.h:115-150). -/
structure Func (K D : Type) where
  levels  : Levels K
  current : Int
  data    : Option D

/-- The constructor (FieldFunctions.C:49-62, 249-262 and 106-112), with the flag for a fixed level in the argument `level`. -/
def open' (load : Int → Option D × Bool) (level : Int) : Func K D :=
  if level ≥ 0 then
    if level.toNat &&& fixedLevel ≠ 0 then
      let l : Int := (level.toNat ^^^ fixedLevel : Nat)
      { levels := ⟨false, l, 0⟩, current := l, data := (load l).1 }
    else { levels := ⟨true, 0, 0⟩, current := level, data := (load level).1 }
  else { levels := ⟨true, 0, 0⟩, current := level, data := none }

/-- The loading of another level when needed (FieldFunctions.C:309-311). -/
def reload (load : Int → Option D × Bool) (l : Int) (s : Func K D) : Func K D :=
  if l ≠ s.current then { s with data := (load l).1, current := if (load l).2 then l else s.current } else s

/-- `FieldFunction::evaluate` with a time (FieldFunctions.C:298-317).  Simplification: if the loading leaves no data, the value is zero (the code would access an empty array). -/
def evaluate (f : List K) (load : Int → Option D × Bool) (val : D → V) (zero : V) (junk time : K) (s : Func K D) : Option (V × Func K D) :=
  match s.data with
  | none => some (zero, s)
  | some _ =>
    match findClosestLevel f junk time s.levels with
    | none => none
    | some (l, lv) =>
      if l < 0 then some (zero, { s with levels := lv })
      else
        match (reload load l { s with levels := lv }).data with
        | none => some (zero, reload load l { s with levels := lv })
        | some d => some (val d, reload load l { s with levels := lv })

/-- A sequence of evaluations. -/
def evaluateAll (f : List K) (load : Int → Option D × Bool) (val : D → V) (zero : V) : List (K × K) → Func K D → Option (List V × Func K D)
  | [], s => some ([], s)
  | (junk, t) :: q, s =>
    match evaluate f load val zero junk t s with
    | none => none
    | some (v, s') =>
      match evaluateAll f load val zero q s' with
      | none => none
      | some (vs, s'') => some (v :: vs, s'')

end IFEM.FieldFile
