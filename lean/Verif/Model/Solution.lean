import Verif.Model.Arrays
/-!
# Stack of solution vectors

Models `SIMsolution` (src/SIM/SIMsolution.h, src/SIM/SIMsolution.C).
-/
namespace IFEM
variable {R : Type}

/-- `std::copy(src.begin(),src.end(),dst.begin())`: overwrites the first elements of `dst`; `none` if `dst` is too short. -/
def copyInto (src dst : List R) : Option (List R) :=
  if src.length ≤ dst.length then some (src ++ dst.drop src.length) else none

/-- The inner loop of `SIMsolution::pushSolution` (SIMsolution.C:37-39), for vector `i, i+1, …` (`cnt` of them) of the state starting at `n`. -/
def pushState (nVec n : Nat) : Nat → Nat → List (List R) → Option (List (List R))
  | 0, _, sol => some sol
  | cnt+1, i, sol =>
    match sol[n+i]?, sol[n+i+nVec]? with
    | some src, some dst =>
      match copyInto src dst with
      | some v => pushState nVec n cnt (i+1) (sol.set (n+i+nVec) v)
      | none => none
    | _, _ => none

/-- The outer loop of `SIMsolution::pushSolution` (SIMsolution.C:36): states `m-1, …, 0` are copied to the next one. -/
def pushStates (nVec : Nat) : Nat → List (List R) → Option (List (List R))
  | 0, sol => some sol
  | m+1, sol =>
    match pushState nVec (m * nVec) nVec 0 sol with
    | some sol => pushStates nVec m sol
    | none => none

/-- `SIMsolution::pushSolution` (SIMsolution.C:31-40), for `nVecState > 0` (division by zero otherwise); `short int` does not overflow. -/
def pushSolution (nVec : Nat) (sol : List (List R)) : Option (List (List R)) :=
  if nVec = 0 then none
  else if sol.length / nVec < 2 then some sol
  else pushStates nVec (sol.length / nVec - 1) sol

/-- `SIMsolution::initSolution` (SIMsolution.C:22-28): `resize(ndof,true)` sets all values to zero. -/
def initSolution [Zero R] (ndof nsol : Nat) : List (List R) :=
  List.replicate (if nsol > 1 then nsol else 1) (List.replicate ndof 0)

/-- A serialization container (`std::map<std::string,std::string>`), a list of key-value pairs.  The string holding a binary archive of
a number of vectors is represented by the list of the vectors (cereal is not modelled). -/
abbrev SerializeMap (R : Type) := List (String × List (List R))

/-- `SIMsolution::saveSolution` (SIMsolution.C:43-59).  `std::map::insert` does not change an existing entry. -/
def saveSolution (data : SerializeMap R) (name : String) (sol : List (List R)) : Bool × SerializeMap R :=
  (true, if (data.lookup name).isSome then data else data ++ [(name, sol)])

/-- `SIMsolution::restoreSolution` (SIMsolution.C:62-78): as many vectors as there are in the object are read; `none` is a cereal
exception, when the archive contains too few. -/
def restoreSolution (data : SerializeMap R) (name : String) (sol : List (List R)) : Option (Bool × List (List R)) :=
  match data.lookup name with
  | some vs => if sol.length ≤ vs.length then some (true, vs.take sol.length) else none
  | none => some (false, sol)

end IFEM
