import Mathlib.Algebra.Order.Field.Basic
import Mathlib.Algebra.Order.Group.Abs
/-!
# Model of the simulator for combinations of eigenmodes (src/SIM/EigenModeSIM.[hC])

Numbers are elements of an ordered field; the sine function, `2π` and the small number `epsZ` are parameters.
-/
namespace IFEM.EigMode

variable {K : Type} [Field K] [LinearOrder K]

/-- A child element of the tag `eigenmodes` (EigenModeSIM.C:38-76), with the values of its attributes: the tag `mode` with a value; the tag
`modes` with the list of integers found in its value; any other element. -/
inductive Child (K : Type) where
  | mode (value : K) (number : Option Nat) (freq : K)
  | modes (list : List Int) (scale freq : K)
  | other

/-- `std::vector::resize` to at least `n` elements (EigenModeSIM.C:46-47, 52-53, 65-68). -/
def grow (n : Nat) (v : List K) : List K := if n > v.length then v ++ List.replicate (n - v.length) 0 else v

/-- The amplitudes and angular frequencies (EigenModeSIM.h:62-63). -/
structure Input (K : Type) where
  amp : List K
  omega : List K

/-- One pass of the loop over the children (EigenModeSIM.C:38-76); `none` for an empty list of modes or a mode number less than one, which lead to
accesses outside of the vectors. A tag `mode` without a positive number is skipped. -/
def parseChild (twoPi eps : K) (s : Input K) : Child K → Option (Input K)
  | .mode value number freq =>
    match number with
    | none => some s
    | some imode =>
      if imode > 0 then
        some { amp := (grow imode s.amp).set (imode-1) value
               omega := if freq > eps then (grow imode s.omega).set (imode-1) (twoPi*freq) else s.omega }
      else some s
  | .modes list scale freq =>
    if list = [] ∨ ∃ i ∈ list, i < 1 then none
    else
      let imode := list.foldl (fun a i => max a i.toNat) 0
      some { amp := list.foldl (fun v i => v.set (i.toNat - 1) scale) (grow imode s.amp)
             omega := if freq > eps then list.foldl (fun v _ => v.set (imode-1) (twoPi*freq)) (grow imode s.omega) else s.omega }
  | .other => some s

/-- The loop over the children (EigenModeSIM.C:38-76). -/
def parseAll (twoPi eps : K) (cs : List (Child K)) (s : Input K) : Option (Input K) := cs.foldlM (parseChild twoPi eps) s

/-- The number of eigenvalues and of Arnoldi vectors asked for (EigenModeSIM.C:78-82). -/
def parseEnd (s : Input K) (nev ncv : Nat) : Nat × Nat :=
  let nev := if nev < s.amp.length then s.amp.length else nev
  let mincv := if nev < 10 then nev*2 else nev+10
  (nev, if ncv < mincv then mincv else ncv)

/-- The largest absolute value (`Vector::normInf`, see `Model/SamNorms.lean`). -/
def normInf (v : List K) : K := v.foldl (fun a x => max a |x|) 0

/-- Scaling of mode `i` in `EigenModeSIM::initSol` (EigenModeSIM.C:130-142): eigenvector and angular frequency. -/
def scaleMode (twoPi eps : K) (omega : List K) (i : Nat) (m : List K × K) : List K × K :=
  (m.1.map (· / normInf m.1), match omega[i]? with
    | some w => if w > eps then w else m.2 * twoPi
    | none => m.2 * twoPi)

/-- `EigenModeSIM::initSol(0,..)` (EigenModeSIM.C:113-143): the modes (eigenvector and frequency) from the eigenvalue solver are scaled. -/
def initModes (twoPi eps : K) (omega : List K) (ms : List (List K × K)) : List (List K × K) :=
  (List.range ms.length).map fun i => scaleMode twoPi eps omega i (ms.getD i ([], 0))

/-- `Vector::add` for vectors of equal length, or a shorter second one (matrix.h:1183-1197). -/
def axpy (u x : List K) (a : K) : List K := (List.range u.length).map fun p => u.getD p 0 + (if p < x.length then a * x.getD p 0 else 0)

/-- The displacement computed in `EigenModeSIM::solveStep` (EigenModeSIM.C:168-171) for the time since the start. -/
def combine (sinf : K → K) (eps : K) (amp : List K) (ms : List (List K × K)) (ndof : Nat) (t : K) : List K :=
  (List.range (min amp.length ms.length)).foldl (fun u i =>
    if amp.getD i 0 > eps then axpy u (ms.getD i ([], 0)).1 (amp.getD i 0 * sinf ((ms.getD i ([], 0)).2 * t)) else u) (List.replicate ndof 0)

/-- The start time and the time passed to the combination in `EigenModeSIM::solveStep` (EigenModeSIM.C:163-166): the start time is found in the
first step, and as long as it is negative (initially -1). -/
def startTime (start t dt : K) : K × K :=
  let start := if start < 0 then t - dt else start
  (start, t - start)

/-- The displacements in a sequence of steps, given by their times and increments (EigenModeSIM.C:153-175). -/
def runSteps (sinf : K → K) (eps : K) (amp : List K) (ms : List (List K × K)) (ndof : Nat) : K → List (K × K) → List (List K)
  | _, [] => []
  | start, (t, dt) :: steps =>
    combine sinf eps amp ms ndof (startTime start t dt).2 :: runSteps sinf eps amp ms ndof (startTime start t dt).1 steps

end IFEM.EigMode
