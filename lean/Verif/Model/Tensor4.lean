import Mathlib.Data.List.Basic
import Mathlib.Algebra.Ring.Defs
/-!
# Model of fourth-order tensors (src/Utility/Tensor4.[hC])

The index type is `unsigned short int`; the dimensions used are small, so that natural numbers are used.  Accesses outside of the component vector,
which have undefined behaviour, are modelled by `none`.
-/
namespace IFEM.Tens4

variable {R : Type}

/-- A tensor of class `Tensor4` (`symm = false`) or `SymmTensor4` (Tensor4.h:24-30, 86-91): number of dimensions, dimension of the matrix
representation, component values. -/
structure Tensor (R : Type) where
  symm : Bool
  n : Nat
  m : Nat
  v : List R

/-- `Tensor4::index` (Tensor4.h:41-45). -/
def index (n i j k l : Nat) : Nat := (i-1) + n*((j-1) + n*((k-1) + n*(l-1)))

/-- `SymmTensor4::index` (Tensor4.h:101-115). -/
def symIndex (n i j : Nat) : Nat :=
  if i = j then i - 1
  else if n = 2 then 2
  else if n = 1 then 0
  else (if i = j + 1 ∨ i + 2 = j then j else i) + 2

/-- The assignment of one value to several components, in a loop (Tensor4.C:25-33, 83-84, 101-108). -/
def setAll (v : List R) (ps : List Nat) (s : R) : List R := ps.foldl (fun v p => v.set p s) v

/-- The positions of the components with four equal indices. -/
def diagonal (n : Nat) : List Nat := (List.range' 1 n).map fun i => index n i i i i

/-- `Tensor4::Tensor4(nd,scale,makeJ)` (Tensor4.C:18-35); `redim` is that of `Tensor4` also for derived classes, since it is called in the
constructor of the base class.  A zero scale gives the same values without the loop. -/
def create [Zero R] [DecidableEq R] (nd : Nat) (scale : R) (makeJ : Bool) : Tensor R :=
  ⟨false, nd, nd*nd, if scale ≠ 0 then
    setAll (List.replicate (nd*nd*(nd*nd)) 0) (if makeJ then (List.range' 1 nd).flatMap fun i => (List.range' 1 nd).map fun j => index nd i i j j
      else diagonal nd) scale
    else List.replicate (nd*nd*(nd*nd)) 0⟩

/-- `Tensor4::Tensor4(x,nd)` (Tensor4.C:37-46): the tensor, and whether no error is reported. -/
def ofVector (x : List R) (nd : Nat) : Tensor R × Bool :=
  (⟨false, nd, nd*nd, if x.length < nd*nd*(nd*nd) then x else x.take (nd*nd*(nd*nd))⟩, !(x.length < nd*nd*(nd*nd)))

/-- `SymmTensor4::SymmTensor4(nd,makeJ)` (Tensor4.C:99-109): the constructor of the base class is called with zero scale. -/
def createSymm [Zero R] [One R] [DecidableEq R] (nd : Nat) (makeJ : Bool) : Tensor R :=
  let T : Tensor R := create nd 0 false
  { T with symm := true
           v := setAll T.v (if makeJ then (List.range nd).flatMap fun i => (List.range nd).map fun j => i*T.m + j
             else (List.range nd).map fun i => i*T.m + i) 1 }

/-- `SymmTensor4::SymmTensor4(x,nd)` (Tensor4.C:112-114). -/
def symmOfVector (x : List R) (nd : Nat) : Tensor R × Bool := ({ (ofVector x nd).1 with symm := true }, (ofVector x nd).2)

/-- The position accessed by `operator()` of the two classes (Tensor4.C:57-66, 142-151). -/
def Tensor.pos (T : Tensor R) (i j k l : Nat) : Nat :=
  if T.symm then symIndex T.n i j * T.m + symIndex T.n k l else index T.n i j k l

/-- `operator()` (Tensor4.C:57-60, 142-145). -/
def Tensor.get (T : Tensor R) (i j k l : Nat) : Option R := T.v[T.pos i j k l]?

/-- Assignment through `operator()` (Tensor4.C:63-66, 148-151); `none` outside of the component vector. -/
def Tensor.put (T : Tensor R) (i j k l : Nat) (x : R) : Option (Tensor R) :=
  if T.pos i j k l < T.v.length then some { T with v := T.v.set (T.pos i j k l) x } else none

/-- `redim` of the two classes (Tensor4.h:35, Tensor4.C:129-139): the dimension of the matrix representation. -/
def matDim (symm : Bool) (nd : Nat) : Nat :=
  if symm then (if nd = 1 then 1 else if nd = 2 then 3 else if nd = 3 then 6 else 0) else nd*nd

/-- `Tensor4::operator=(const Tensor4&)` (Tensor4.C:69-76), also for `SymmTensor4`, whose own assignment calls this one, with its own `redim`;
`none` if values are written beyond the end of the vector. -/
def assign [Zero R] (T S : Tensor R) : Option (Tensor R) :=
  let m := matDim T.symm S.n
  let v := (T.v ++ List.replicate (m*m - T.v.length) 0).take (m*m)
  if S.v.length ≤ v.length then some ⟨T.symm, S.n, m, S.v ++ v.drop S.v.length⟩ else none

/-- `Tensor4::zero` (Tensor4.h:56). -/
def Tensor.zero [Zero R] (T : Tensor R) : Tensor R := { T with v := T.v.map fun _ => 0 }

/-- `Tensor4::operator=(Real)` (Tensor4.C:79-87), with the index method of `Tensor4` in both classes (for `SymmTensor4` called through a reference
of the base class, since the assignment of `SymmTensor4` hides this one); `none` outside of the component vector. -/
def assignValue [Zero R] (T : Tensor R) (val : R) : Option (Tensor R) :=
  if ∀ p ∈ diagonal T.n, p < T.v.length then some { T with v := setAll T.zero.v (diagonal T.n) val } else none

/-- `Tensor4::operator+=(Real)` (Tensor4.C:90-96). -/
def addValue [Add R] (T : Tensor R) (val : R) : Option (Tensor R) :=
  if ∀ p ∈ diagonal T.n, p < T.v.length then
    some { T with v := (diagonal T.n).foldl (fun v p => v.modify p (· + val)) T.v } else none

end IFEM.Tens4
