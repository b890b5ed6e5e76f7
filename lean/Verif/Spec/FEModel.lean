import Mathlib.Algebra.BigOperators.Group.List.Basic
import Mathlib.Algebra.BigOperators.Group.Finset.Basic
import Mathlib.Algebra.Ring.Defs
import Verif.Model.Sam
/-!
# Specification: a finite element model with boundary conditions and linear constraints

Independent of the assembly code.  DOFs and nodes are numbered from 1.  A *DOF field* is a function
`Nat → R` giving the value at every DOF.
-/
namespace IFEM.Spec
variable {R : Type}

/-- A linear constraint `u(slave) = offset + Σ coeff·u(master)`. -/
structure Con (R : Type) where
  slave   : Nat
  offset  : R
  masters : List (Nat × R)

/-- A finite element model: number of DOFs per node, status code of every DOF (0: suppressed,
1 and 2: free), constraints, and the node numbers of every element (a negative number is a "hole":
a node whose DOFs take up space in the element but get no contribution). -/
structure FEModel (R : Type) where
  nndof  : List Nat
  status : List Int
  cons   : List (Con R)
  elems  : List (List Int)

namespace FEModel

/-- First DOF of node `n`. -/
def firstDof (D : FEModel R) (n : Nat) : Nat := 1 + (D.nndof.take (n-1)).sum

/-- The DOFs of node `n`. -/
def nodeDofs (D : FEModel R) (n : Nat) : List Nat := List.range' (D.firstDof n) (D.nndof.getD (n-1) 0)

/-- The DOFs of an element with the given nodes; `none` for the DOFs of a hole. -/
def elmDofs (D : FEModel R) (nodes : List Int) : List (Option Nat) :=
  nodes.flatMap fun n =>
    if n > 0 then (D.nodeDofs n.toNat).map some
    else if n < 0 then List.replicate (D.nndof.getD (n.natAbs-1) 0) none
    else []

/-- DOF `d` exists and is free. -/
def Free (D : FEModel R) (d : Nat) : Prop := 1 ≤ d ∧ (D.status[d-1]? = some 1 ∨ D.status[d-1]? = some 2)

/-- DOF `d` exists and is suppressed. -/
def Suppressed (D : FEModel R) (d : Nat) : Prop := 1 ≤ d ∧ D.status[d-1]? = some 0

/-- Well-formed model: every DOF belongs to a node and has a legal status, constraints prescribe
distinct suppressed DOFs in terms of free DOFs, elements refer to existing nodes. -/
structure Valid (D : FEModel R) : Prop where
  ndof    : D.status.length = D.nndof.sum
  status  : ∀ c ∈ D.status, c = 0 ∨ c = 1 ∨ c = 2
  slave   : ∀ c ∈ D.cons, D.Suppressed c.slave
  master  : ∀ c ∈ D.cons, ∀ m ∈ c.masters, D.Free m.1
  unique  : (D.cons.map Con.slave).Nodup
  nodes   : ∀ e ∈ D.elems, ∀ n ∈ e, n ≠ 0 ∧ n.natAbs ≤ D.nndof.length

variable [CommRing R]

/-- The DOF field `u` obeys all constraints, with the constant terms scaled by `scale`, and vanishes
at all other suppressed DOFs.  `scale = 1`: an admissible solution.
`scale = 0`: an admissible variation. -/
structure Admissible (D : FEModel R) (scale : R) (u : Nat → R) : Prop where
  con   : ∀ c ∈ D.cons, u c.slave = scale * c.offset + (c.masters.map fun m => m.2 * u m.1).sum
  fixed : ∀ d, D.Suppressed d → (∀ c ∈ D.cons, c.slave ≠ d) → u d = 0

end FEModel

/-- Value of a DOF field at an element DOF (zero at a hole). -/
def atDof [Zero R] (u : Nat → R) : Option Nat → R
  | some d => u d
  | none => 0

/-- The tables of a `SAM` object, before equation numbering, describe the model `D`: pointwise content
of `madof`, `msc`, `mpmceq`/`mmceq`/`ttcc` and `mpmnpc`/`mmnpc` as documented in src/LinAlg/SAM.h:326-360. -/
structure Packs (s : Sam R) (D : FEModel R) : Prop where
  nnod   : s.nnod = D.nndof.length
  ndof   : s.ndof = D.status.length
  nel    : s.nel = D.elems.length
  nceq   : s.nceq = D.cons.length
  msc    : s.msc = D.status
  madof  : ∀ n, 1 ≤ n → n ≤ D.nndof.length + 1 → at1? s.madof n = some (D.firstDof n : Int)
  con    : ∀ (k : Nat) (c : Con R), D.cons[k]? = some c → ∃ ip : Int,
    at1? s.mpmceq (k+1) = some ip ∧ at1? s.mpmceq (k+2) = some (ip + 1 + c.masters.length) ∧
    at1? s.mmceq ip = some (c.slave : Int) ∧ at1? s.ttcc ip = some c.offset ∧
    ∀ (j : Nat) (m : Nat × R), c.masters[j]? = some m →
      at1? s.mmceq (ip + 1 + j) = some (m.1 : Int) ∧ at1? s.ttcc (ip + 1 + j) = some m.2
  elm    : ∀ (k : Nat) (e : List Int), D.elems[k]? = some e → ∃ ip : Int,
    at1? s.mpmnpc (k+1) = some ip ∧ at1? s.mpmnpc (k+2) = some (ip + e.length) ∧
    ∀ (j : Nat) (n : Int), e[j]? = some n → at1? s.mmnpc (ip + j) = some n

/-- DOF `d` owns equation `r` (what `SAM::getEquation` and friends report). -/
def EqnOf (s : Sam R) (d : Nat) (r : Int) : Prop := at1? s.meqn d = some r

/-- `N` is the global shape function of equation `r`: the admissible variation with value one at the
free DOF owning equation `r` and zero at all other free DOFs. -/
structure BasisField [CommRing R] (s : Sam R) (D : FEModel R) (r : Int) (N : Nat → R) : Prop where
  adm   : D.Admissible 0 N
  own   : ∀ d, D.Free d → EqnOf s d r → N d = 1
  other : ∀ d, D.Free d → ¬ EqnOf s d r → N d = 0

/-- `g` is the lift of the prescribed values: the admissible field vanishing at all free DOFs. -/
structure LiftField [CommRing R] (D : FEModel R) (g : Nat → R) : Prop where
  adm  : D.Admissible 1 g
  free : ∀ d, D.Free d → g d = 0

end IFEM.Spec
