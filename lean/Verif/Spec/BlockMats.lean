import Verif.Model.BlockMats
import Verif.Spec.Matrix
import Mathlib.Algebra.BigOperators.Group.Finset.Basic
import Mathlib.Data.Int.Cast.Defs
/-!
# Specification of the block element matrices

The parts of a coupled problem (the blocks) share the nodes of some bases.  The degrees of freedom
of an element are those of the first basis node by node, then those of the second, and so on; in a
node come the components of the blocks of that basis in the order of the blocks.
-/
namespace IFEM.Spec.Blk
open IFEM IFEM.Blk

/-- The blocks of an element. -/
structure Config where
  /-- number of blocks -/
  nBlk : Nat
  /-- number of bases -/
  nBas : Nat
  /-- the basis of each block, counted from 0 -/
  bas : Nat → Nat
  /-- the number of components of each block -/
  cmp : Nat → Nat
  /-- the number of nodes of each basis -/
  nen : Nat → Nat
  valid : ∀ k < nBlk, bas k < nBas

namespace Config
variable (c : Config)

/-- The number of components in a node of the basis `j`. -/
def tot (j : Nat) : Nat := ∑ k ∈ Finset.range c.nBlk, if c.bas k = j then c.cmp k else 0

/-- The number of degrees of freedom of the bases before `j`. -/
def start (j : Nat) : Nat := ∑ i ∈ Finset.range j, c.nen i * c.tot i

/-- The number of components in a node that come before those of the block `k`. -/
def before (k : Nat) : Nat := ∑ i ∈ Finset.range k, if c.bas i = c.bas k then c.cmp i else 0

/-- The number of degrees of freedom of the element. -/
def size : Nat := ∑ k ∈ Finset.range c.nBlk, c.nen (c.bas k) * c.cmp k

/-- The degree of freedom, counted from 0, of the component `i` of the block `k` in the node `a`. -/
def dof (k a i : Nat) : Nat := c.start (c.bas k) + (a * c.tot (c.bas k) + (c.before k + i))

/-- A block, a node of its basis and a component of the block. -/
def Has (k a i : Nat) : Prop := k < c.nBlk ∧ a < c.nen (c.bas k) ∧ i < c.cmp k

/-- The position of the block `(k,l)` in the list of matrices: first comes the element matrix, then
the diagonal blocks, then the off-diagonal ones row by row, either those above the diagonal only or
all of them. -/
def place (upper : Bool) (k l : Nat) : Nat :=
  if k = l then k + 1
  else c.nBlk + 1 + if upper then (∑ i ∈ Finset.range k, (c.nBlk - 1 - i)) + (l - k - 1) else k * (c.nBlk - 1) + if l < k then l else l - 1

/-- Only the off-diagonal blocks above the diagonal are stored, for `nA` matrices altogether. -/
def Upper (nA : Nat) : Bool := decide (nA ≤ 1 + c.nBlk * (c.nBlk + 1) / 2)

/-- The matrix of the block `(k,l)`, if it is stored and not empty. -/
def block {R : Type} (A : List (Mat R)) (k l : Nat) : Option (Mat R) :=
  if c.Upper A.length = true ∧ l < k then none
  else (A[c.place (c.Upper A.length) k l]?).filter fun m => !m.elem.isEmpty

/-- An entry of a block: component `i` in node `a` against component `j` in node `b`. -/
def blockEntry {R : Type} [Zero R] (M : Mat R) (k l a i b j : Nat) : R :=
  M.elem.getD (a * c.cmp k + i + M.nrow * (b * c.cmp l + j)) 0

/-- The entry of the element matrix: that of the block, or, if there is none, that of the transposed
block with the sign of its symmetry flag. -/
def entry {R : Type} [Ring R] (A : List (Mat R)) (flag : Nat → Int) (k l a i b j : Nat) : R :=
  match c.block A k l with
  | some M => c.blockEntry M k l a i b j
  | none =>
    match c.block A l k with
    | some M => ((Int.sign (flag (c.place (c.Upper A.length) l k)) : Int) : R) * c.blockEntry M l k b j a i
    | none => 0

/-- The calls that set up an element with `nA` matrices and `nB` vectors: the diagonal blocks in the
given order, those with `zero k` as zero blocks, then the off-diagonal blocks at the given positions.
The first result is the conjunction of all return values. -/
def setup {R : Type} [Zero R] (nA nB : Nat) (order : List Nat) (zero : Nat → Bool) (offs : List Nat) (flag : Nat → Int) : Option (Bool × Elm R) := do
  let s1 := order.foldl (fun (r : Bool × Elm R) k =>
    let t := r.2.redim (k+1) (c.nen (c.bas k)) (c.cmp k) (if zero k then -((c.bas k : Int) + 1) else (c.bas k : Int) + 1)
    (r.1 && t.1, t.2)) (true, Elm.init c.nBlk c.nBas nA nB)
  let s2 ← offs.foldlM (fun (r : Bool × Elm R) p => (r.2.redimOffDiag p (flag p)).map fun t => (r.1 && t.1, t.2)) s1
  (s2.2.finalize).map fun t => (s2.1 && t.1, t.2)

/-- The calls are as they should be: every diagonal block once, in any order; off-diagonal blocks at
positions that exist. -/
structure Calls (nA nB : Nat) (order offs : List Nat) : Prop where
  perm : order.Perm (List.range c.nBlk)
  mats : c.nBlk < nA
  most : nA ≤ c.nBlk * c.nBlk + 1
  vecs : c.nBlk < nB
  offs : ∀ p ∈ offs, c.nBlk < p ∧ p < nA

/-- The matrices have the right form: the first is empty, and every block that is not empty has the
dimensions of its block. -/
def Fits {R : Type} (A : List (Mat R)) : Prop :=
  A[0]? = some ⟨0, 0, []⟩ ∧ c.nBlk < A.length ∧
  ∀ k l, k < c.nBlk → l < c.nBlk → ∀ M, c.block A k l = some M →
    M.nrow = c.nen (c.bas k) * c.cmp k ∧ M.ncol = c.nen (c.bas l) * c.cmp l ∧ M.WF

/-- The vectors have the right form. -/
def FitsV {R : Type} (b : List (List R)) : Prop :=
  b[0]? = some [] ∧ ∀ k < c.nBlk, ∃ v, b[k+1]? = some v ∧ v.length = c.nen (c.bas k) * c.cmp k

end Config
end IFEM.Spec.Blk
