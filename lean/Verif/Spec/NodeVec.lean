import Verif.Model.Arrays
/-!
# Specification of the transfer between global and patch-level vectors

A patch-level vector holds, in the order of the nodes of the patch, the values of the DOFs of each node.
-/
namespace IFEM.Spec

variable {α : Type}

/-- `v` holds the values of `g` at the given (0-based) positions, all of which exist. -/
def IsGather (dofs : List Nat) (g v : List α) : Prop :=
  v.length = dofs.length ∧ ∀ k d : Nat, dofs[k]? = some d → d < g.length ∧ v[k]? = g[d]?

/-- `g'` is `g` with the values of `v` stored at the given positions; where a position is listed several times, the
last value counts. -/
def IsScatter (dofs : List Nat) (v g g' : List α) : Prop :=
  g'.length = g.length ∧ (∀ d : Nat, d ∉ dofs → g'[d]? = g[d]?) ∧
  ∀ k d : Nat, dofs[k]? = some d → (∀ j : Nat, k < j → dofs[j]? ≠ some d) → g'[d]? = v[k]?

/-- A valid matrix of accumulated DOFs for `n` nodes and `ndof` DOFs: 1-based, node `i` has the DOFs
`madof[i-1] .. madof[i]-1`. -/
structure DofLayout (madof : List Int) (n ndof : Nat) : Prop where
  len : madof.length = n + 1
  first : madof[0]? = some 1
  last : madof[n]? = some ((ndof : Int) + 1)
  mono : ∀ (i : Nat) (a b : Int), madof[i]? = some a → madof[i+1]? = some b → a ≤ b

/-- The (0-based) positions of the DOFs of node `i` in a layout. -/
def nodeDofs (madof : List Int) (i : Int) : List Nat :=
  let a := madof.getD (i.toNat - 1) 1
  let b := madof.getD i.toNat 1
  List.range' (a - 1).toNat (b - a).toNat

/-- The positions of the DOFs of the listed nodes, node by node. -/
def patchDofs (madof : List Int) (nodes : List Int) : List Nat := nodes.flatMap (nodeDofs madof)

/-- The positions of the DOFs of node `i` when all nodes have `nndof` DOFs. -/
def uniformDofs (nndof : Nat) (i : Int) : List Nat := List.range' (nndof * (i.toNat - 1)) nndof

/-- The positions of the DOFs of basis `b` of a mixed patch: the nodes of the bases follow each other, basis `b` has `nb[b]` nodes
with `nfx[b]` DOFs each, and `first` holds the position of the first DOF of each node. -/
def basisDofs (nfx nb first : List Nat) (b : Nat) : List Nat :=
  (List.range (nb.getD b 0)).flatMap fun i => List.range' (first.getD ((nb.take b).sum + i) 0) (nfx.getD b 0)

end IFEM.Spec
