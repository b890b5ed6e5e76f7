import Mathlib.Algebra.Order.Group.Unbundled.Abs
import Verif.Spec.FEModel
import Verif.Model.SamNorms
/-!
# Specification: degrees of freedom of a given type
-/
namespace IFEM.Spec
variable {R : Type}

/-- Nodes and DOFs may be classified: the classifications cover all nodes, and all DOFs, or are absent. -/
structure TypesFit (D : FEModel R) (ty : DofTypes) : Prop where
  node : ty.nodeType = [] ∨ ty.nodeType.length = D.nndof.length
  dof  : ty.dofType = [] ∨ ty.dofType.length = D.status.length

/-- DOF `d` exists, its node is of type `t` (if nodes are classified), and it is itself of type `t` (if DOFs are classified). -/
def HasType (D : FEModel R) (ty : DofTypes) (t : Char) (d : Nat) : Prop :=
  ∃ n, 1 ≤ n ∧ n ≤ D.nndof.length ∧ d ∈ D.nodeDofs n ∧
    (ty.nodeType ≠ [] → ty.nodeType[n-1]? = some t) ∧ (ty.dofType ≠ [] → ty.dofType[d-1]? = some t)

open Classical in
/-- The DOFs of the type, in increasing order. -/
noncomputable def typedDofs (D : FEModel R) (ty : DofTypes) (t : Char) : List Nat :=
  (List.range' 1 D.status.length).filter fun d => decide (HasType D ty t d)

/-- The `c`th DOF of type `t` of node `n`: if DOFs are classified, the `c`th among the DOFs of the node with this type; otherwise, the `c`th DOF of the node, provided that
the node has this type (if nodes are classified). -/
def compDof (D : FEModel R) (ty : DofTypes) (t : Char) (c n : Nat) : Option Nat :=
  if ty.dofType ≠ [] then ((D.nodeDofs n).filter fun d => decide (ty.dofType[d-1]? = some t))[c-1]?
  else if ty.nodeType = [] ∨ ty.nodeType[n-1]? = some t then (D.nodeDofs n)[c-1]?
  else none

/-- `v` is the largest absolute value of the vector `x` among the DOFs `dof n` of the nodes `1..nnod`; if it is not zero, `node` is the first node where it is attained. -/
structure IsMaxAbs {K : Type} [AddCommGroup K] [LinearOrder K] (nnod : Nat) (dof : Nat → Option Nat) (x : List K) (v : K) (node : Nat) : Prop where
  nonneg   : 0 ≤ v
  bound    : ∀ n d, 1 ≤ n → n ≤ nnod → dof n = some d → |x.getD (d-1) 0| ≤ v
  attained : v ≠ 0 → 1 ≤ node ∧ node ≤ nnod ∧ (∃ d, dof node = some d ∧ v = |x.getD (d-1) 0|) ∧
    ∀ n d, 1 ≤ n → n < node → dof n = some d → |x.getD (d-1) 0| < v

/-- Node `n` or DOF `d` has type `t`: the classification of the DOF counts if there is one, else that of the node, which is `D` if nodes are not classified. -/
def EqnType (ty : DofTypes) (t : Char) (n d : Nat) : Prop :=
  if ty.dofType ≠ [] then ty.dofType[d-1]? = some t else if ty.nodeType ≠ [] then ty.nodeType[n-1]? = some t else t = 'D'

end IFEM.Spec
