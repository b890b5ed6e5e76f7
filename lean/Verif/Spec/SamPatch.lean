import Verif.Model.SamPatch
import Verif.Spec.FEModel
import Verif.Spec.Patch
/-!
# Specification: the finite element model described by a list of patches
-/
namespace IFEM.Spec
variable {K : Type}

/-- Number of DOFs in node `n`, as told by the first patch having this node; zero if there is none. -/
def nodalDofs (P : List (SPatch K)) (n : Nat) : Nat :=
  match (P.flatMap fun p => p.nodes).find? fun q => decide (q.1 = (n : Int)) with
  | some q => q.2
  | none => 0

/-- DOF `c` of node `n` is fixed by some patch. -/
def FixedIn (P : List (SPatch K)) (n : Int) (c : Nat) : Prop := ∃ p ∈ P, FixedDof p.bcode n c

/-- All constraints of the model. -/
def allMpcs (P : List (SPatch K)) : List (Mpc K) := P.flatMap fun p => p.mpcs

/-- `(n,c)` is a DOF of the model: node and component exist. -/
def IsDof (P : List (SPatch K)) (nnod : Nat) (k : Int × Int) : Prop :=
  1 ≤ k.1 ∧ k.1 ≤ nnod ∧ 1 ≤ k.2 ∧ k.2 ≤ nodalDofs P k.1.toNat

/-- The number of a DOF, where the DOFs are numbered node by node. -/
def dofIndex (P : List (SPatch K)) (k : Int × Int) : Nat :=
  (((List.range (k.1.toNat - 1)).map fun i => nodalDofs P (i+1)).sum + k.2.toNat)

/-- All patches tell the same, nonzero number of DOFs for a node. -/
def ConsistentNodes (P : List (SPatch K)) (nnod : Nat) : Prop :=
  ∀ q : Int × Nat, q ∈ P.flatMap (fun p => p.nodes) → 1 ≤ q.1 → q.1 ≤ (nnod : Int) → 1 ≤ q.2 ∧ q.2 = nodalDofs P q.1.toNat

/-- The global number of local node `i` (from zero) of a patch; negative numbers are kept negative, and the most negative integer stands for "minus zero". -/
def globalNode (nodes : List (Int × Nat)) (i : Int) : Int :=
  if i = -2147483648 then -(nodes.getD 0 (0,0)).1
  else if i < 0 then -(nodes.getD i.natAbs (0,0)).1
  else (nodes.getD i.natAbs (0,0)).1

/-- All active elements (those with nonzero number), with global node numbers. -/
def allElms (P : List (SPatch K)) : List (Nat × List Int) :=
  P.flatMap fun p => (p.elems.filter fun e => decide (e.1 ≠ 0)).map fun e => (e.1, e.2.map (globalNode p.nodes))

/-- The elements in the order of their numbers, from one to the largest number; a missing number gives an element without nodes. -/
def elmsById (E : List (Nat × List Int)) : List (List Int) :=
  (List.range ((E.map fun e => e.1).foldr max 0)).map fun k => match E.find? fun e => decide (e.1 = k + 1) with
    | some e => e.2
    | none => []

variable [Field K]

/-- The constraint with the constant term scaled by `scale` holds. -/
def HoldsScaled (scale : K) (m : Mpc K) (u : Int × Int → K) : Prop := u (m.node, m.dof) = scale * m.c0 + masterSum u m.master

/-- A consistent model: the patches agree on the number of DOFs in the nodes, boundary codes and constraints refer to DOFs of the model, no DOF is the slave of two constraints,
the chain pointers are set for exactly those masters which are slaves (as done by `resolveMPCchains`), no cycles, no such master is fixed, element numbers are unique,
and elements refer to nodes of the model. -/
structure GoodModel (P : List (SPatch K)) (nnod : Nat) : Prop where
  nodes   : ConsistentNodes P nnod
  bcs     : ∀ p ∈ P, ∀ b ∈ p.bcode, (1 ≤ b.node ∧ b.node ≤ nnod) ∧ ∀ c, bcCode b c = 0 ∨ bcCode b c = 1
  slaves  : ∀ m ∈ allMpcs P, IsDof P nnod (m.node, m.dof)
  masters : ∀ m ∈ allMpcs P, ∀ t ∈ m.master, IsDof P nnod (t.node, t.dof)
  unique  : UniqueSlaves (allMpcs P)
  linked  : ∀ m ∈ allMpcs P, ∀ t ∈ m.master, t.nextc = true ↔ IsSlave (allMpcs P) (t.node, t.dof)
  acyclic : Acyclic (allMpcs P)
  free    : ∀ m ∈ allMpcs P, ∀ t ∈ m.master, t.nextc = true → ¬ FixedIn P t.node t.dof.toNat
  elms    : ((allElms P).map fun e => e.1).Nodup
  elmn    : ∀ e ∈ allElms P, ∀ n ∈ e.2, n ≠ 0 ∧ n.natAbs ≤ nnod

end IFEM.Spec
