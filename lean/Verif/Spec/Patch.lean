import Verif.Model.Patch
import Verif.Spec.Mpc
/-!
# Specification: fixed DOFs
-/
namespace IFEM.Spec

/-- The status code of DOF `c` (from one) of a node. -/
def bcCode (b : Bc) (c : Nat) : Nat :=
  match c with
  | 1 => b.CX | 2 => b.CY | 3 => b.CZ | 4 => b.RX | 5 => b.RY | 6 => b.RZ
  | _ => 1

/-- DOF `c` of node `n` is fixed: it has the code 0 in some entry. -/
def FixedDof (bcs : List Bc) (n : Int) (c : Nat) : Prop := ∃ b ∈ bcs, b.node = n ∧ bcCode b c = 0

/-- No two entries for the same node, and only codes 0 (fixed) and 1 (free). -/
def WellFormedBc (bcs : List Bc) : Prop := (bcs.map fun b => b.node).Nodup ∧ ∀ b ∈ bcs, ∀ c, bcCode b c = 0 ∨ bcCode b c = 1

/-- `d` is a decimal digit of `num`, at some position below the leading digit or at it. -/
def HasDigit (num d : Nat) : Prop := ∃ k, num / 10^k ≠ 0 ∧ num / 10^k % 10 = d

/-- The global number of the node with 1-based index `inod` in the patch. -/
def IsNode (mlgn : List Int) (inod : Nat) (n : Int) : Prop := 1 ≤ inod ∧ mlgn[inod-1]? = some n

end IFEM.Spec

namespace IFEM.Spec
variable {K : Type} [Field K]

/-- A patch as built by the API: consistent boundary codes, and the set of constraints sorted by slave, with unique slaves. -/
def ValidPatch (p : Patch K) : Prop :=
  WellFormedBc p.bcode ∧ p.mpcs.Pairwise fun a b => a.node < b.node ∨ (a.node = b.node ∧ a.dof < b.dof)

/-- A DOF which is neither fixed nor the slave of a constraint. -/
def FreeDof (p : Patch K) (n : Int) (d : Nat) : Prop := ¬ FixedDof p.bcode n d ∧ ¬ IsSlave p.mpcs (n, (d : Int))

/-- The patch got exactly one new constraint equation `u k = rhs u`; boundary codes and the other constraints are as before. -/
def Coupled (p p' : Patch K) (k : Int × Int) (rhs : (Int × Int → K) → K) : Prop :=
  p'.bcode = p.bcode ∧ p'.mlgn = p.mlgn ∧ p'.nf = p.nf ∧ p'.nsd = p.nsd ∧
  (∀ k', IsSlave p'.mpcs k' ↔ IsSlave p.mpcs k' ∨ k' = k) ∧
  ∀ u, HoldAll p'.mpcs u ↔ HoldAll p.mpcs u ∧ u k = rhs u

/-- The equations `u (s,d) = rhs d u` for those DOFs in the list which are free are added, the rest is unchanged. -/
def CoupledAll (p p' : Patch K) (s : Int) (ds : List Nat) (rhs : Nat → (Int × Int → K) → K) : Prop :=
  p'.bcode = p.bcode ∧ p'.mlgn = p.mlgn ∧ p'.nf = p.nf ∧ p'.nsd = p.nsd ∧
  (∀ k, IsSlave p'.mpcs k ↔ IsSlave p.mpcs k ∨ ∃ d ∈ ds, FreeDof p s d ∧ k = (s, (d : Int))) ∧
  ∀ u, HoldAll p'.mpcs u ↔ HoldAll p.mpcs u ∧ ∀ d ∈ ds, FreeDof p s d → u (s, (d : Int)) = rhs d u

/-- The displacement field is zero in all fixed DOFs. -/
def ZeroFixed (bcs : List Bc) (u : Int × Int → K) : Prop := ∀ n c, FixedDof bcs n c → u (n, (c : Int)) = 0

/-- Translation components of a rigid body motion `t + θ × dX`. -/
def rigidMotion (t θ dX : K × K × K) : Nat → K
  | 1 => t.1 + (θ.2.1 * dX.2.2 - θ.2.2 * dX.2.1)
  | 2 => t.2.1 + (θ.2.2 * dX.1 - θ.1 * dX.2.2)
  | 3 => t.2.2 + (θ.1 * dX.2.1 - θ.2.1 * dX.1)
  | _ => 0

end IFEM.Spec
