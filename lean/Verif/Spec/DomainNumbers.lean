import Verif.Model.DomainNumbers
import Mathlib.Logic.Relation

/-!
# Specification of the global equation numbers

Which equations of different processes are the same equation is said by the connections: the nodes on the boundary of the slave patch are the nodes on the boundary of the
master patch, taken in the given order.  The multipliers of a process are those of the previous process.
-/
namespace IFEM.DomNum

/-- An equation: the process, and its number on this process (from 1). -/
abbrev Eqn := Nat × Int

/-- The unknowns (node, component) of the two sides of one basis of a connection that are the same: node `i*thick+t` of the slave is node `order[i]*thick+t` of the master. -/
def partLinks (thick : Nat) (order : List Nat) (s m : Part) : List ((Nat × Nat) × (Nat × Nat)) :=
  (List.range order.length).flatMap fun i => (List.range thick).flatMap fun t => (List.range s.ncmp).map fun c =>
    ((s.nodes.getD (i*thick+t) 0, c+1), (m.nodes.getD (order.getD i 0*thick+t) 0, c+1))

/-- The equations of the two sides of a connection that are the same, except those that are constrained. -/
def connLinks (procs : Nat → Proc) (c : Conn) : List (Int × Eqn) :=
  ((c.orders.zip (c.sParts.zip c.mParts)).flatMap fun x => partLinks c.thick x.1 x.2.1 x.2.2).filterMap fun y =>
    if (procs c.slave).getEq y.1.1 y.1.2 > 0 then some ((procs c.slave).getEq y.1.1 y.1.2, (c.master, (procs c.master).getEq y.2.1 y.2.2)) else none

/-- The multipliers of the process `p` and those of the process before. -/
def lmLinks (procs : Nat → Proc) (p : Nat) : List (Int × Eqn) :=
  if p = 0 then [] else ((procs p).lms.zip (procs (p-1)).lms).map fun x => ((procs p).getEq x.1 1, (p-1, (procs (p-1)).getEq x.2 1))

/-- All pairs of an equation of the process `p` and an equation of another process that is the same. -/
def links (procs : Nat → Proc) (conns : List Conn) (p : Nat) : List (Int × Eqn) :=
  lmLinks procs p ++ (conns.filter fun c => c.slave = p).flatMap (connLinks procs)

/-- The two equations are directly linked. -/
def Linked (procs : Nat → Proc) (conns : List Conn) (a b : Eqn) : Prop := (a.2, b) ∈ links procs conns a.1

/-- Directly linked, by the connections of the processes below `r` only. -/
def LinkedBelow (procs : Nat → Proc) (conns : List Conn) (r : Nat) (a b : Eqn) : Prop := a.1 < r ∧ Linked procs conns a b

/-- The equation exists. -/
def IsEqn (nproc : Nat) (procs : Nat → Proc) (a : Eqn) : Prop := a.1 < nproc ∧ 1 ≤ a.2 ∧ a.2 ≤ (procs a.1).neq

/-- Requirements on the input of the numbering. -/
structure Valid (nproc : Nat) (procs : Nat → Proc) (conns : List Conn) : Prop where
  /-- equation numbers are those of the process -/
  eq_le : ∀ p n c, (procs p).getEq n c ≤ (procs p).neq
  /-- all processes have the same number of multipliers, and they are not constrained -/
  lm_len : ∀ p, p < nproc → (procs p).lms.length = (procs 0).lms.length
  lm_pos : ∀ p, ∀ n ∈ (procs p).lms, 0 < (procs p).getEq n 1
  /-- the connections are traversed in the order of the set -/
  sorted : conns.Pairwise slaveOrder
  /-- the master patch is owned by a process with a lower rank -/
  owner : ∀ c ∈ conns, c.master < c.slave ∧ c.slave < nproc
  /-- both sides have the same bases, with the same number of components and nodes, and all nodes are visited -/
  parts : ∀ c ∈ conns, c.sParts.length = c.orders.length ∧ c.mParts.length = c.orders.length
  ncmp : ∀ c ∈ conns, c.mParts.map (·.ncmp) = c.sParts.map (·.ncmp)
  nodes : ∀ c ∈ conns, (∀ x ∈ c.orders.zip c.sParts, x.2.nodes.length = x.1.length*c.thick) ∧
    (∀ x ∈ c.orders.zip c.mParts, x.2.nodes.length = x.1.length*c.thick)
  order : ∀ c ∈ conns, ∀ o ∈ c.orders, ∀ i ∈ o, i < o.length
  /-- a component is constrained on both sides or on none of them -/
  fixed : ∀ c ∈ conns, ∀ x ∈ c.orders.zip (c.sParts.zip c.mParts), ∀ y ∈ partLinks c.thick x.1 x.2.1 x.2.2,
    (0 < (procs c.slave).getEq y.1.1 y.1.2 ↔ 0 < (procs c.master).getEq y.2.1 y.2.2)

/-- The connections do not contradict each other: if an equation is linked to two equations of other processes, these are the same also without the links of this process. -/
def Consistent (nproc : Nat) (procs : Nat → Proc) (conns : List Conn) : Prop :=
  ∀ a b b' : Eqn, a.1 < nproc → Linked procs conns a b → Linked procs conns a b' → Relation.EqvGen (LinkedBelow procs conns a.1) b b'

/-- The global number of an equation. -/
def number (out : Nat → Res) (a : Eqn) : Int := (out a.1).mlgeq.getD (a.2-1).toNat 0

/-- The equation is not linked to an equation of a process before: the process owns it. -/
def Owned (procs : Nat → Proc) (conns : List Conn) (a : Eqn) : Prop := ∀ b, ¬ Linked procs conns a b

/-- What the numbers of all processes have to be like. -/
structure Numbered (nproc : Nat) (procs : Nat → Proc) (conns : List Conn) (out : Nat → Res) : Prop where
  /-- every equation has a number -/
  length : ∀ p < nproc, (out p).mlgeq.length = (procs p).neq
  /-- the ranges of the processes follow each other without gaps, starting at 1 -/
  first : (out 0).minEq = 1
  next : ∀ p, p + 1 < nproc → (out (p+1)).minEq = (out p).maxEq + 1
  range : ∀ p < nproc, (out p).minEq ≤ (out p).maxEq + 1
  /-- the equations a process owns have the numbers in its range, in the order they have on the process -/
  owned : ∀ a, IsEqn nproc procs a → Owned procs conns a → (out a.1).minEq ≤ number out a ∧ number out a ≤ (out a.1).maxEq
  onto : ∀ p < nproc, ∀ g, (out p).minEq ≤ g → g ≤ (out p).maxEq → ∃ i, IsEqn nproc procs (p, i) ∧ Owned procs conns (p, i) ∧ number out (p, i) = g
  order : ∀ p i j, IsEqn nproc procs (p, i) → IsEqn nproc procs (p, j) → Owned procs conns (p, i) → Owned procs conns (p, j) → i < j → number out (p, i) < number out (p, j)
  /-- the other equations have the number of an equation they are linked to -/
  linked : ∀ a, IsEqn nproc procs a → ¬ Owned procs conns a → ∃ b, Linked procs conns a b ∧ number out a = number out b

/-- All processes are done, with these results. -/
def finished (nproc : Nat) (out : Nat → Res) : Nat → Mpi.Prog (Option Res) := fun r => if r < nproc then .done (some (out r)) else .done none

end IFEM.DomNum
