import Verif.Model.Depend
import Verif.Spec.NodeVec
/-!
# Specification of the dependencies between coupled simulators

A history is a list of calls in the order they are made.  The simulators, the names and the vectors can be any.
-/
namespace IFEM.Spec
open IFEM.Dep

variable {α : Type}

/-- The calls: a simulator registers one of its vectors with a name; simulator `s` registers that it depends on the field `name` of
simulator `sim` (in one of three ways); a simulator is told to fill a named field; an owner writes to its vector. -/
inductive Call (α : Type)
  | field (s : Nat) (name : String) (v : Nat)
  | dep (s sim : Nat) (name : String) (nvc : Int)
  | depBasis (s sim : Nat) (name : String) (nvc : Int) (patches : List Patch) (diffBasis component : Int)
  | depMadof (s sim : Nat) (name : String) (nvc : Int) (patches : List Patch) (madof : List Int)
  | fill (s : Nat) (name : String) (values : List α)
  | write (v : Nat) (values : List α)

/-- The vector with which the name has last been registered in simulator `s`. -/
def vecOf (h : List (Call α)) (s : Nat) (name : String) : Option Nat :=
  h.reverse.findSome? fun c => match c with
    | .field s' n v => if s' = s ∧ n = name then some v else none
    | _ => none

/-- The simulator and the patches of the first dependency on the name in simulator `s`. -/
def depOf (h : List (Call α)) (s : Nat) (name : String) : Option (Nat × List Patch) :=
  h.findSome? fun c => match c with
    | .dep s' sim n _ => if s' = s ∧ n = name then some (sim, []) else none
    | .depBasis s' sim n _ ps _ _ => if s' = s ∧ n = name then some (sim, ps) else none
    | .depMadof s' sim n _ ps _ => if s' = s ∧ n = name then some (sim, ps) else none
    | _ => none

/-- All dependencies registered for simulator `s`, with the data given in the calls. -/
def depsOf (h : List (Call α)) (s : Nat) : List Dependency :=
  h.filterMap fun c => match c with
    | .dep s' sim n nvc => if s' = s then some ⟨sim, [], n, nvc, 1, 0, none⟩ else none
    | .depBasis s' sim n nvc ps b comp => if s' = s then some ⟨sim, ps, n, nvc, comp, b, none⟩ else none
    | .depMadof s' sim n nvc ps m => if s' = s then some ⟨sim, ps, n, nvc, 1, 0, some m⟩ else none
    | _ => none

/-- The call writes to vector `v` when it is made after `h`. -/
def WritesTo (h : List (Call α)) (c : Call α) (v : Nat) : Prop :=
  match c with
  | .write u _ => u = v
  | .fill s n _ => vecOf h s n = some v
  | _ => False

/-- After the history `h`, vector `v` has the values `x`: those of the last call writing to it, or the initial ones. -/
inductive HoldsNow (init : Nat → List α) : List (Call α) → Nat → List α → Prop
  | start (v : Nat) : HoldsNow init [] v (init v)
  | write (h : List (Call α)) (v : Nat) (x : List α) : HoldsNow init (h ++ [.write v x]) v x
  | fill (h : List (Call α)) (s : Nat) (n : String) (v : Nat) (x : List α) : vecOf h s n = some v → HoldsNow init (h ++ [.fill s n x]) v x
  | keep (h : List (Call α)) (c : Call α) (v : Nat) (x : List α) : HoldsNow init h v x → ¬ WritesTo h c v → HoldsNow init (h ++ [c]) v x

/-- The number of components per node of a dependent field on a patch with one basis: all fields of the patch when it has a basis of its own,
or when no number is given. -/
def nComp (dp : Dependency) (p : Patch) : Nat := if dp.diffBasis ≠ 0 ∨ dp.components = 0 then p.nf else dp.components.natAbs

/-- The nodes added for Dirichlet conditions in local axes are not looked at in a scalar field, and in a vector field with a negative number of
components. -/
def skipsAdded (dp : Dependency) (p : Patch) : Bool := decide (nComp dp p = 1) || decide (dp.diffBasis = 0 ∧ dp.components < 0)

/-- The global numbers of the nodes of a patch that are not Lagrange multipliers (0 for a node that does not exist); when `skip` is set, a node
is replaced by the one at the same place the map of the patch gives for it, if any. -/
def seenNodes (p : Patch) (skip : Bool) : List Int :=
  (List.range' 1 (match p.lms with | [] => p.mlgn.length | l :: _ => l - 1)).map fun i =>
    (0 :: p.mlgn).getD (if skip then (p.nxMap.lookup i).getD i else i) 0

/-- The positions in the global vector of the values of a dependent field on a patch, node by node. -/
def depDofs (dp : Dependency) (p : Patch) : List Nat :=
  match dp.madof with
  | some madof => patchDofs madof p.mlgn
  | none => (seenNodes p (skipsAdded dp p)).flatMap (uniformDofs (nComp dp p))

/-- The global vector `g` has values for all nodes of the patch. -/
def DepFits (dp : Dependency) (p : Patch) (g : List α) : Prop :=
  match dp.madof with
  | some madof => ∃ n ndof : Nat, DofLayout madof n ndof ∧ (∀ i ∈ p.mlgn, 1 ≤ i ∧ i ≤ (n : Int)) ∧ ndof ≤ g.length
  | none => ∃ n : Nat, (∀ i ∈ seenNodes p (skipsAdded dp p), 1 ≤ i ∧ i ≤ (n : Int)) ∧ nComp dp p * n ≤ g.length

/-- The patch on which a dependent field is taken: that of the dependency, or that of the simulator if the dependency has no such patch. -/
def depPatch (dp : Dependency) (model : List Patch) (pindx : Nat) : Option Patch :=
  match dp.patches[pindx]? with
  | some p => some p
  | none => model[pindx]?

end IFEM.Spec
