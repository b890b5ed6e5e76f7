import Mathlib.Data.List.Nodup
import Verif.Model.ThreadGroups
/-!
# Specification: threading groups

Elements of a structured patch with `n1 × n2 (× n3)` knot spans are numbered from 0 with the first direction running fastest.
-/
namespace IFEM.Spec
open IFEM.Threads

/-- All elements on all threads of both groups. -/
def groupElms (G : Groups) : List Int := G.tg0.flatten ++ G.tg1.flatten

/-- The groups contain every element satisfying `real`, no element twice, and only elements `0..nel-1`. -/
structure IsPartition (G : Groups) (nel : Nat) (real : Int → Prop) : Prop where
  nodup : (groupElms G).Nodup
  range : ∀ e ∈ groupElms G, 0 ≤ e ∧ e < nel
  cover : ∀ e, real e → e ∈ groupElms G

/-- Elements `e`, `e'` may be processed at the same time: they are on different threads of the same group. -/
def Concurrent (G : Groups) (e e' : Int) : Prop :=
  ∃ grp, (grp = G.tg0 ∨ grp = G.tg1) ∧ ∃ t t' : Nat, t ≠ t' ∧ (∃ l, grp[t]? = some l ∧ e ∈ l) ∧ (∃ l, grp[t']? = some l ∧ e' ∈ l)

/-- Element `e` of an `n1 × n2` grid lies at `(i,j)`. -/
def At2 (n1 n2 : Nat) (e : Int) (i j : Nat) : Prop := i < n1 ∧ j < n2 ∧ e = ((i + n1*j : Nat) : Int)

/-- Element `e` of an `n1 × n2 × n3` grid lies at `(i,j,k)`. -/
def At3 (n1 n2 n3 : Nat) (e : Int) (i j k : Nat) : Prop := i < n1 ∧ j < n2 ∧ k < n3 ∧ e = ((i + n1*(j + n2*k) : Nat) : Int)

/-- The element exists and has non-zero size in both directions. -/
def RealElm2 (el1 el2 : List Bool) (e : Int) : Prop :=
  ∃ i j, At2 el1.length el2.length e i j ∧ el1[i]? = some true ∧ el2[j]? = some true

/-- The element exists and has non-zero size in all three directions. -/
def RealElm3 (el1 el2 el3 : List Bool) (e : Int) : Prop :=
  ∃ i j k, At3 el1.length el2.length el3.length e i j k ∧ el1[i]? = some true ∧ el2[j]? = some true ∧ el3[k]? = some true

/-- One direction of a patch: `n` knot spans, the basis functions non-zero in span `i` are `stride*i, …, stride*i+degree`, and functions whose numbers differ by
a multiple of `period` are the same function (periodic direction; `period` exceeds all numbers otherwise). -/
structure Dir where
  n : Nat
  stride : Nat
  degree : Nat
  period : Nat

/-- A spline direction with `n` knot spans: the functions of consecutive spans are shifted by one; there are `n + degree` functions,
the last `closed ≤ degree` of which are identified with the first ones in a periodic direction. -/
def splineDir (n degree closed : Nat) : Dir := ⟨n, 1, degree, n + degree - closed⟩

/-- A Lagrange direction: consecutive elements share one node; the last node is identified with the first one if `closed = 1`. -/
def lagDir (n degree closed : Nat) : Dir := ⟨n, degree, degree, n*degree + 1 - closed⟩

/-- Spans `i` and `i'` have a common basis function. -/
def Dir.share (d : Dir) (i i' : Nat) : Prop :=
  ∃ a a', d.stride*i ≤ a ∧ a ≤ d.stride*i + d.degree ∧ d.stride*i' ≤ a' ∧ a' ≤ d.stride*i' + d.degree ∧ a % d.period = a' % d.period

/-- Elements `e` and `e'` have a common (tensor product) basis function. -/
def Share2 (d1 d2 : Dir) (e e' : Int) : Prop :=
  ∃ i j i' j', At2 d1.n d2.n e i j ∧ At2 d1.n d2.n e' i' j' ∧ d1.share i i' ∧ d2.share j j'

/-- Elements `e` and `e'` have a common (tensor product) basis function. -/
def Share3 (d1 d2 d3 : Dir) (e e' : Int) : Prop :=
  ∃ i j k i' j' k', At3 d1.n d2.n d3.n e i j k ∧ At3 d1.n d2.n d3.n e' i' j' k' ∧ d1.share i i' ∧ d2.share j j' ∧ d3.share k k'

end IFEM.Spec

namespace IFEM.Spec
open IFEM.Threads

/-- Position `(i,j,k)` of an `n1 × n2 × n3` grid is on face 1 (`i` lowest), 2 (`i` highest), 3, 4 (`j`), 5, 6 (`k`). -/
def OnFace (n1 n2 n3 face i j k : Nat) : Prop :=
  match face with
  | 1 => i = 0
  | 2 => i + 1 = n1
  | 3 => j = 0
  | 4 => j + 1 = n2
  | 5 => k = 0
  | 6 => k + 1 = n3
  | _ => False

/-- The element is on the face, and its face has non-zero size. -/
def RealFace (el1 el2 el3 : List Bool) (face : Nat) (e : Int) : Prop :=
  ∃ i j k, At3 el1.length el2.length el3.length e i j k ∧ OnFace el1.length el2.length el3.length face i j k ∧
    (2 < face → el1[i]? = some true) ∧ (face < 3 ∨ 4 < face → el2[j]? = some true) ∧ (face < 5 → el3[k]? = some true)

end IFEM.Spec
