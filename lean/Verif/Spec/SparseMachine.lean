import Verif.Spec.Sparse
import Mathlib.Algebra.Ring.Defs
/-!
# Specification: a sparse matrix as a partial function with an edit mode

`SpAbs` is the abstract matrix a user of `SparseMatrix` has in mind: dimensions, an edit mode, the set of existing
entries and their values.  `SpAbs.exec` says what every operation does to it; no arrays, no compression.
-/
namespace IFEM
open Sparse
variable {R : Type}

/-- User operations on a sparse matrix. -/
inductive SpOp (R : Type)
  | add (r c : Nat) (v : R)        -- `A(r,c) += v`
  | set (r c : Nat) (v : R)        -- `A(r,c) = v`
  | lock (on : Bool)               -- `A.lockPattern(on)`
  | compress                       -- `A.compressPattern()`
  | scale (alpha : R)              -- `A.mult(alpha)`
  | clear                          -- `A.init()`
  | resize (r c : Nat) (force : Bool) -- `A.resize(r,c,force)`
  | redim (r c : Nat)              -- `A.redim(r,c)`

/-- Abstract sparse matrix. -/
structure SpAbs (R : Type) where
  nrow : Nat
  ncol : Nat
  mode : Editable
  has  : Nat → Nat → Prop
  val  : Nat → Nat → R

namespace SpAbs
open Classical in
/-- `A(r,c) = f(A(r,c))`: effective if the indices are in range and the entry exists or may be created. -/
noncomputable def update (S : SpAbs R) (r c : Nat) (f : R → R) : SpAbs R :=
  if (1 ≤ r ∧ r ≤ S.nrow ∧ 1 ≤ c ∧ c ≤ S.ncol) ∧ (S.mode = .pattern ∨ S.has r c) then
    { S with
      has := fun i j => (i = r ∧ j = c) ∨ S.has i j
      val := fun i j => if i = r ∧ j = c then f (S.val r c) else S.val i j }
  else S

open Classical in
/-- Effect of an operation; `compressing` tells whether the matrix has a compressed format at all. -/
noncomputable def exec [CommRing R] (compressing : Bool) (S : SpAbs R) : SpOp R → SpAbs R
  | .add r c v => S.update r c (· + v)
  | .set r c v => S.update r c (fun _ => v)
  | .lock on => if S.mode = .locked then S else { S with mode := if on then .values else .pattern }
  | .compress => if compressing then { S with mode := .locked } else S
  | .scale a => { S with val := fun i j => S.val i j * a }
  | .clear => -- a matrix without columns becomes square
    if S.ncol = 0 then ⟨S.nrow, S.nrow, if S.nrow = 0 then S.mode else .pattern, fun i j => S.nrow = 0 ∧ S.has i j, fun _ _ => 0⟩
    else { S with val := fun _ _ => 0 }
  | .resize r c force =>
    if r = S.nrow ∧ (if c = 0 then r else c) = S.ncol ∧ force = false then { S with val := fun _ _ => 0 }
    else ⟨r, if c = 0 then r else c, .pattern, fun _ _ => False, fun _ _ => 0⟩
  | .redim r c =>
    if S.mode = .pattern then
      { S with
        nrow := r
        ncol := if c = 0 then r else c
        has := fun i j => S.has i j ∧ i ≤ r ∧ j ≤ if c = 0 then r else c
        val := fun i j => if i ≤ r ∧ j ≤ (if c = 0 then r else c) then S.val i j else 0 }
    else S

/-- The empty matrix. -/
def empty [Zero R] (r c : Nat) : SpAbs R := ⟨r, c, .pattern, fun _ _ => False, fun _ _ => 0⟩

end SpAbs

/-- The same operation on the modelled code.  A failing operation prints an error and changes nothing. -/
def SpOp.run [CommRing R] (M : Sparse R) : SpOp R → Sparse R
  | .add r c v => (M.addAt? r c v).getD M
  | .set r c v => (M.setAt? r c v).getD M
  | .lock on => M.lockPattern on
  | .compress => M.compressPattern.getD M
  | .scale a => M.mult a
  | .clear => M.init
  | .resize r c force => M.resize r c force
  | .redim r c => (M.redim r c).getD M

end IFEM
