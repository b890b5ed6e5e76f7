/-!
# Checked array access

C arrays of the modelled code are lists.  Every access is checked: an access outside the
array yields `none`, so a model function returning `some _` never left its arrays.
-/
namespace IFEM

/-- Read `a[i]` of a 0-based C array; `none` when the index is outside the array. -/
def at0? {α : Type _} (a : List α) (i : Int) : Option α :=
  if 0 ≤ i then a[i.toNat]? else none

/-- Read `a[i-1]`, i.e. a 1-based access `a(i)`; `none` when the index is outside the array. -/
def at1? {α : Type _} (a : List α) (i : Int) : Option α := at0? a (i-1)

/-- Write `a[i] = x` of a 0-based C array; `none` when the index is outside the array. -/
def set0? {α : Type _} (a : List α) (i : Int) (x : α) : Option (List α) :=
  if 0 ≤ i ∧ i.toNat < a.length then some (a.set i.toNat x) else none

/-- Write `a[i-1] = x`. -/
def set1? {α : Type _} (a : List α) (i : Int) (x : α) : Option (List α) := set0? a (i-1) x

/-- `a[i] += x` on a 0-based C array; `none` when the index is outside the array. -/
def add0? {R : Type} [Add R] (a : List R) (i : Int) (x : R) : Option (List R) :=
  match at0? a i with
  | some y => some (a.set i.toNat (y + x))
  | none => none

/-- `a[i-1] += x`. -/
def add1? {R : Type} [Add R] (a : List R) (i : Int) (x : R) : Option (List R) := add0? a (i-1) x

/-- The values taken by the loop variable of `for (int i = a; i < b; i++)`. -/
def intRange (a b : Int) : List Int := (List.range (b-a).toNat).map (fun k : Nat => a + (k : Int))

/-- A slice `a[i..j)` given by two pointers into a 0-based array (as in
`v.insert(v.end(), a+i, a+j)`); `none` when it leaves the array. -/
def slice0? {α : Type _} (a : List α) (i j : Int) : Option (List α) :=
  if 0 ≤ i ∧ i ≤ j ∧ j ≤ a.length then some ((a.drop i.toNat).take (j-i).toNat) else none

end IFEM
