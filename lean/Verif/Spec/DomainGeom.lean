import Mathlib.Data.List.Basic

/-!
# Specification: division of a structured patch into subdomains
-/
namespace IFEM.DomGeom.Spec

/-- The number of elements of a part in one direction: `nel/g` rounded down, plus one. -/
def width (nel g : Nat) : Nat := nel/g + 1

/-- The first element of part number `a` in one direction: each part starts `overlap` elements before the end of the previous one. -/
def first (nel g overlap a : Nat) : Nat := a*(width nel g - overlap)

/-- The element `x` (in one direction) belongs to part number `a`; the last part extends to the end. -/
def InPart (nel g overlap a x : Nat) : Prop := first nel g overlap a ≤ x ∧ x < nel ∧ (a+1 < g → x < first nel g overlap a + width nel g)

/-- Requirement: the overlap does not exceed the width of the parts, and the last part does not start behind the end. -/
def Fits (nel g overlap : Nat) : Prop := 0 < g ∧ overlap ≤ width nel g ∧ (g-1)*(width nel g - overlap) ≤ nel

/-- Number of the element at the given position. -/
def elm (nel1 nel2 i j k : Nat) : Nat := (k*nel2 + j)*nel1 + i

end IFEM.DomGeom.Spec
