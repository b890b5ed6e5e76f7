import Verif.Model.Utilities
/-!
# Specification: integer lists
-/
namespace IFEM.Spec

/-- A decimal numeral: sign and digits, most significant first. -/
structure Numeral where
  neg : Bool
  ds  : List Nat

/-- It has at least one digit, and all of them are decimal digits. -/
def Numeral.Valid (n : Numeral) : Prop := n.ds ≠ [] ∧ ∀ d ∈ n.ds, d < 10

/-- The character of a digit. -/
def digitChar (d : Nat) : Char := Char.ofNat ('0'.toNat + d)

/-- The text of a numeral. -/
def Numeral.text (n : Numeral) : List Char := (if n.neg then ['-'] else []) ++ n.ds.map digitChar

/-- The value of a numeral. -/
def Numeral.value (n : Numeral) : Int :=
  let v : Nat := n.ds.foldl (fun v d => 10*v + d) 0
  if n.neg then -(v : Int) else v

/-- An item of a list: a number or a range. -/
inductive Item
  | num (n : Numeral)
  | range (a b : Numeral)

def Item.Valid : Item → Prop
  | .num n => n.Valid
  | .range a b => a.Valid ∧ b.Valid

def Item.text : Item → List Char
  | .num n => n.text
  | .range a b => a.text ++ ':' :: b.text

/-- The integers from `a` to `b` inclusive, but at least `a`. -/
def fromTo (a b : Int) : List Int := (List.range ((b - a).toNat + 1)).map fun i : Nat => a + (i : Int)

def Item.values : Item → List Int
  | .num n => [n.value]
  | .range a b => fromTo a.value b.value

/-- The text of a list of items: the first item, and the others with the separator before. -/
def listText (first : Item) (rest : List (Char × Item)) : List Char :=
  first.text ++ rest.flatMap fun p => p.1 :: p.2.text

/-- All items are valid and separated by blank or comma, where a comma may follow a number only. -/
def ListOk : Item → List (Char × Item) → Prop
  | it, [] => it.Valid
  | it, (sep, it') :: rest => it.Valid ∧ (sep = ' ' ∨ (sep = ',' ∧ ∃ n, it = .num n)) ∧ ListOk it' rest

def listValues (first : Item) (rest : List (Char × Item)) : List Int :=
  first.values ++ rest.flatMap fun p => p.2.values

end IFEM.Spec
