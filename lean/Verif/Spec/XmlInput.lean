import Verif.Model.XmlInput
/-!
# Include files and the order of parsing
-/
namespace IFEM.Xml.Spec

mutual
/-- The second element is the first one with all include tags replaced by the root elements of the files, these being expanded as well, with at most `d` files within each other. -/
inductive Expands (files : String → Option Elem) : Nat → Elem → Elem → Prop
  | elem {d tag text attrs kids kids'} : tag ≠ "include" → ExpandsAll files d kids kids' → Expands files d (.mk tag text attrs kids) (.mk tag text attrs kids')
  | file {d f attrs r e} : files f = some r → Expands files d r e → Expands files (d+1) (.mk "include" (some f) attrs []) e
/-- The same for a list of elements. -/
inductive ExpandsAll (files : String → Option Elem) : Nat → List Elem → List Elem → Prop
  | nil {d} : ExpandsAll files d [] []
  | cons {d e e' es es'} : Expands files d e e' → ExpandsAll files d es es' → ExpandsAll files d (e :: es) (e' :: es')
end

mutual
/-- There is an include tag in an element. -/
def HasInclude : Elem → Prop
  | .mk tag _ _ kids => tag = "include" ∨ AnyInclude kids
/-- There is an include tag in one of the elements. -/
def AnyInclude : List Elem → Prop
  | [] => False
  | e :: es => HasInclude e ∨ AnyInclude es
end

/-- Elements are parsed one after the other until one fails. -/
def parseAll {σ : Type} (parse : σ → Elem → σ × Bool) : List Elem → σ → σ × Bool
  | [], s => (s, true)
  | e :: es, s => if (parse s e).2 = true then parseAll parse es (parse s e).1 else ((parse s e).1, false)

/-- The rank of a top-level element: the first element with a prioritised tag has the place of the tag in the list, all others have the same, last rank. -/
def rank (prio : List String) (kids : List Elem) (i : Nat) : Nat :=
  match kids[i]? with
  | none => prio.length
  | some e => if (kids.take i).all fun e' => e'.tag ≠ e.tag then prio.findIdx fun q => q = e.tag else prio.length

end IFEM.Xml.Spec
