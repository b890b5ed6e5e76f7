/-!
# Reading of XML input files

Models `src/SIM/XMLInputBase.C`: the injection of include files, and the order in which the top-level elements are parsed.

Simplifications: an element has at most one text, in front of its child elements (comments and further text are dropped by the injector as well); the files are a function from names to root elements; `parse` is a parameter; messages are left out.
The traversal by the external library calls `VisitEnter`, then — if that is true — visits the children, then calls `VisitExit` in any case.
-/
namespace IFEM.Xml

/-- An XML element: tag, text, attributes, child elements. -/
inductive Elem where
  | mk (tag : String) (text : Option String) (attrs : List (String × String)) (kids : List Elem)

/-- The tag of an element. -/
def Elem.tag : Elem → String | .mk t _ _ _ => t

/-- The child elements of an element. -/
def Elem.kids : Elem → List Elem | .mk _ _ _ k => k

/-- An element of the new document that is being filled. -/
structure Frame where
  tag : String
  text : Option String
  attrs : List (String × String)
  kids : List Elem

/-- `IncludeInjector` (XMLInputBase.C:41-92): the new document as the open elements, innermost (`currElem`) first, and the finished root elements; the two flags. -/
structure Inj where
  stack : List Frame := []
  roots : List Elem := []
  found : Bool := false
  processed : Bool := false

/-- `InsertEndChild` to `currElem`, or to the document if it is null (XMLInputBase.C:57, 64-67). -/
def Inj.insert (st : Inj) (e : Elem) : Inj :=
  match st.stack with
  | [] => { st with roots := st.roots ++ [e] }
  | f :: fs => { st with stack := { f with kids := f.kids ++ [e] } :: fs }

/-- `currElem = currElem->Parent()->ToElement()` (XMLInputBase.C:82). -/
def Inj.pop (st : Inj) : Inj :=
  match st.stack with
  | [] => st
  | f :: fs => { st with stack := fs }.insert (.mk f.tag f.text f.attrs f.kids)

/-- `IncludeInjector::VisitExit` (XMLInputBase.C:79-85). -/
def Inj.exit (st : Inj) : Inj :=
  if st.processed then { st with processed := false } else { st.pop with processed := false }

mutual
/-- The visit of an element (`IncludeInjector::VisitEnter`, XMLInputBase.C:46-76); `none` if a null pointer is dereferenced. -/
def visit (files : String → Option Elem) (st : Inj) : Elem → Option Inj
  | .mk tag text attrs kids =>
    if tag = "include" then
      match text.bind files with
      | none => some st.exit
      | some r =>
        match st.stack with
        | [] => none
        | _ :: _ =>
          match visitKids files { st.insert r with found := true, processed := true } kids with
          | none => none
          | some st' => some st'.exit
    else
      match visitKids files { st with stack := ⟨tag, text, attrs, []⟩ :: st.stack } kids with
      | none => none
      | some st' => some st'.exit
/-- The visit of the children of an element. -/
def visitKids (files : String → Option Elem) (st : Inj) : List Elem → Option Inj
  | [] => some st
  | e :: es =>
    match visit files st e with
    | none => none
    | some st' => visitKids files st' es
end

/-- The elements that are still open belong to the document as well. -/
def Inj.close : List Frame → Inj → Inj
  | [], st => st
  | _ :: fs, st => close fs st.pop

/-- The root element of the new document. -/
def Inj.root (st : Inj) : Option Elem := (Inj.close st.stack st).roots.head?

/-- The loop over the levels of include files (XMLInputBase.C:113-120), with `n` rounds left. -/
def loadLoop (files : String → Option Elem) : Nat → Elem → Option Elem
  | 0, doc => some doc
  | n+1, doc =>
    match visit files {} doc with
    | none => none
    | some st =>
      if st.found then
        match st.root with
        | none => none
        | some doc' => loadLoop files n doc'
      else some doc

/-- `XMLInputBase::loadFile` (XMLInputBase.C:96-131): the inner result is null if the file is missing or malformed. -/
def loadFile (files : String → Option Elem) (name : String) : Option (Option Elem) :=
  match files name with
  | none => some none
  | some root => if root.tag ≠ "simulation" then some none else (loadLoop files 10 root).map some

/-- `XMLInputBase::handlePriorityTags` (XMLInputBase.C:171-194): the state, the status, and the places of the elements parsed. -/
def handlePriorityTags {σ : Type} (parse : σ → Elem → σ × Bool) (kids : List Elem) : List String → σ → List Nat → σ × Bool × List Nat
  | [], s, parsed => (s, true, parsed)
  | q :: qs, s, parsed =>
    match kids.findIdx? fun e => e.tag = q with
    | none => handlePriorityTags parse kids qs s parsed
    | some i =>
      match kids[i]? with
      | none => (s, false, parsed)
      | some e =>
        if (parse s e).2 then handlePriorityTags parse kids qs (parse s e).1 (parsed ++ [i])
        else ((parse s e).1, false, parsed)

/-- The loop over the other top-level elements (XMLInputBase.C:144-154), from place `i` on. -/
def restLoop {σ : Type} (parse : σ → Elem → σ × Bool) (parsed : List Nat) : Nat → List Elem → σ → σ × Bool
  | _, [], s => (s, true)
  | i, e :: es, s =>
    if i ∈ parsed then restLoop parse parsed (i+1) es s
    else if (parse s e).2 then restLoop parse parsed (i+1) es (parse s e).1
    else ((parse s e).1, false)

/-- `XMLInputBase::readXML` (XMLInputBase.C:134-160) after the loading of the file. -/
def readTags {σ : Type} (parse : σ → Elem → σ × Bool) (prio : List String) (root : Elem) (s : σ) : σ × Bool :=
  let r := handlePriorityTags parse root.kids prio s []
  if r.2.1 then restLoop parse r.2.2 0 root.kids r.1 else (r.1, false)

/-- `XMLInputBase::readXML` (XMLInputBase.C:134-160); `none` if a null pointer is dereferenced. -/
def readXML {σ : Type} (files : String → Option Elem) (parse : σ → Elem → σ × Bool) (prio : List String) (name : String) (s : σ) : Option (σ × Bool) :=
  match loadFile files name with
  | none => none
  | some none => some (s, false)
  | some (some root) => some (readTags parse prio root s)

end IFEM.Xml
