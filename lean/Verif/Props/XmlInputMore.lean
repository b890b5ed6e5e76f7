import Verif.Props.XmlInput
/-!
# C87: missing include files, and examples
-/
namespace IFEM.Xml
open Spec

mutual
/-- All include files in an element are missing. -/
def Missing (files : String → Option Elem) : Elem → Prop
  | .mk tag text _ kids => if tag = "include" then text.bind files = none else MissingAll files kids
/-- All include files in several elements are missing. -/
def MissingAll (files : String → Option Elem) : List Elem → Prop
  | [] => True
  | e :: es => Missing files e ∧ MissingAll files es
end

theorem insert_found (st : Inj) (e : Elem) : (st.insert e).found = st.found := by
  unfold Inj.insert; split <;> rfl

theorem exit_found (st : Inj) : st.exit.found = st.found := by
  unfold Inj.exit
  split
  · rfl
  · unfold Inj.pop
    split
    · rfl
    · exact insert_found _ _

mutual
theorem visit_missing (files : String → Option Elem) : ∀ (e : Elem) (st : Inj), Missing files e → ∃ st', visit files st e = some st' ∧ st'.found = st.found
  | .mk tag text attrs kids, st, h => by
    rw [Missing] at h
    rw [visit.eq_def]
    dsimp only
    by_cases hi : tag = "include"
    · rw [if_pos hi] at h ⊢
      rw [h]
      exact ⟨_, rfl, exit_found st⟩
    · rw [if_neg hi] at h ⊢
      obtain ⟨st', e1, e2⟩ := visitKids_missing files kids { st with stack := ⟨tag, text, attrs, []⟩ :: st.stack } h
      rw [e1]
      exact ⟨_, rfl, (exit_found st').trans e2⟩
theorem visitKids_missing (files : String → Option Elem) : ∀ (es : List Elem) (st : Inj), MissingAll files es → ∃ st', visitKids files st es = some st' ∧ st'.found = st.found
  | [], st, _ => ⟨st, by rw [visitKids], rfl⟩
  | e :: es, st, h => by
    rw [MissingAll] at h
    obtain ⟨st1, a1, a2⟩ := visit_missing files e st h.1
    obtain ⟨st2, b1, b2⟩ := visitKids_missing files es st1 h.2
    exact ⟨st2, by rw [visitKids, a1]; exact b1, b2.trans a2⟩
end

/-- C87: if all include files are missing, the file is read with the include tags in it, and without an error. -/
theorem C87_missing (files : String → Option Elem) (name : String) (root : Elem) (hf : files name = some root) (ht : root.tag = "simulation") (h : Missing files root) :
    loadFile files name = some (some root) := by
  obtain ⟨st, e1, e2⟩ := visit_missing files root {} h
  rw [loadFile, hf]
  dsimp only
  rw [if_neg (by simp [ht]), loadLoop, e1]
  dsimp only
  rw [if_neg (by rw [e2]; simp)]
  rfl

/-! ## Examples -/

/-- An element without text and attributes. -/
def el (tag : String) (kids : List Elem := []) : Elem := .mk tag none [] kids

/-- An include tag. -/
def inc (file : String) : Elem := .mk "include" (some file) [] []

/-- Three files: the second one is included by the first one, and includes the third. -/
def exFiles : String → Option Elem
  | "a" => some (el "simulation" [el "boundaryconditions", inc "b", el "discretization", el "geometry"])
  | "b" => some (el "geometry" [inc "c", el "topology"])
  | "c" => some (el "raisorder")
  | "d" => some (el "simulation" [el "geometry" [inc "none", el "topology"], inc "b", el "console"])
  | "e" => some (el "simulation" [inc "none", el "geometry", inc "b"])
  | "f" => some (el "simulation" [inc "f"])
  | _ => none

/-- The document with all files in place. -/
def exDoc : Elem := el "simulation" [el "boundaryconditions", el "geometry" [el "raisorder", el "topology"], el "discretization", el "geometry"]

example : Expands exFiles 2 (el "simulation" [el "boundaryconditions", inc "b", el "discretization", el "geometry"]) exDoc := by
  refine .elem (by decide) (.cons (.elem (by decide) .nil) (.cons (.file (r := el "geometry" [inc "c", el "topology"]) rfl ?_) (.cons (.elem (by decide) .nil) (.cons (.elem (by decide) .nil) .nil))))
  exact .elem (by decide) (.cons (.file (r := el "raisorder") rfl (.elem (by decide) .nil)) (.cons (.elem (by decide) .nil) .nil))

example : loadFile exFiles "a" = some (some exDoc) := by
  refine C87_include exFiles "a" _ exDoc rfl rfl ?_
  refine .elem (by decide) (.cons (.elem (by decide) .nil) (.cons (.file (r := el "geometry" [inc "c", el "topology"]) rfl ?_) (.cons (.elem (by decide) .nil) (.cons (.elem (by decide) .nil) .nil))))
  exact .elem (by decide) (.cons (.file (r := el "raisorder") rfl (.elem (by decide) .nil)) (.cons (.elem (by decide) .nil) .nil))

/-- A parser that keeps the tags, and fails on a tag "topology". -/
def keep (s : List String) (e : Elem) : List String × Bool := (s ++ [e.tag], e.tag ≠ "topology")

/-- The order of parsing: the included geometry comes before the other elements, the second one in its place. -/
example : readTags keep ["console", "discretization", "geometry"] exDoc [] = (["discretization", "geometry", "boundaryconditions", "geometry"], true) := by decide +kernel

/-- A failure stops the parsing. -/
example : readTags keep ["console", "geometry"] (el "simulation" [el "a", el "topology", el "b", el "geometry"]) [] = (["geometry", "a", "topology"], false) := by decide +kernel

/-- A missing include file in the geometry: the elements behind it are moved out of the geometry, the file included behind that is put in the wrong place. -/
example : visit exFiles {} (el "simulation" [el "geometry" [inc "none", el "topology"], inc "b", el "console"]) = none := by
  simp [visit, visitKids, el, inc, exFiles, Inj.exit, Inj.pop, Inj.insert]

/-- A missing include file at the top level followed by one that exists: a null pointer is dereferenced. -/
example : loadFile exFiles "e" = none := by
  simp [loadFile, loadLoop, exFiles, visit, visitKids, el, inc, Elem.tag, Inj.exit, Inj.pop, Inj.insert]

/-- A missing file nested two levels deep: what follows it is moved one level up. -/
example : (visit exFiles {} (el "simulation" [el "geometry" [inc "b", el "patches" [inc "none", el "patch"], el "topology"]])).bind Inj.root =
    some (el "simulation" [el "geometry" [el "geometry" [inc "c", el "topology"], el "patches", el "patch"], el "topology"]) := by
  simp [visit, visitKids, el, inc, exFiles, Inj.exit, Inj.pop, Inj.insert, Inj.root, Inj.close]

end IFEM.Xml
