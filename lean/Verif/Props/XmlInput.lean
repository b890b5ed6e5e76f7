import Verif.Lemmas.XmlInput
import Mathlib.Data.List.Nodup
import Mathlib.Data.List.Range
import Mathlib.Data.List.Perm.Basic
/-!
# C87: reading of XML input files
-/
namespace IFEM.Xml
open Spec

theorem loadLoop_spec (files : String → Option Elem) (n : Nat) (e e' : Elem) (d : Nat) (ht : e.tag ≠ "include") (h : Expands files d e e') :
    ∃ r, loadLoop files n e = some r ∧ (d ≤ n → r = e') ∧ (incE r = false → r = e' ∧ Expands files n e e') := by
  induction n generalizing e d with
  | zero =>
    refine ⟨e, rfl, fun hd => ?_, fun hr => ⟨(expands_none files d e e' h hr).symm, ?_⟩⟩
    · have hd0 : d = 0 := by omega
      subst hd0
      have key : incE e = false := zero_free e e' h
      exact (expands_none files 0 e e' h key).symm
    · have := expands_none files d e e' h hr
      rw [this]
      exact expands_refl files 0 e hr
  | succ n ih =>
    obtain ⟨e1, h1, h2, h3⟩ := expands_step files d e e' h
    rw [loadLoop_step files n e e1 ht h1]
    by_cases hi : incE e = true
    · rw [if_pos hi]
      obtain ⟨r, r1, r2, r3⟩ := ih e1 (d-1) (by rw [h3 ht]; exact ht) h2
      refine ⟨r, r1, fun hd => r2 (by omega), fun hr => ?_⟩
      obtain ⟨s1, s2⟩ := r3 hr
      exact ⟨s1, expands_back files n e e1 e' h1 s2⟩
    · rw [if_neg hi]
      have hi' : incE e = false := by simpa using hi
      have he := expands_none files d e e' h hi'
      exact ⟨e, rfl, fun _ => he.symm, fun _ => ⟨he.symm, by rw [he]; exact expands_refl files _ e hi'⟩⟩
where
  zero_free : ∀ (e e' : Elem), Expands files 0 e e' → incE e = false
    | .mk tag text attrs kids, e', h => by
      cases h with
      | elem ht hk =>
        rw [incE, Bool.or_eq_false_iff]
        exact ⟨by simpa using ht, zero_freeL kids _ hk⟩
  zero_freeL : ∀ (es es' : List Elem), ExpandsAll files 0 es es' → incL es = false
    | [], _, _ => rfl
    | e :: es, _, h => by
      cases h with
      | cons h1 h2 =>
        rw [incL, Bool.or_eq_false_iff]
        exact ⟨zero_free e _ h1, zero_freeL es _ h2⟩

/-- C87: a file whose include files all exist, with at most ten of them within each other, is read with all of them in place. -/
theorem C87_include (files : String → Option Elem) (name : String) (root e : Elem) (hf : files name = some root) (ht : root.tag = "simulation") (h : Expands files 10 root e) :
    loadFile files name = some (some e) := by
  obtain ⟨r, r1, r2, _⟩ := loadLoop_spec files 10 root e 10 (by rw [ht]; decide) h
  rw [loadFile, hf]
  dsimp only
  rw [if_neg (by simp [ht]), r1, r2 (le_refl _)]
  rfl

/-- C87: with more files within each other, include tags are left in the result; the result is free of them exactly if ten levels are enough. -/
theorem C87_include_iff (files : String → Option Elem) (name : String) (root e : Elem) (d : Nat) (hf : files name = some root) (ht : root.tag = "simulation") (h : Expands files d root e) :
    ∃ r, loadFile files name = some (some r) ∧ (¬ HasInclude r ↔ Expands files 10 root e) ∧ (¬ HasInclude r → r = e) := by
  obtain ⟨r, r1, r2, r3⟩ := loadLoop_spec files 10 root e d (by rw [ht]; decide) h
  have hb : ¬ HasInclude r ↔ incE r = false := by rw [← incE_iff]; simp
  refine ⟨r, ?_, ?_, fun hn => (r3 (hb.mp hn)).1⟩
  · rw [loadFile, hf]
    dsimp only
    rw [if_neg (by simp [ht]), r1]
    rfl
  · rw [hb]
    refine ⟨fun hn => (r3 hn).2, fun h10 => ?_⟩
    obtain ⟨r', s1, s2, _⟩ := loadLoop_spec files 10 root e 10 (by rw [ht]; decide) h10
    rw [r1, Option.some.injEq] at s1
    rw [s1, s2 (le_refl _)]
    exact expands_free files 10 root e h10

/-- C87: a missing file, and one whose root element is not `simulation`, is refused without parsing anything. -/
theorem C87_refused {σ : Type} (files : String → Option Elem) (parse : σ → Elem → σ × Bool) (prio : List String) (name : String) (s : σ) (h : ∀ root, files name = some root → root.tag ≠ "simulation") :
    readXML files parse prio name s = some (s, false) := by
  unfold readXML loadFile
  cases hf : files name with
  | none => rfl
  | some root => dsimp only; rw [if_pos (h root hf)]

/-! ## The order of parsing -/

section
variable {σ : Type} (parse : σ → Elem → σ × Bool)

theorem parseAll_append (a b : List Elem) (s : σ) : parseAll parse (a ++ b) s = if (parseAll parse a s).2 = true then parseAll parse b (parseAll parse a s).1 else parseAll parse a s := by
  induction a generalizing s with
  | nil => simp [parseAll]
  | cons e es ih =>
    rw [List.cons_append, parseAll, parseAll]
    by_cases h : (parse s e).2 = true
    · rw [if_pos h, if_pos h, ih]
    · rw [if_neg h, if_neg h]; simp

/-- The places of the first elements with the prioritised tags. -/
def prioPlaces (prio : List String) (kids : List Elem) : List Nat := prio.filterMap fun q => kids.findIdx? fun e => e.tag = q

/-- The places of the other elements. -/
def restPlaces (prio : List String) (kids : List Elem) : List Nat := (List.range kids.length).filter fun i => i ∉ prioPlaces prio kids

theorem places_get (kids : List Elem) (is : List Nat) (h : ∀ i ∈ is, i < kids.length) : (is.filterMap fun i => kids[i]?).length = is.length := by
  induction is with
  | nil => rfl
  | cons i is ih =>
    have hi := h i (by simp)
    rw [List.filterMap_cons, List.getElem?_eq_getElem hi]
    simp [ih (fun j hj => h j (by simp [hj]))]

theorem prio_spec (kids : List Elem) (prio : List String) (s : σ) (parsed : List Nat) :
    (handlePriorityTags parse kids prio s parsed).1 = (parseAll parse ((prioPlaces prio kids).filterMap fun i => kids[i]?) s).1 ∧
    (handlePriorityTags parse kids prio s parsed).2.1 = (parseAll parse ((prioPlaces prio kids).filterMap fun i => kids[i]?) s).2 ∧
    ((handlePriorityTags parse kids prio s parsed).2.1 = true → (handlePriorityTags parse kids prio s parsed).2.2 = parsed ++ prioPlaces prio kids) := by
  induction prio generalizing s parsed with
  | nil => simp [handlePriorityTags, prioPlaces, parseAll]
  | cons q qs ih =>
    rw [handlePriorityTags]
    have hp : prioPlaces (q :: qs) kids = match kids.findIdx? fun e => e.tag = q with | none => prioPlaces qs kids | some i => i :: prioPlaces qs kids := by
      unfold prioPlaces
      rw [List.filterMap_cons]
      cases kids.findIdx? fun e => e.tag = q <;> rfl
    cases hq : kids.findIdx? fun e => e.tag = q with
    | none =>
      rw [hq] at hp
      rw [hp]
      exact ih s parsed
    | some i =>
      rw [hq] at hp
      dsimp only at hp ⊢
      rw [hp]
      obtain ⟨hi, _⟩ := List.findIdx?_eq_some_iff_getElem.mp hq
      rw [List.filterMap_cons, List.getElem?_eq_getElem hi]
      dsimp only
      rw [parseAll]
      by_cases h : (parse s kids[i]).2 = true
      · rw [if_pos h, if_pos h]
        obtain ⟨i1, i2, i3⟩ := ih (parse s kids[i]).1 (parsed ++ [i])
        refine ⟨i1, i2, fun hh => ?_⟩
        rw [i3 hh]; simp
      · rw [if_neg h, if_neg h]
        refine ⟨rfl, by simpa using h, fun hh => ?_⟩
        simp at hh

theorem rest_spec (parsed : List Nat) (kids : List Elem) (i0 : Nat) (es : List Elem) (s : σ) (h : ∀ j, es[j]? = kids[i0 + j]?) (hl : kids.length = i0 + es.length) :
    restLoop parse parsed i0 es s = parseAll parse ((((List.range es.length).map fun j => i0 + j).filter fun i => i ∉ parsed).filterMap fun i => kids[i]?) s := by
  induction es generalizing i0 s with
  | nil => simp [restLoop, parseAll]
  | cons e es ih =>
    have hr : (List.range (e :: es).length).map (fun j => i0 + j) = i0 :: (List.range es.length).map fun j => (i0 + 1) + j := by
      rw [List.length_cons, List.range_succ_eq_map, List.map_cons, List.map_map]
      congr 1
      apply List.map_congr_left
      intro j _
      simp only [Function.comp_apply]; omega
    have hs : ∀ j, es[j]? = kids[i0 + 1 + j]? := by
      intro j
      have := h (j+1)
      rw [List.getElem?_cons_succ] at this
      rw [this]; congr 1; omega
    have hl' : kids.length = i0 + 1 + es.length := by rw [hl, List.length_cons]; omega
    have h0 : kids[i0]? = some e := by have := h 0; simpa using this.symm
    rw [hr, restLoop]
    by_cases hm : i0 ∈ parsed
    · rw [if_pos hm, List.filter_cons_of_neg (by simpa using hm)]
      exact ih (i0+1) s hs hl'
    · rw [if_neg hm, List.filter_cons_of_pos (by simpa using hm), List.filterMap_cons, h0]
      dsimp only
      rw [parseAll, ih (i0+1) _ hs hl']

theorem readTags_eq (prio : List String) (root : Elem) (s : σ) :
    readTags parse prio root s = parseAll parse ((prioPlaces prio root.kids ++ restPlaces prio root.kids).filterMap fun i => root.kids[i]?) s := by
  obtain ⟨p1, p2, p3⟩ := prio_spec parse root.kids prio s []
  rw [readTags, List.filterMap_append, parseAll_append]
  by_cases h : (handlePriorityTags parse root.kids prio s []).2.1 = true
  · rw [if_pos h, if_pos (p2 ▸ h), p3 h, List.nil_append, ← p1, rest_spec parse _ root.kids 0 root.kids _ (by simp) (by simp)]
    simp [restPlaces]
  · rw [if_neg h, if_neg (p2 ▸ h), p1]
    apply Prod.ext
    · rfl
    · rw [p2] at h
      simpa using (by simpa using h : (parseAll parse _ s).2 = false).symm

end

theorem prio_mem {prio : List String} {kids : List Elem} {i : Nat} : i ∈ prioPlaces prio kids ↔ ∃ q ∈ prio, kids.findIdx? (fun e => e.tag = q) = some i := by
  simp [prioPlaces, List.mem_filterMap]

theorem first_iff {kids : List Elem} {i : Nat} {q : String} : kids.findIdx? (fun e => e.tag = q) = some i ↔ ∃ h : i < kids.length, kids[i].tag = q ∧ ∀ j (hj : j < i), kids[j].tag ≠ q := by
  rw [List.findIdx?_eq_some_iff_getElem]
  simp

theorem rank_first {prio : List String} {kids : List Elem} {i : Nat} {q : String} (h : kids.findIdx? (fun e => e.tag = q) = some i) : rank prio kids i = prio.findIdx fun p => p = q := by
  obtain ⟨hi, ht, hb⟩ := first_iff.mp h
  rw [rank, List.getElem?_eq_getElem hi]
  dsimp only
  rw [ht, if_pos]
  rw [List.all_eq_true]
  intro e he
  obtain ⟨j, hj, rfl⟩ := List.mem_take_iff_getElem.mp he
  simpa using hb j (by omega)

theorem rank_rest {prio : List String} {kids : List Elem} {i : Nat} (hi : i < kids.length) (h : i ∉ prioPlaces prio kids) : rank prio kids i = prio.length := by
  rw [rank, List.getElem?_eq_getElem hi]
  dsimp only
  split
  · rename_i ha
    rw [List.findIdx_eq_length]
    intro q hq
    simp only [decide_eq_false_iff_not]
    intro hc
    apply h
    rw [prio_mem]
    refine ⟨q, hq, first_iff.mpr ⟨hi, hc.symm, fun j hj => ?_⟩⟩
    rw [List.all_eq_true] at ha
    have := ha kids[j] (List.mem_take_iff_getElem.mpr ⟨j, by omega, rfl⟩)
    rw [hc]; simpa using this
  · rfl

/-- C87: the top-level elements are parsed one after the other until one fails, each of them once: first the first element with each prioritised tag, in the order of these tags, then all others in the order of the file. -/
theorem C87_order {σ : Type} (parse : σ → Elem → σ × Bool) (prio : List String) (hp : prio.Nodup) (root : Elem) (s : σ) :
    ∃ is : List Nat, is.Perm (List.range root.kids.length) ∧
      is.Pairwise (fun i j => rank prio root.kids i < rank prio root.kids j ∨ (rank prio root.kids i = rank prio root.kids j ∧ i < j)) ∧
      readTags parse prio root s = parseAll parse (is.filterMap fun i => root.kids[i]?) s := by
  have nd : (prioPlaces prio root.kids).Nodup := by
    unfold prioPlaces
    refine List.Nodup.filterMap ?_ hp
    intro q q' i h h'
    obtain ⟨hi, ht, _⟩ := first_iff.mp h
    obtain ⟨hi', ht', _⟩ := first_iff.mp h'
    rw [← ht, ← ht']
  refine ⟨prioPlaces prio root.kids ++ restPlaces prio root.kids, ?_, ?_, readTags_eq parse prio root s⟩
  · rw [List.perm_ext_iff_of_nodup]
    · intro i
      simp only [List.mem_append, restPlaces, List.mem_filter, List.mem_range, decide_eq_true_eq]
      constructor
      · rintro (h | h)
        · obtain ⟨q, _, hq⟩ := prio_mem.mp h
          exact (first_iff.mp hq).1
        · exact h.1
      · intro h
        by_cases hm : i ∈ prioPlaces prio root.kids
        · exact Or.inl hm
        · exact Or.inr ⟨h, hm⟩
    · refine List.Nodup.append nd (List.nodup_range.filter _) ?_
      intro i h1 h2
      simp [restPlaces] at h2
      exact h2.2 h1
    · exact List.nodup_range
  · rw [List.pairwise_append]
    refine ⟨?_, ?_, ?_⟩
    · unfold prioPlaces
      rw [List.pairwise_filterMap]
      rw [List.pairwise_iff_getElem]
      intro a b ha hb hab i hi j hj
      left
      rw [rank_first hi, rank_first hj]
      have e : ∀ c (hc : c < prio.length), prio.findIdx (fun p => p = prio[c]) = c := by
        intro c hc
        rw [List.findIdx_eq hc]
        simp only [decide_true, true_and, decide_eq_false_iff_not]
        intro j hj he
        have := (List.Nodup.getElem_inj_iff hp).mp he
        omega
      rw [e a ha, e b hb]; exact hab
    · refine List.Pairwise.imp_of_mem ?_ (List.pairwise_lt_range.filter _)
      intro i j hi hj hij
      right
      unfold restPlaces at hi hj
      rw [List.mem_filter] at hi hj
      rw [rank_rest (List.mem_range.mp hi.1) (by simpa using hi.2), rank_rest (List.mem_range.mp hj.1) (by simpa using hj.2)]
      exact ⟨rfl, hij⟩
    · intro i hi j hj
      left
      unfold restPlaces at hj
      rw [List.mem_filter] at hj
      rw [rank_rest (List.mem_range.mp hj.1) (by simpa using hj.2)]
      obtain ⟨q, hq, hf⟩ := prio_mem.mp hi
      rw [rank_first hf]
      exact List.findIdx_lt_length_of_exists ⟨q, hq, by simp⟩

/-- C87: the two together. -/
theorem C87_readXML {σ : Type} (files : String → Option Elem) (parse : σ → Elem → σ × Bool) (prio : List String) (hp : prio.Nodup) (name : String) (root e : Elem) (s : σ)
    (hf : files name = some root) (ht : root.tag = "simulation") (h : Expands files 10 root e) :
    ∃ is : List Nat, is.Perm (List.range e.kids.length) ∧
      is.Pairwise (fun i j => rank prio e.kids i < rank prio e.kids j ∨ (rank prio e.kids i = rank prio e.kids j ∧ i < j)) ∧
      readXML files parse prio name s = some (parseAll parse (is.filterMap fun i => e.kids[i]?) s) := by
  obtain ⟨is, h1, h2, h3⟩ := C87_order parse prio hp e s
  exact ⟨is, h1, h2, by rw [readXML, C87_include files name root e hf ht h]; dsimp only; rw [h3]⟩

end IFEM.Xml
