import Verif.Spec.XmlInput
import Mathlib.Tactic.Common
/-!
# Lemmas for C87
-/
namespace IFEM.Xml
open Spec

mutual
/-- One round of replacing include tags. -/
def stepE (files : String → Option Elem) : Elem → Option Elem
  | .mk tag text attrs kids =>
    if tag = "include" then
      match kids with
      | [] => text.bind files
      | _ :: _ => none
    else (stepL files kids).map (Elem.mk tag text attrs)
def stepL (files : String → Option Elem) : List Elem → Option (List Elem)
  | [] => some []
  | e :: es =>
    match stepE files e, stepL files es with
    | some e', some es' => some (e' :: es')
    | _, _ => none
end

mutual
/-- There is an include tag. -/
def incE : Elem → Bool
  | .mk tag _ _ kids => tag = "include" || incL kids
def incL : List Elem → Bool
  | [] => false
  | e :: es => incE e || incL es
end

mutual
theorem incE_iff : ∀ e, incE e = true ↔ HasInclude e
  | .mk tag text attrs kids => by
    rw [incE, HasInclude, Bool.or_eq_true, decide_eq_true_eq, incL_iff kids]
theorem incL_iff : ∀ es, incL es = true ↔ AnyInclude es
  | [] => by simp [incL, AnyInclude]
  | e :: es => by rw [incL, AnyInclude, Bool.or_eq_true, incE_iff e, incL_iff es]
end

theorem insert_processed (st : Inj) (e : Elem) : (st.insert e).processed = st.processed := by
  unfold Inj.insert; split <;> rfl

mutual
theorem visit_step (files : String → Option Elem) : ∀ (e : Elem) (st : Inj) (e1 : Elem), stepE files e = some e1 → st.processed = false → (st.stack ≠ [] ∨ e.tag ≠ "include") →
    visit files st e = some { st.insert e1 with found := st.found || incE e }
  | .mk tag text attrs kids, st, e1, h, hp, ht => by
    rw [stepE.eq_def] at h
    dsimp only at h
    rw [visit]
    by_cases hi : tag = "include"
    · rw [if_pos hi] at h ⊢
      rcases kids with _ | ⟨k, ks⟩
      · dsimp only at h
        rw [h]
        dsimp only
        rcases hst : st.stack with _ | ⟨f, fs⟩
        · rcases ht with ht | ht
          · exact absurd hst ht
          · exact absurd hi ht
        · simp only [visitKids, Inj.exit, if_true, incE, hi]
          simp [Inj.insert, hst, hp]
      · simp at h
    · rw [if_neg hi] at h ⊢
      obtain ⟨kids1, hk, rfl⟩ := Option.map_eq_some_iff.mp h
      rw [visitKids_step files kids { st with stack := ⟨tag, text, attrs, []⟩ :: st.stack } ⟨tag, text, attrs, []⟩ st.stack kids1 hk rfl hp]
      simp only [Inj.exit, Bool.false_eq_true, if_false, Inj.pop, hp, List.nil_append, incE]
      have : decide (tag = "include") = false := by simp [hi]
      rw [this, Bool.false_or]
      cases hst : st.stack with
      | nil => simp [Inj.insert, hst, hp]
      | cons f fs => simp [Inj.insert, hst, hp]
theorem visitKids_step (files : String → Option Elem) : ∀ (es : List Elem) (st : Inj) (f : Frame) (fs : List Frame) (es1 : List Elem), stepL files es = some es1 → st.stack = f :: fs → st.processed = false →
    visitKids files st es = some { stack := { f with kids := f.kids ++ es1 } :: fs, roots := st.roots, found := st.found || incL es, processed := false }
  | [], st, f, fs, es1, h, hst, hp => by
    rw [stepL, Option.some.injEq] at h
    subst h
    rw [visitKids, incL]
    obtain ⟨stk, rts, fd, pr⟩ := st
    dsimp only at hst hp
    subst hst hp
    simp
  | e :: es, st, f, fs, es1, h, hst, hp => by
    rw [stepL] at h
    cases h1 : stepE files e with
    | none => simp [h1] at h
    | some e' =>
      cases h2 : stepL files es with
      | none => simp [h1, h2] at h
      | some es' =>
        simp only [h1, h2, Option.some.injEq] at h
        subst h
        rw [visitKids, visit_step files e st e' h1 hp (Or.inl (by simp [hst]))]
        dsimp only
        rw [visitKids_step files es _ { f with kids := f.kids ++ [e'] } fs es' h2 (by simp [Inj.insert, hst]) (by rw [← hp]; exact insert_processed st e')]
        simp [Inj.insert, hst, incL, Bool.or_assoc]
end

mutual
/-- One round brings the expansion one level closer. -/
theorem expands_step (files : String → Option Elem) : ∀ (d : Nat) (e e' : Elem), Expands files d e e' → ∃ e1, stepE files e = some e1 ∧ Expands files (d-1) e1 e' ∧ (e.tag ≠ "include" → e1.tag = e.tag)
  | d, .mk tag text attrs kids, e', h => by
    cases h with
    | elem ht hk =>
      obtain ⟨k1, h1, h2⟩ := expandsAll_step files _ _ _ hk
      refine ⟨.mk tag text attrs k1, ?_, .elem ht h2, fun _ => rfl⟩
      rw [stepE.eq_def]
      dsimp only
      rw [if_neg ht, h1]; rfl
    | file hf hr =>
      refine ⟨_, ?_, hr, fun h => absurd rfl h⟩
      rw [stepE.eq_def]
      dsimp only
      rw [if_pos rfl]; exact hf
theorem expandsAll_step (files : String → Option Elem) : ∀ (d : Nat) (es es' : List Elem), ExpandsAll files d es es' → ∃ es1, stepL files es = some es1 ∧ ExpandsAll files (d-1) es1 es'
  | _, [], _, .nil => ⟨[], rfl, .nil⟩
  | _, e :: es, _, .cons h1 h2 => by
    obtain ⟨e1, a1, a2, _⟩ := expands_step files _ _ _ h1
    obtain ⟨es1, b1, b2⟩ := expandsAll_step files _ _ _ h2
    exact ⟨e1 :: es1, by rw [stepL, a1, b1], .cons a2 b2⟩
end

mutual
/-- Without include tags there is nothing to expand. -/
theorem expands_none (files : String → Option Elem) : ∀ (d : Nat) (e e' : Elem), Expands files d e e' → incE e = false → e' = e
  | d, .mk tag text attrs kids, e', hx, h => by
    rw [incE, Bool.or_eq_false_iff] at h
    cases hx with
    | elem ht hk => rw [expandsAll_none files _ _ _ hk h.2]
    | file hf hr => simp at h
theorem expandsAll_none (files : String → Option Elem) : ∀ (d : Nat) (es es' : List Elem), ExpandsAll files d es es' → incL es = false → es' = es
  | _, [], _, .nil, _ => rfl
  | _, e :: es, _, .cons h1 h2, h => by
    rw [incL, Bool.or_eq_false_iff] at h
    rw [expands_none files _ _ _ h1 h.1, expandsAll_none files _ _ _ h2 h.2]
end

mutual
theorem expands_refl (files : String → Option Elem) (d : Nat) : ∀ e : Elem, incE e = false → Expands files d e e
  | .mk tag text attrs kids, h => by
    rw [incE, Bool.or_eq_false_iff] at h
    exact .elem (by simpa using h.1) (expandsAll_refl files d kids h.2)
theorem expandsAll_refl (files : String → Option Elem) (d : Nat) : ∀ es : List Elem, incL es = false → ExpandsAll files d es es
  | [], _ => .nil
  | e :: es, h => by
    rw [incL, Bool.or_eq_false_iff] at h
    exact .cons (expands_refl files d e h.1) (expandsAll_refl files d es h.2)
end

mutual
/-- The expansion is free of include tags. -/
theorem expands_free (files : String → Option Elem) : ∀ (d : Nat) (e e' : Elem), Expands files d e e' → incE e' = false
  | d, .mk tag text attrs kids, e', hx => by
    cases hx with
    | elem ht hk =>
      rw [incE, Bool.or_eq_false_iff]
      exact ⟨by simpa using ht, expandsAll_free files _ _ _ hk⟩
    | file hf hr => exact expands_free files _ _ e' hr
  termination_by d e => (d, sizeOf e)
theorem expandsAll_free (files : String → Option Elem) : ∀ (d : Nat) (es es' : List Elem), ExpandsAll files d es es' → incL es' = false
  | _, [], _, .nil => rfl
  | d, e :: es, _, .cons h1 h2 => by
    rw [incL, Bool.or_eq_false_iff]
    exact ⟨expands_free files d _ _ h1, expandsAll_free files d _ _ h2⟩
  termination_by d es => (d, sizeOf es)
end

mutual
/-- One more level in front of an expansion. -/
theorem expands_back (files : String → Option Elem) : ∀ (d : Nat) (e e1 e' : Elem), stepE files e = some e1 → Expands files d e1 e' → Expands files (d+1) e e'
  | d, .mk tag text attrs kids, e1, e', h, hx => by
    rw [stepE.eq_def] at h
    dsimp only at h
    by_cases hi : tag = "include"
    · rw [if_pos hi] at h
      rcases kids with _ | ⟨k, ks⟩
      · obtain ⟨f, hf, hr⟩ := Option.bind_eq_some_iff.mp h
        rw [hi, hf]
        exact .file hr hx
      · simp at h
    · rw [if_neg hi] at h
      obtain ⟨k1, hk, rfl⟩ := Option.map_eq_some_iff.mp h
      cases hx with
      | elem ht hk' => exact .elem hi (expandsAll_back files d kids _ _ hk hk')
      | file _ _ => exact absurd rfl hi
theorem expandsAll_back (files : String → Option Elem) : ∀ (d : Nat) (es es1 es' : List Elem), stepL files es = some es1 → ExpandsAll files d es1 es' → ExpandsAll files (d+1) es es'
  | d, [], es1, es', h, hx => by
    rw [stepL, Option.some.injEq] at h
    subst h
    cases hx
    exact .nil
  | d, e :: es, es1, es', h, hx => by
    rw [stepL] at h
    cases h1 : stepE files e with
    | none => simp [h1] at h
    | some e1 =>
      cases h2 : stepL files es with
      | none => simp [h1, h2] at h
      | some es2 =>
        simp only [h1, h2, Option.some.injEq] at h
        subst h
        cases hx with
        | cons hx1 hx2 => exact .cons (expands_back files d e _ _ h1 hx1) (expandsAll_back files d es _ _ h2 hx2)
end

theorem root_single (st : Inj) (e : Elem) (h1 : st.stack = []) (h2 : st.roots = [e]) : st.root = some e := by
  rw [Inj.root, h1, Inj.close, h2]; rfl

/-- The rounds over the include levels. -/
theorem loadLoop_step (files : String → Option Elem) (n : Nat) (e e1 : Elem) (ht : e.tag ≠ "include") (h : stepE files e = some e1) :
    loadLoop files (n+1) e = if incE e = true then loadLoop files n e1 else some e := by
  rw [loadLoop, visit_step files e {} e1 h rfl (Or.inr ht)]
  dsimp only
  rw [Bool.false_or]
  by_cases hi : incE e = true
  · rw [if_pos hi, if_pos hi, root_single _ e1 rfl rfl]
  · rw [if_neg hi, if_neg hi]

end IFEM.Xml
