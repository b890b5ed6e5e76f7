import Verif.Model.Renumber
import Verif.Spec.Renumber
/-!
# Lemmas on renumbering
-/
namespace IFEM.Lem
open IFEM IFEM.Spec

/-- The keys of a `std::map` are ascending. -/
def Ascending (m : List (Int × Int)) : Prop := m.Pairwise fun a b => a.1 < b.1

theorem mapSet_mem (k v : Int) (m : List (Int × Int)) (h : Ascending m) (q : Int × Int) :
    q ∈ mapSet k v m ↔ q = (k, v) ∨ (q ∈ m ∧ q.1 ≠ k) := by
  induction m with
  | nil => simp [mapSet]
  | cons p r ih =>
    obtain ⟨k', v'⟩ := p
    have hr : Ascending r := (List.pairwise_cons.mp h).2
    have hk := (List.pairwise_cons.mp h).1
    rw [mapSet]
    split
    · rename_i hlt
      simp only [List.mem_cons]
      constructor
      · rintro (h1 | h1 | h1)
        · exact Or.inl h1
        · right; refine ⟨Or.inl h1, ?_⟩; subst h1; simp; omega
        · right; refine ⟨Or.inr h1, ?_⟩; have := hk q h1; simp at this; omega
      · rintro (h1 | ⟨h1, _⟩)
        · exact Or.inl h1
        · exact Or.inr h1
    · split
      · rename_i h1 h2
        simp only [List.mem_cons]
        rw [ih hr]
        constructor
        · rintro (h3 | h3 | h3)
          · right; refine ⟨Or.inl h3, ?_⟩; subst h3; simp; omega
          · exact Or.inl h3
          · exact Or.inr ⟨Or.inr h3.1, h3.2⟩
        · rintro (h3 | ⟨h3 | h3, h4⟩)
          · exact Or.inr (Or.inl h3)
          · exact Or.inl h3
          · exact Or.inr (Or.inr ⟨h3, h4⟩)
      · rename_i h1 h2
        have hkk : k = k' := by omega
        subst hkk
        simp only [List.mem_cons]
        constructor
        · rintro (h3 | h3)
          · exact Or.inl h3
          · right; refine ⟨Or.inr h3, ?_⟩; have := hk q h3; simp at this; omega
        · rintro (h3 | ⟨h3 | h3, h4⟩)
          · exact Or.inl h3
          · subst h3; simp at h4
          · exact Or.inr h3

theorem mapSet_asc (k v : Int) (m : List (Int × Int)) (h : Ascending m) : Ascending (mapSet k v m) := by
  induction m with
  | nil => simp [mapSet, Ascending]
  | cons p r ih =>
    obtain ⟨k', v'⟩ := p
    have hr : Ascending r := (List.pairwise_cons.mp h).2
    have hk := (List.pairwise_cons.mp h).1
    rw [mapSet]
    split
    · rename_i hlt
      refine List.pairwise_cons.mpr ⟨?_, h⟩
      intro q hq
      rcases List.mem_cons.mp hq with h1 | h1
      · subst h1; exact hlt
      · have := hk q h1; simp at this ⊢; omega
    · split
      · rename_i h1 h2
        refine List.pairwise_cons.mpr ⟨?_, ih hr⟩
        intro q hq
        rcases (mapSet_mem k v r hr q).mp hq with h3 | ⟨h3, _⟩
        · subst h3; exact h2
        · exact hk q h3
      · rename_i h1 h2
        have hkk : k = k' := by omega
        subst hkk
        exact List.pairwise_cons.mpr ⟨hk, hr⟩

/-- Identity map with the given keys. -/
def IdMap (m : List (Int × Int)) (P : Int → Prop) : Prop := Ascending m ∧ ∀ q : Int × Int, q ∈ m ↔ q.2 = q.1 ∧ P q.1

theorem collect_list (l : List Int) (m : List (Int × Int)) (P : Int → Prop) (h : IdMap m P) :
    IdMap (l.foldl (fun m n => mapSet n n m) m) (fun n => P n ∨ n ∈ l) := by
  induction l generalizing m P with
  | nil => simpa using h
  | cons a l ih =>
    rw [List.foldl_cons]
    have := ih (mapSet a a m) (fun n => P n ∨ n = a) ⟨mapSet_asc _ _ _ h.1, fun q => by
      rw [mapSet_mem a a m h.1, h.2]
      constructor
      · rintro (h1 | ⟨⟨h1, h2⟩, h3⟩)
        · subst h1; exact ⟨rfl, Or.inr rfl⟩
        · exact ⟨h1, Or.inl h2⟩
      · rintro ⟨h1, h2⟩
        by_cases hq : q.1 = a
        · left; exact Prod.ext hq (by rw [h1, hq])
        · right; exact ⟨⟨h1, h2.resolve_right hq⟩, hq⟩⟩
    refine ⟨this.1, fun q => ?_⟩
    rw [this.2]
    dsimp only
    rw [List.mem_cons, or_assoc]

theorem collect_spec (mlgns : List (List Int)) : IdMap (collectNodes mlgns []) (Used mlgns) := by
  unfold collectNodes
  have key : ∀ (ls : List (List Int)) (m : List (Int × Int)) (P : Int → Prop), IdMap m P →
      IdMap (ls.foldl (fun m l => l.foldl (fun m n => mapSet n n m) m) m) (fun n => P n ∨ Used ls n) := by
    intro ls
    induction ls with
    | nil => intro m P h; refine ⟨h.1, fun q => ?_⟩; rw [List.foldl_nil, h.2]; simp [Used]
    | cons a ls ih =>
      intro m P h
      rw [List.foldl_cons]
      have := ih _ _ (collect_list a m P h)
      refine ⟨this.1, fun q => ?_⟩
      rw [this.2]
      unfold Used
      simp only [List.mem_cons, exists_eq_or_imp, or_assoc]
  have := key mlgns [] (fun _ => False) ⟨List.Pairwise.nil, by simp⟩
  refine ⟨this.1, fun q => ?_⟩
  rw [this.2]; simp

/-- The compressed map: entry `i` gets the value `n+1+i`. -/
theorem compress_spec (m : List (Int × Int)) (n : Int) (r : Nat) (hm : Ascending m) (hid : ∀ q ∈ m, q.2 = q.1 ∧ n < q.1) :
    ∃ vals : List Int, (compressLoop m n r).1 = (m.map Prod.fst).zip vals ∧ vals.length = m.length ∧
      (∀ i : Nat, i < m.length → vals[i]? = some (n + 1 + i)) ∧
      (compressLoop m n r).2 = r + ((m.map Prod.fst).zip vals |>.filter fun q => decide (q.1 ≠ q.2)).length := by
  induction m generalizing n r with
  | nil => exact ⟨[], by simp [compressLoop], rfl, fun i hi => by simp at hi, by simp [compressLoop]⟩
  | cons p t ih =>
    obtain ⟨k, v⟩ := p
    have h0 := hid (k, v) List.mem_cons_self
    simp only at h0
    obtain ⟨rfl, hlt⟩ := h0
    have ht : ∀ q ∈ t, q.2 = q.1 ∧ n + 1 < q.1 := fun q hq => by
      have h1 := hid q (List.mem_cons_of_mem _ hq)
      have h2 := (List.pairwise_cons.mp hm).1 q hq
      simp at h2
      exact ⟨h1.1, by omega⟩
    rw [compressLoop]
    split
    · rename_i hgt
      obtain ⟨vals, e1, e2, e3, e4⟩ := ih (n+1) (r+1) (List.pairwise_cons.mp hm).2 ht
      refine ⟨(n+1) :: vals, by simp [e1], by simp [e2], ?_, ?_⟩
      · intro i hi
        cases i with
        | zero => simp
        | succ i => rw [List.getElem?_cons_succ, e3 i (by simpa using hi)]; congr 1; push_cast; omega
      · dsimp only
        rw [e4, List.map_cons, List.zip_cons_cons, List.filter_cons_of_pos (by simp; omega), List.length_cons]
        omega
    · rename_i hgt
      obtain ⟨vals, e1, e2, e3, e4⟩ := ih (n+1) r (List.pairwise_cons.mp hm).2 ht
      refine ⟨v :: vals, by simp [e1], by simp [e2], ?_, ?_⟩
      · intro i hi
        cases i with
        | zero => simp; omega
        | succ i => rw [List.getElem?_cons_succ, e3 i (by simpa using hi)]; congr 1; push_cast; omega
      · dsimp only
        rw [e4, List.map_cons, List.zip_cons_cons, List.filter_cons_of_neg (by simp)]

theorem lookup_zip (ks vs : List Int) (i : Nat) (k v : Int) (hk : ks[i]? = some k) (hv : vs[i]? = some v) (hn : ks.Nodup) :
    (ks.zip vs).lookup k = some v := by
  induction ks generalizing vs i with
  | nil => simp at hk
  | cons a ks ih =>
    cases vs with
    | nil => simp at hv
    | cons b vs =>
      rw [List.zip_cons_cons, List.lookup_cons]
      cases i with
      | zero =>
        simp at hk hv
        subst hk; subst hv; simp
      | succ i =>
        rw [List.getElem?_cons_succ] at hk hv
        have : k ≠ a := by
          rintro rfl
          exact (List.nodup_cons.mp hn).1 (List.mem_iff_getElem?.mpr ⟨i, hk⟩)
        rw [show (k == a) = false by simpa using this]
        exact ih vs i hk hv (List.nodup_cons.mp hn).2

theorem lookup_none (ks vs : List Int) (k : Int) (h : k ∉ ks) : (ks.zip vs).lookup k = none := by
  induction ks generalizing vs with
  | nil => simp
  | cons a ks ih =>
    cases vs with
    | nil => simp
    | cons b vs =>
      rw [List.zip_cons_cons, List.lookup_cons, show (k == a) = false by simp; rintro rfl; exact h List.mem_cons_self]
      exact ih vs fun hm => h (List.mem_cons_of_mem _ hm)

end IFEM.Lem

namespace IFEM.Lem
open IFEM IFEM.Spec

/-- The map of the first-occurrence numbering: the keys are distinct and entry `i` has the value `i+1`. -/
def RunMap (m : List (Int × Int)) (n : Int) : Prop :=
  n = m.length ∧ (m.map Prod.fst).Nodup ∧ ∀ (i : Nat) (q : Int × Int), m[i]? = some q → q.2 = (i : Int) + 1

theorem lookup_append_of (m e : List (Int × Int)) (k v : Int) (h : m.lookup k = some v) : (m ++ e).lookup k = some v := by
  rw [List.lookup_append, h]; rfl

theorem lookup_mem (m : List (Int × Int)) (k v : Int) (h : m.lookup k = some v) : (k, v) ∈ m := by
  induction m with
  | nil => simp at h
  | cons p r ih =>
    obtain ⟨a, b⟩ := p
    rw [List.lookup_cons] at h
    split at h
    · rename_i hc
      simp at hc h
      subst hc; subst h
      exact List.mem_cons_self
    · exact List.mem_cons_of_mem _ (ih h)

theorem lookup_of_mem (m : List (Int × Int)) (k v : Int) (hn : (m.map Prod.fst).Nodup) (h : (k, v) ∈ m) : m.lookup k = some v := by
  induction m with
  | nil => simp at h
  | cons p r ih =>
    obtain ⟨a, b⟩ := p
    rw [List.map_cons, List.nodup_cons] at hn
    rw [List.lookup_cons]
    rcases List.mem_cons.mp h with h1 | h1
    · simp at h1
      obtain ⟨rfl, rfl⟩ := h1
      simp
    · have : k ≠ a := by
        rintro rfl
        exact hn.1 (List.mem_map.mpr ⟨(k, v), h1, rfl⟩)
      rw [show (k == a) = false by simpa using this]
      exact ih hn.2 h1

theorem lookup_some_iff (m : List (Int × Int)) (k : Int) : (∃ v, m.lookup k = some v) ↔ k ∈ m.map Prod.fst := by
  induction m with
  | nil => simp
  | cons p r ih =>
    obtain ⟨a, b⟩ := p
    rw [List.lookup_cons, List.map_cons, List.mem_cons]
    by_cases h : k = a
    · subst h; simp
    · rw [show (k == a) = false by simpa using h]
      simp only [h, false_or]
      exact ih

theorem runMap_lookup (m : List (Int × Int)) (n : Int) (h : RunMap m n) (k v : Int) (hl : m.lookup k = some v) : 1 ≤ v ∧ v ≤ n := by
  obtain ⟨i, hi⟩ := List.mem_iff_getElem?.mp (lookup_mem m k v hl)
  have h1 := h.2.2 i _ hi
  obtain ⟨h2, _⟩ := List.getElem?_eq_some_iff.mp hi
  have h3 := h.1
  simp at h1
  omega

theorem runMap_inj (m : List (Int × Int)) (n : Int) (h : RunMap m n) (k k' v : Int) (h1 : m.lookup k = some v) (h2 : m.lookup k' = some v) : k = k' := by
  obtain ⟨i, hi⟩ := List.mem_iff_getElem?.mp (lookup_mem m k v h1)
  obtain ⟨j, hj⟩ := List.mem_iff_getElem?.mp (lookup_mem m k' v h2)
  have e1 := h.2.2 i _ hi
  have e2 := h.2.2 j _ hj
  simp at e1 e2
  have : i = j := by omega
  subst this
  rw [hi] at hj
  simp at hj
  exact hj

theorem runMap_onto (m : List (Int × Int)) (n : Int) (h : RunMap m n) (v : Int) (h1 : 1 ≤ v) (h2 : v ≤ n) : ∃ k, m.lookup k = some v := by
  have h3 := h.1
  have hi : (v-1).toNat < m.length := by omega
  have e := List.getElem?_eq_getElem hi
  have h4 := h.2.2 _ _ e
  refine ⟨m[(v-1).toNat].1, lookup_of_mem m _ _ h.2.1 ?_⟩
  have : (m[(v-1).toNat].1, v) = m[(v-1).toNat] := Prod.ext rfl (by rw [h4]; omega)
  rw [this]
  exact List.getElem_mem hi

theorem renumberNew_spec (num n : Int) (m : List (Int × Int)) (h : RunMap m n) :
    ∃ e, (renumberNew num n m).2.2.2 = m ++ e ∧ RunMap (m ++ e) (renumberNew num n m).2.2.1 ∧
      (∀ k, k ∈ (m ++ e).map Prod.fst ↔ k ∈ m.map Prod.fst ∨ k = num) ∧
      (m ++ e).lookup num = some (renumberNew num n m).2.1 := by
  unfold renumberNew
  cases hl : m.lookup num with
  | some v =>
    refine ⟨[], by simp, by simpa using h, fun k => ?_, by simpa using hl⟩
    rw [List.append_nil]
    constructor
    · exact Or.inl
    · rintro (h1 | h1)
      · exact h1
      · subst h1; exact (lookup_some_iff m k).mp ⟨v, hl⟩
  | none =>
    have hnot : num ∉ m.map Prod.fst := fun hc => by
      obtain ⟨v, hv⟩ := (lookup_some_iff m num).mpr hc
      rw [hv] at hl; simp at hl
    refine ⟨[(num, n+1)], rfl, ⟨by simp [h.1], ?_, ?_⟩, fun k => by simp, ?_⟩
    · rw [List.map_append, List.nodup_append]
      refine ⟨h.2.1, by simp, ?_⟩
      intro a ha b hb hab
      simp at hb
      subst hab; subst hb
      exact hnot ha
    · intro i q hq
      by_cases hi : i < m.length
      · rw [List.getElem?_append_left hi] at hq
        exact h.2.2 i q hq
      · rw [List.getElem?_append_right (by omega)] at hq
        have : i - m.length = 0 := by
          by_contra hc
          rw [List.getElem?_eq_none (by simp; omega)] at hq
          simp at hq
        rw [this] at hq
        simp at hq
        subst hq
        have := h.1
        simp; omega
    · rw [List.lookup_append, hl]
      simp

theorem renumberLoop_spec (l : List Int) (n : Int) (m : List (Int × Int)) (r : Nat) (h : RunMap m n) :
    ∃ e, (renumberPatchLoop l n m r).2.2.1 = m ++ e ∧ RunMap (m ++ e) (renumberPatchLoop l n m r).2.1 ∧
      (∀ k, k ∈ (m ++ e).map Prod.fst ↔ k ∈ m.map Prod.fst ∨ k ∈ l) ∧
      (renumberPatchLoop l n m r).1 = l.map fun a => ((m ++ e).lookup a).getD a := by
  induction l generalizing n m r with
  | nil => exact ⟨[], by simp [renumberPatchLoop], by simpa [renumberPatchLoop] using h, by simp, by simp [renumberPatchLoop]⟩
  | cons a l ih =>
    rw [renumberPatchLoop]
    dsimp only
    obtain ⟨e, e1, e2, e3, e4⟩ := renumberNew_spec a n m h
    rw [e1]
    obtain ⟨e', f1, f2, f3, f4⟩ := ih _ (m ++ e) (if (renumberNew a n m).1 then r+1 else r) e2
    refine ⟨e ++ e', by rw [f1, List.append_assoc], by rw [← List.append_assoc]; exact f2, ?_, ?_⟩
    · intro k
      rw [← List.append_assoc, f3, e3, List.mem_cons, or_assoc]
    · rw [f4, ← List.append_assoc, List.map_cons, lookup_append_of _ _ _ _ e4, Option.getD_some]

theorem foldl_max_le (l : List Int) (x : Int) (h : ∀ a ∈ l, a ≤ x) : l.foldl max x = x := by
  induction l with
  | nil => rfl
  | cons a l ih =>
    rw [List.foldl_cons, show max x a = x by have := h a List.mem_cons_self; omega]
    exact ih fun b hb => h b (List.mem_cons_of_mem _ hb)

theorem renumberPatch_spec (l : List Int) (n : Int) (m : List (Int × Int)) (h : RunMap m n) :
    renumberPatch l n m = renumberPatchLoop l n m 0 := by
  unfold renumberPatch
  obtain ⟨e, e1, e2, e3, e4⟩ := renumberLoop_spec l n m 0 h
  dsimp only
  split
  · rw [foldl_max_le]
    intro a ha
    rw [e4] at ha
    obtain ⟨b, hb, rfl⟩ := List.mem_map.mp ha
    obtain ⟨v, hv⟩ := (lookup_some_iff (m ++ e) b).mpr ((e3 b).mpr (Or.inr hb))
    rw [hv, Option.getD_some]
    exact (runMap_lookup _ _ e2 _ _ hv).2
  · rfl

theorem renumberPatches_spec (ls : List (List Int)) (n : Int) (m : List (Int × Int)) (r : Nat) (h : RunMap m n) :
    ∃ e, (renumberPatches ls n m r).2.2.1 = m ++ e ∧ RunMap (m ++ e) (renumberPatches ls n m r).2.1 ∧
      (∀ k, k ∈ (m ++ e).map Prod.fst ↔ k ∈ m.map Prod.fst ∨ Used ls k) ∧
      (renumberPatches ls n m r).1 = ls.map fun l => l.map fun a => ((m ++ e).lookup a).getD a := by
  induction ls generalizing n m r with
  | nil => exact ⟨[], by simp [renumberPatches], by simpa [renumberPatches] using h, by simp [Used], by simp [renumberPatches]⟩
  | cons l ls ih =>
    rw [renumberPatches]
    dsimp only
    rw [renumberPatch_spec l n m h]
    obtain ⟨e, e1, e2, e3, e4⟩ := renumberLoop_spec l n m 0 h
    rw [e1]
    obtain ⟨e', f1, f2, f3, f4⟩ := ih _ (m ++ e) (r + (renumberPatchLoop l n m 0).2.2.2) e2
    refine ⟨e ++ e', by rw [f1, List.append_assoc], by rw [← List.append_assoc]; exact f2, ?_, ?_⟩
    · intro k
      rw [← List.append_assoc, f3, e3]
      unfold Used
      simp only [List.mem_cons, exists_eq_or_imp, or_assoc]
    · rw [f4, ← List.append_assoc, List.map_cons, e4]
      congr 1
      apply List.map_congr_left
      intro b hb
      obtain ⟨v, hv⟩ := (lookup_some_iff (m ++ e) b).mpr ((e3 b).mpr (Or.inr hb))
      rw [lookup_append_of _ e' _ _ hv, hv]

theorem loop_append (s t : List Int) (n : Int) (m : List (Int × Int)) (r : Nat) :
    (renumberPatchLoop (s ++ t) n m r).2 =
      (renumberPatchLoop t (renumberPatchLoop s n m r).2.1 (renumberPatchLoop s n m r).2.2.1 (renumberPatchLoop s n m r).2.2.2).2 := by
  induction s generalizing n m r with
  | nil => simp [renumberPatchLoop]
  | cons a s ih =>
    rw [List.cons_append, renumberPatchLoop, renumberPatchLoop]
    dsimp only
    rw [ih]

theorem loop_count (s : List Int) (n : Int) (m : List (Int × Int)) (r r' : Nat) :
    (renumberPatchLoop s n m r).2.1 = (renumberPatchLoop s n m r').2.1 ∧ (renumberPatchLoop s n m r).2.2.1 = (renumberPatchLoop s n m r').2.2.1 := by
  induction s generalizing n m r r' with
  | nil => exact ⟨rfl, rfl⟩
  | cons a s ih => rw [renumberPatchLoop, renumberPatchLoop]; exact ih _ _ _ _

theorem patches_flatten (ls : List (List Int)) (n : Int) (m : List (Int × Int)) (r : Nat) (h : RunMap m n) :
    (renumberPatches ls n m r).2.2.1 = (renumberPatchLoop ls.flatten n m 0).2.2.1 := by
  induction ls generalizing n m r with
  | nil => rfl
  | cons l ls ih =>
    rw [renumberPatches]
    dsimp only
    rw [renumberPatch_spec l n m h, List.flatten_cons, loop_append]
    obtain ⟨e, e1, e2, _, _⟩ := renumberLoop_spec l n m 0 h
    rw [ih _ _ _ (by rw [e1]; exact e2)]
    exact (loop_count _ _ _ _ _).2

/-- A number occurring earlier gets a smaller new number. -/
theorem loop_order (l : List Int) (a b va vb : Int) (h : OccursBefore l a b)
    (ha : (renumberPatchLoop l 0 [] 0).2.2.1.lookup a = some va) (hb : (renumberPatchLoop l 0 [] 0).2.2.1.lookup b = some vb) : va < vb := by
  obtain ⟨s, t, rfl, h1, h2, h3, h4⟩ := h
  rw [show s ++ a :: t = (s ++ [a]) ++ t by simp, loop_append] at ha hb
  have h0 : RunMap [] 0 := ⟨rfl, by simp, fun i q hq => by simp at hq⟩
  obtain ⟨e, e1, e2, e3, e4⟩ := renumberLoop_spec (s ++ [a]) 0 [] 0 h0
  rw [List.nil_append] at e1 e2 e3
  rw [e1] at ha hb
  obtain ⟨e', f1, f2, f3, f4⟩ := renumberLoop_spec t (renumberPatchLoop (s ++ [a]) 0 [] 0).2.1 e (renumberPatchLoop (s ++ [a]) 0 [] 0).2.2.2 e2
  rw [f1] at ha hb
  obtain ⟨w, hw⟩ := (lookup_some_iff e a).mpr ((e3 a).mpr (Or.inr (by simp)))
  have e5 := lookup_append_of _ e' _ _ hw
  rw [e5] at ha
  simp at ha
  subst ha
  have hle := (runMap_lookup _ _ e2 _ _ hw).2
  have hnb : e.lookup b = none := by
    cases hc : e.lookup b with
    | none => rfl
    | some x =>
      have := (e3 b).mp ((lookup_some_iff e b).mp ⟨x, hc⟩)
      simp only [List.map_nil, List.not_mem_nil, false_or, List.mem_append, List.mem_singleton] at this
      rcases this with h5 | h5
      · exact absurd h5 h2
      · exact absurd h5.symm h3
  rw [List.lookup_append, hnb] at hb
  simp only [Option.none_or] at hb
  obtain ⟨i, hi⟩ := List.mem_iff_getElem?.mp (lookup_mem _ _ _ hb)
  have h6 := f2.2.2 (e.length + i) (b, vb) (by rw [List.getElem?_append_right (by omega), Nat.add_sub_cancel_left]; exact hi)
  have h7 := e2.1
  simp at h6
  omega

/-! ## The inverse mapping -/

theorem loc2glb_spec (m : List (Int × Int)) (N : Nat) (hn : (m.map Prod.snd).Nodup) (k v : Int) (h : (k, v) ∈ m) (h1 : 1 ≤ v) (h2 : v ≤ N) :
    (loc2glb m N)[(v-1).toNat]? = some k := by
  unfold loc2glb
  have key : ∀ (m : List (Int × Int)) (a : List Int), (m.map Prod.snd).Nodup → a.length = N →
      (((k, v) ∈ m → (m.foldl (fun (a : List Int) (p : Int × Int) => if p.2 > 0 ∧ p.2 ≤ (N : Int) then a.set (p.2 - 1).toNat p.1 else a) a)[(v-1).toNat]? = some k)) ∧
      (v ∉ m.map Prod.snd → (m.foldl (fun (a : List Int) (p : Int × Int) => if p.2 > 0 ∧ p.2 ≤ (N : Int) then a.set (p.2 - 1).toNat p.1 else a) a)[(v-1).toNat]? = a[(v-1).toNat]?) := by
    intro m
    induction m with
    | nil => intro a _ _; simp
    | cons p m ih =>
      intro a hn hl
      obtain ⟨x, y⟩ := p
      rw [List.map_cons, List.nodup_cons] at hn
      rw [List.foldl_cons]
      have hl' : (if y > 0 ∧ y ≤ (N : Int) then a.set (y-1).toNat x else a).length = N := by
        split
        · rw [List.length_set]; exact hl
        · exact hl
      obtain ⟨i1, i2⟩ := ih (if y > 0 ∧ y ≤ (N : Int) then a.set (y-1).toNat x else a) hn.2 hl'
      constructor
      · intro hm
        rcases List.mem_cons.mp hm with hm | hm
        · simp at hm
          obtain ⟨rfl, rfl⟩ := hm
          dsimp only at hn ⊢
          rw [i2 hn.1, if_pos (by omega), List.getElem?_set_self (by omega)]
        · exact i1 hm
      · intro hv
        rw [List.map_cons, List.mem_cons, not_or] at hv
        dsimp only at hv ⊢
        rw [i2 hv.2]
        split
        · rename_i hc
          rw [List.getElem?_set_ne]
          omega
        · rfl
  exact (key m _ hn (by simp)).1 h

end IFEM.Lem
