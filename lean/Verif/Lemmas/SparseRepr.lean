import Verif.Spec.Sparse
import Verif.Lemmas.VMap
/-! Reading and updating entries. -/
namespace IFEM
open Sparse
variable {R : Type}

theorem findFrom_found {JA : List Int} {x : Int} {q : Int} : ∀ (ps : List Int), (∀ p ∈ ps, (at0? JA p).isSome) →
    q ∈ ps → at0? JA q = some x → (∀ p ∈ ps, at0? JA p = some x → p = q) → findFrom JA x ps = some (some q)
  | [], _, hq, _, _ => by cases hq
  | p :: ps, hb, hq, hx, hu => by
    unfold findFrom
    obtain ⟨y, hy⟩ := Option.isSome_iff_exists.1 (hb p List.mem_cons_self)
    rw [hy]
    simp only [Option.bind_eq_bind, Option.bind_some]
    by_cases h : y = x
    · rw [if_pos h]
      subst h
      rw [hu p List.mem_cons_self hy]; rfl
    · rw [if_neg h]
      have hpq : p ≠ q := by rintro rfl; rw [hy] at hx; exact h (Option.some.inj hx)
      rcases List.mem_cons.1 hq with he | hq
      · exact absurd he.symm hpq
      · exact findFrom_found ps (fun p hp => hb p (List.mem_cons_of_mem _ hp)) hq hx
          (fun p hp => hu p (List.mem_cons_of_mem _ hp))

theorem findFrom_none {JA : List Int} {x : Int} : ∀ (ps : List Int), (∀ p ∈ ps, (at0? JA p).isSome) →
    (∀ p ∈ ps, at0? JA p ≠ some x) → findFrom JA x ps = some none
  | [], _, _ => rfl
  | p :: ps, hb, hu => by
    unfold findFrom
    obtain ⟨y, hy⟩ := Option.isSome_iff_exists.1 (hb p List.mem_cons_self)
    rw [hy]
    simp only [Option.bind_eq_bind, Option.bind_some]
    have : y ≠ x := by rintro rfl; exact hu p List.mem_cons_self hy
    rw [if_neg this]
    exact findFrom_none ps (fun p hp => hb p (List.mem_cons_of_mem _ hp)) (fun p hp => hu p (List.mem_cons_of_mem _ hp))

/-- Search in one segment of compressed storage. -/
theorem find_segment (col : Bool) (T : VMap R) (hn : (T.map Prod.fst).Nodup)
    (hs : T.Pairwise fun a b => majorOf col a ≤ majorOf col b) (hpos : ∀ p ∈ T, 1 ≤ majorOf col p)
    (j : Nat) (hj : 1 ≤ j) (x : Int) :
    (∀ q (hq : q < T.length), majorOf col T[q] = j → minorOf col T[q] = x →
      findFrom (T.map (minorOf col)) x (intRange ((T.countP fun p => majorOf col p ≤ j-1 : Nat) : Int)
        ((T.countP fun p => majorOf col p ≤ j : Nat) : Int)) = some (some (q : Int))) ∧
    ((∀ p ∈ T, ¬ (majorOf col p = j ∧ minorOf col p = x)) →
      findFrom (T.map (minorOf col)) x (intRange ((T.countP fun p => majorOf col p ≤ j-1 : Nat) : Int)
        ((T.countP fun p => majorOf col p ≤ j : Nat) : Int)) = some none) := by
  have hle : T.countP (fun p => majorOf col p ≤ j) ≤ T.length := List.countP_le_length
  have hb : ∀ p ∈ intRange ((T.countP fun p => majorOf col p ≤ j-1 : Nat) : Int)
        ((T.countP fun p => majorOf col p ≤ j : Nat) : Int), (at0? (T.map (minorOf col)) p).isSome := by
    intro p hp
    rw [mem_intRange] at hp
    rw [at0?_isSome_iff]; simp; omega
  have hseg : ∀ p ∈ intRange ((T.countP fun p => majorOf col p ≤ j-1 : Nat) : Int)
        ((T.countP fun p => majorOf col p ≤ j : Nat) : Int), ∃ (q : Nat) (hq : q < T.length), p = q ∧
          majorOf col T[q] = j ∧ at0? (T.map (minorOf col)) p = some (minorOf col T[q]) := by
    intro p hp
    rw [mem_intRange] at hp
    have hq : p.toNat < T.length := by omega
    refine ⟨p.toNat, hq, by omega, ?_, ?_⟩
    · have h1 := lt_countP_le (majorOf col) T hs j p.toNat hq
      have h2 := lt_countP_le (majorOf col) T hs (j-1) p.toNat hq
      have a1 := h1.1 (by omega)
      have a2 : ¬ (majorOf col T[p.toNat] ≤ j-1) := fun h => by have := h2.2 h; omega
      omega
    · unfold at0?; rw [if_pos (by omega)]; simp [hq]
  constructor
  · intro q hq hmaj hmin
    have hmem : (q : Int) ∈ intRange ((T.countP fun p => majorOf col p ≤ j-1 : Nat) : Int)
        ((T.countP fun p => majorOf col p ≤ j : Nat) : Int) := by
      rw [mem_intRange]
      have h1 := lt_countP_le (majorOf col) T hs j q hq
      have h2 := lt_countP_le (majorOf col) T hs (j-1) q hq
      have a1 := h1.2 (by omega)
      have a2 : ¬ (q < T.countP fun p => majorOf col p ≤ j-1) := fun h => by have := h2.1 h; omega
      omega
    apply findFrom_found _ hb hmem
    · simp [hq, hmin]
    · intro p hp hx
      obtain ⟨q', hq', rfl, hm', hv'⟩ := hseg p hp
      rw [hx] at hv'
      have hv'' : x = minorOf col T[q'] := Option.some.inj hv'
      have hkey : T[q'].1 = T[q].1 := by
        unfold majorOf at hm' hmaj
        unfold minorOf at hmin hv''
        cases col
        · simp only [Bool.false_eq_true, if_false] at *
          exact Prod.ext (by omega) (by omega)
        · simp only [if_true] at *
          exact Prod.ext (by omega) (by omega)
      have : q' = q := by
        have := (List.Nodup.getElem_inj_iff hn (i := q') (j := q) (hi := by simpa using hq') (hj := by simpa using hq)).1
          (by simpa using hkey)
        exact this
      rw [this]
  · intro hno
    apply findFrom_none _ hb
    intro p hp hx
    obtain ⟨q', hq', rfl, hm', hv'⟩ := hseg p hp
    rw [hx] at hv'
    exact hno _ (List.getElem_mem hq') ⟨hm', (Option.some.inj hv').symm⟩

theorem majorOf_pos {M : Sparse R} {T : VMap R} (h : Holds M T) (col : Bool) : ∀ p ∈ T, 1 ≤ majorOf col p := by
  intro p hp
  have := h.range p hp
  unfold majorOf; split <;> omega

/-- Location of an entry in compressed storage. -/
theorem locate_spec {M : Sparse R} {T : VMap R} (h : Holds M T) (hl : M.editable = .locked) (r c : Nat)
    (hr : 1 ≤ r) (hr2 : r ≤ M.nrow) (hc : 1 ≤ c) (hc2 : c ≤ M.ncol) :
    (∀ q (hq : q < T.length), T[q].1 = (r, c) → M.locate r c = some (some (q : Int))) ∧
    ((r, c) ∉ T.map Prod.fst → M.locate r c = some none) := by
  obtain ⟨hs, hJ, hA, hI⟩ := h.lock hl
  have hpos := majorOf_pos h M.colFormat
  unfold locate
  cases hcol : M.colFormat
  · rw [hcol] at hs hJ hI hpos
    simp only [Bool.false_eq_true, if_false] at hI ⊢
    have e1 : at0? M.IA ((r : Int) - 1) = some (1 + ((T.countP fun p => majorOf false p ≤ r-1 : Nat) : Int)) := by
      rw [hI]
      have : ((r : Int) - 1) = ((r-1 : Nat) : Int) := by omega
      rw [this]
      exact at0?_tab _ (by omega)
    have e2 : at0? M.IA (r : Int) = some (1 + ((T.countP fun p => majorOf false p ≤ r : Nat) : Int)) := by
      rw [hI]; exact at0?_tab _ (by omega)
    rw [e1, e2]
    simp only [Option.bind_eq_bind, Option.bind_some, add_sub_cancel_left, hJ]
    obtain ⟨f1, f2⟩ := find_segment false T h.nodup hs hpos r hr (c : Int)
    constructor
    · intro q hq hk
      apply f1 q hq
      · simp [majorOf, hk]
      · simp [minorOf, hk]
    · intro hno
      apply f2
      rintro p hp ⟨a, b⟩
      simp only [majorOf, minorOf, Bool.false_eq_true, if_false] at a b
      apply hno
      rw [List.mem_map]
      exact ⟨p, hp, Prod.ext a (by simpa using b)⟩
  · rw [hcol] at hs hJ hI hpos
    simp only [if_true] at hI ⊢
    have e1 : at0? M.IA ((c : Int) - 1) = some (0 + ((T.countP fun p => majorOf true p ≤ c-1 : Nat) : Int)) := by
      rw [hI]
      have : ((c : Int) - 1) = ((c-1 : Nat) : Int) := by omega
      rw [this]
      exact at0?_tab _ (by omega)
    have e2 : at0? M.IA (c : Int) = some (0 + ((T.countP fun p => majorOf true p ≤ c : Nat) : Int)) := by
      rw [hI]; exact at0?_tab _ (by omega)
    rw [e1, e2]
    simp only [Option.bind_eq_bind, Option.bind_some, zero_add, hJ]
    obtain ⟨f1, f2⟩ := find_segment true T h.nodup hs hpos c hc ((r : Int) - 1)
    constructor
    · intro q hq hk
      apply f1 q hq
      · simp [majorOf, hk]
      · simp [minorOf, hk]
    · intro hno
      apply f2
      rintro p hp ⟨a, b⟩
      simp only [majorOf, minorOf, if_true] at a b
      apply hno
      rw [List.mem_map]
      exact ⟨p, hp, Prod.ext (by simp only; omega) a⟩

theorem find?_getElem {T : VMap R} (hn : (T.map Prod.fst).Nodup) (q : Nat) (hq : q < T.length) :
    VMap.find? T T[q].1 = some T[q].2 := (VMap.find?_eq_some hn).2 (List.getElem_mem hq)

/-- Reading an entry returns the stored value, or zero. -/
theorem get?_spec [Zero R] {M : Sparse R} {T : VMap R} (h : Holds M T) (r c : Nat) :
    M.get? r c = some ((VMap.find? T (r, c)).getD 0) := by
  unfold get?
  by_cases hr : M.inRange r c
  · have hr' := hr
    unfold inRange at hr'
    rw [decide_eq_true_eq] at hr'
    simp only [hr, Bool.not_true, Bool.false_eq_true, if_false]
    cases he : M.editable with
    | pattern => simp [(h.edit (by rw [he]; decide)).1]
    | values => simp [(h.edit (by rw [he]; decide)).1]
    | locked =>
      obtain ⟨l1, l2⟩ := locate_spec h he r c hr'.1 hr'.2.1 hr'.2.2.1 hr'.2.2.2
      obtain ⟨-, -, hA, -⟩ := h.lock he
      simp only
      by_cases hm : (r, c) ∈ T.map Prod.fst
      · obtain ⟨p, hp, hk⟩ := List.mem_map.1 hm
        obtain ⟨q, hq, hqe⟩ := List.getElem_of_mem hp
        have hkey : T[q].1 = (r, c) := by rw [hqe]; exact hk
        rw [l1 q hq hkey]
        simp only [Option.bind_eq_bind, Option.bind_some]
        rw [← hkey, find?_getElem h.nodup q hq, hA]
        simp [hq]
      · rw [l2 hm]
        have : VMap.find? T (r, c) = none := by
          rw [← Option.not_isSome_iff_eq_none, VMap.find?_isSome_iff]; exact hm
        rw [this]; rfl
  · have hr' := hr
    unfold inRange at hr'
    simp only [decide_eq_true_eq] at hr'
    simp only [hr]
    have : VMap.find? T (r, c) = none := by
      apply VMap.find?_eq_none
      intro p hp hk
      have := h.range p hp
      rw [hk] at this
      exact hr' this
    rw [this]; rfl

theorem spVal_spec [Zero R] {M : Sparse R} {T : VMap R} (h : Holds M T) (r c : Nat) :
    SpVal M r c = (VMap.find? T (r, c)).getD 0 := by
  unfold SpVal; rw [get?_spec h]; rfl

theorem find?_set {T : VMap R} (hn : (T.map Prod.fst).Nodup) (q : Nat) (hq : q < T.length) (v : R) (k : Nat × Nat) :
    VMap.find? (T.set q (T[q].1, v)) k = if k = T[q].1 then some v else VMap.find? T k := by
  induction T generalizing q with
  | nil => simp at hq
  | cons p T ih =>
    cases q with
    | zero =>
      simp only [List.set_cons_zero, List.getElem_cons_zero]
      rw [VMap.find?_cons, VMap.find?_cons]
      by_cases h : k = p.1
      · simp [h]
      · simp [h, Ne.symm h]
    | succ q =>
      rw [List.map_cons, List.nodup_cons] at hn
      have hq' : q < T.length := by simpa using hq
      simp only [List.set_cons_succ, List.getElem_cons_succ]
      rw [VMap.find?_cons, VMap.find?_cons, ih hn.2 q hq']
      by_cases h : p.1 = k
      · simp only [if_pos h]
        have : k ≠ T[q].1 := by
          rintro rfl
          exact hn.1 (by rw [h]; exact List.mem_map_of_mem (List.getElem_mem hq'))
        rw [if_neg this]
      · simp only [if_neg h]

theorem map_set_of_eq {α β : Type _} (g : α → β) (T : List α) (q : Nat) (hq : q < T.length) (x : α) (h : g x = g T[q]) :
    (T.set q x).map g = T.map g := by
  apply List.ext_getElem
  · simp
  · intro i h1 h2
    simp only [List.getElem_map, List.getElem_set]
    by_cases hi : q = i
    · subst hi; simp [h]
    · simp [hi]

/-- Updating an entry. -/
theorem modify?_spec [Zero R] {M : Sparse R} {T : VMap R} (h : Holds M T) (f : R → R) (r c : Nat)
    (hr : 1 ≤ r ∧ r ≤ M.nrow ∧ 1 ≤ c ∧ c ≤ M.ncol)
    (hst : M.editable = .pattern ∨ (r, c) ∈ T.map Prod.fst) :
    ∃ M' T', M.modify? f r c = some M' ∧ Holds M' T' ∧ M'.nrow = M.nrow ∧ M'.ncol = M.ncol ∧
      M'.editable = M.editable ∧ M'.solver = M.solver ∧
      (∀ k, VMap.find? T' k = if k = (r, c) then some (f ((VMap.find? T (r, c)).getD 0)) else VMap.find? T k) ∧
      (∀ k, k ∈ T'.map Prod.fst ↔ k = (r, c) ∨ k ∈ T.map Prod.fst) := by
  have hrange : M.inRange r c = true := by unfold inRange; simpa using hr
  by_cases he : M.editable = .locked
  · have hm : (r, c) ∈ T.map Prod.fst := by
      rcases hst with h1 | h1
      · rw [he] at h1; cases h1
      · exact h1
    obtain ⟨p, hp, hk⟩ := List.mem_map.1 hm
    obtain ⟨q, hq, hqe⟩ := List.getElem_of_mem hp
    have hkey : T[q].1 = (r, c) := by rw [hqe]; exact hk
    obtain ⟨hs, hJ, hA, hI⟩ := h.lock he
    have hloc := (locate_spec h he r c hr.1 hr.2.1 hr.2.2.1 hr.2.2.2).1 q hq hkey
    let T' : VMap R := T.set q (T[q].1, f T[q].2)
    have hfst : T'.map Prod.fst = T.map Prod.fst := map_set_of_eq _ _ _ hq _ rfl
    have hmaj : ∀ col, T'.map (majorOf col) = T.map (majorOf col) := fun col => map_set_of_eq _ _ _ hq _ rfl
    have hmin : ∀ col, T'.map (minorOf col) = T.map (minorOf col) := fun col => map_set_of_eq _ _ _ hq _ rfl
    refine ⟨{ M with A := M.A.set q (f T[q].2) }, T', ?_, ?_, rfl, rfl, rfl, rfl, ?_, ?_⟩
    · unfold modify?
      simp only [hrange, Bool.not_true, Bool.false_eq_true, if_false, he, hloc, Option.bind_eq_bind, Option.bind_some]
      have e1 : at0? M.A (q : Int) = some T[q].2 := by rw [hA]; simp [hq]
      rw [e1]
      unfold set0?
      simp only [Option.bind_some]
      rw [if_pos ⟨by omega, by rw [hA]; simpa using hq⟩]
      rfl
    · refine ⟨by rw [hfst]; exact h.nodup, ?_, fun hne => absurd he hne, ?_⟩
      · intro p hp
        have : p.1 ∈ T'.map Prod.fst := List.mem_map_of_mem hp
        rw [hfst] at this
        obtain ⟨p', hp', hk'⟩ := List.mem_map.1 this
        rw [← hk']; exact h.range p' hp'
      · intro _
        have hcf : (Sparse.colFormat { M with A := M.A.set q (f T[q].2) }) = M.colFormat := rfl
        rw [hcf]
        refine ⟨?_, ?_, ?_, ?_⟩
        · have := (List.pairwise_map (f := majorOf M.colFormat) (R := (· ≤ ·))).2 hs
          rw [← hmaj] at this
          exact List.pairwise_map.1 this
        · show M.JA = _
          rw [hJ, hmin]
        · show M.A.set q _ = _
          rw [hA]
          exact (List.map_set (f := Prod.snd) (l := T) (i := q) (a := (T[q].1, f T[q].2))).symm
        · show M.IA = _
          rw [hI]
          apply List.map_congr_left
          intro j _
          congr 2
          have e : ∀ S : VMap R, S.countP (fun p => majorOf M.colFormat p ≤ j) = (S.map (majorOf M.colFormat)).countP (· ≤ j) := by
            intro S; rw [List.countP_map]; rfl
          rw [e, e, hmaj]
    · intro k
      rw [find?_set h.nodup q hq, hkey]
      congr 3
      rw [← hkey, find?_getElem h.nodup q hq]; rfl
    · intro k
      rw [hfst]
      constructor
      · exact Or.inr
      · rintro (rfl | hk)
        · exact hm
        · exact hk
  · obtain ⟨h1, h2, h3⟩ := h.edit he
    have hmod : M.modify? f r c = some { M with elem := VMap.modify f (r, c) M.elem } := by
      unfold modify?
      simp only [hrange, Bool.not_true, Bool.false_eq_true, if_false]
      cases he2 : M.editable with
      | pattern => rfl
      | locked => exact absurd he2 he
      | values =>
        have hm : (r, c) ∈ T.map Prod.fst := by
          rcases hst with h1 | h1
          · rw [he2] at h1; cases h1
          · exact h1
        obtain ⟨v, hv⟩ := Option.isSome_iff_exists.1 (VMap.find?_isSome_iff.2 hm)
        simp only [h1, hv]
    refine ⟨_, VMap.modify f (r, c) T, hmod, ?_, rfl, rfl, rfl, rfl, ?_, ?_⟩
    · refine ⟨(VMap.sorted_modify f _ h2).nodup, ?_, ?_, fun hl => absurd hl he⟩
      · intro p hp
        have : p.1 ∈ (VMap.modify f (r, c) T).map Prod.fst := List.mem_map_of_mem hp
        rcases (VMap.mem_keys_modify f _ _ _).1 this with hk | hk
        · rw [hk]; exact hr
        · obtain ⟨p', hp', hk'⟩ := List.mem_map.1 hk
          rw [← hk']; exact h.range p' hp'
      · intro _
        refine ⟨by simp only [h1], VMap.sorted_modify f _ h2, h3⟩
    · intro k
      exact VMap.find?_modify f _ h2 k
    · intro k
      exact VMap.mem_keys_modify f _ _ _

/-- A missing entry of a locked pattern, or indices out of range. -/
theorem modify?_missing [Zero R] {M : Sparse R} {T : VMap R} (h : Holds M T) (f : R → R) (r c : Nat)
    (hst : M.editable ≠ .pattern) (hm : (r, c) ∉ T.map Prod.fst) : M.modify? f r c = none := by
  unfold modify?
  by_cases hr : M.inRange r c
  · have hr' := hr
    unfold inRange at hr'
    rw [decide_eq_true_eq] at hr'
    simp only [hr, Bool.not_true, Bool.false_eq_true, if_false]
    cases he : M.editable with
    | pattern => exact absurd he hst
    | values =>
      have : VMap.find? M.elem (r, c) = none := by
        rw [(h.edit (by rw [he]; decide)).1, ← Option.not_isSome_iff_eq_none, VMap.find?_isSome_iff]; exact hm
      simp only [this]
    | locked =>
      rw [(locate_spec h he r c hr'.1 hr'.2.1 hr'.2.2.1 hr'.2.2.2).2 hm]
      rfl
  · simp [hr]

end IFEM
