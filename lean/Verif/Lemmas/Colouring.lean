import Mathlib.Data.List.Nodup
import Mathlib.Data.List.Perm.Subperm
import Mathlib.Data.List.Range
import Verif.Spec.Colouring
/-!
# Lemmas on the colouring loop
-/
namespace IFEM.Threads
open IFEM.Spec

theorem markOne_spec {st : List Int} {j : Nat} (h : j < st.length) : ∃ st', markOne st j = some st' ∧ st'.length = st.length ∧
    ∀ k : Nat, st'.getD k 0 = if k = j ∧ st.getD k 0 = 0 then -1 else st.getD k 0 := by
  unfold markOne
  rw [List.getElem?_eq_getElem h]
  dsimp only
  by_cases h0 : st[j] = 0
  · rw [if_pos h0]
    refine ⟨_, rfl, by simp, fun k => ?_⟩
    by_cases hk : k = j
    · subst hk; simp [h, h0]
    · have hk' : j ≠ k := fun h => hk h.symm
      simp [hk, List.getElem?_set, hk']
  · rw [if_neg h0]
    refine ⟨_, rfl, rfl, fun k => ?_⟩
    by_cases hk : k = j
    · subst hk; simp [h, h0]
    · simp [hk]

theorem marks_spec : ∀ (ms : List Nat) (st : List Int), (∀ j ∈ ms, j < st.length) → ∃ st', ms.foldlM markOne st = some st' ∧ st'.length = st.length ∧
    ∀ k : Nat, st'.getD k 0 = if k ∈ ms ∧ st.getD k 0 = 0 then -1 else st.getD k 0
  | [], st, _ => ⟨st, rfl, rfl, fun k => by simp⟩
  | j :: ms, st, h => by
    obtain ⟨s1, e1, l1, v1⟩ := markOne_spec (st := st) (h j (by simp))
    obtain ⟨s2, e2, l2, v2⟩ := marks_spec ms s1 (fun k hk => by rw [l1]; exact h k (by simp [hk]))
    refine ⟨s2, by rw [List.foldlM_cons, e1]; exact e2, l2.trans l1, fun k => ?_⟩
    rw [v2, v1]
    by_cases hk : k = j
    · subst hk
      generalize st.getD k 0 = v
      by_cases h0 : v = 0
      · subst h0; simp
      · simp only [h0, and_false, if_false]
    · simp only [hk, false_and, if_false, List.mem_cons, false_or]

variable {nel : Nat} {marks : Nat → List Nat} {c : Int}

/-- The state of a colour pass after the elements below `k`; `st0` is the status at the start. -/
structure PassInv (nel : Nat) (marks : Nat → List Nat) (c : Int) (st0 : List Int) (k : Nat) (S : List Int × List Int) : Prop where
  len : S.1.length = nel
  keep : ∀ i : Nat, st0.getD i 0 ≠ 0 → S.1.getD i 0 = st0.getD i 0
  free : ∀ i : Nat, i < nel → st0.getD i 0 = 0 → ((i : Int) ∈ S.2 ∧ S.1.getD i 0 = c) ∨
    ((i : Int) ∉ S.2 ∧ (S.1.getD i 0 = 0 ∨ S.1.getD i 0 = -1) ∧ (i < k → S.1.getD i 0 = -1))
  sub : ∀ e ∈ S.2, ∃ i : Nat, e = i ∧ i < k ∧ i < nel ∧ st0.getD i 0 = 0
  nodup : S.2.Nodup
  far : ∀ i : Nat, (i : Int) ∈ S.2 → ∀ j ∈ marks i, S.1.getD j 0 ≠ 0
  pair : S.2.Pairwise (fun e e' => e'.toNat ∉ marks e.toNat)
  start : S.2 = [] → S.1 = st0

theorem visit_inv (hc : 0 < c) (hm : ∀ i, ∀ j ∈ marks i, j < nel) {st0 : List Int} {k : Nat} (hk : k < nel) {S} (h : PassInv nel marks c st0 k S) :
    ∃ S', visit marks c S k = some S' ∧ PassInv nel marks c st0 (k+1) S' := by
  unfold visit
  have hkl : k < S.1.length := by rw [h.len]; exact hk
  rw [List.getElem?_eq_getElem hkl]
  dsimp only
  have hg : S.1.getD k 0 = S.1[k] := by simp [hkl]
  by_cases h0 : S.1[k] = 0
  · rw [if_pos h0]
    obtain ⟨st', e', l', v'⟩ := marks_spec (marks k) (S.1.set k c) (fun j hj => by rw [List.length_set, h.len]; exact hm k j hj)
    rw [e']
    have hset : ∀ i : Nat, (S.1.set k c).getD i 0 = if i = k then c else S.1.getD i 0 := by
      intro i
      by_cases hi : i = k
      · subst hi; simp [hkl]
      · have hi' : k ≠ i := fun h => hi h.symm
        simp [hi, List.getElem?_set, hi']
    have hv : ∀ i : Nat, st'.getD i 0 = if i = k then c else if i ∈ marks k ∧ S.1.getD i 0 = 0 then -1 else S.1.getD i 0 := by
      intro i
      rw [v', hset]
      by_cases hi : i = k
      · simp only [if_pos hi]; rw [if_neg (by omega)]
      · simp only [if_neg hi]
    have hst0k : st0.getD k 0 = 0 := by
      by_contra hne
      have := h.keep k hne
      omega
    have hkn : (k : Int) ∉ S.2 := by
      intro hmem
      obtain ⟨i, e, hik, _⟩ := h.sub _ hmem
      omega
    refine ⟨_, rfl, ?_⟩
    constructor
    · exact l'.trans (by rw [List.length_set, h.len])
    · intro i hi
      show st'.getD i 0 = _
      rw [hv, if_neg (by rintro rfl; exact hi hst0k), h.keep i hi, if_neg (fun hh => hi hh.2)]
    · intro i hi hi0
      show ((i : Int) ∈ S.2 ++ [(k : Int)] ∧ st'.getD i 0 = c) ∨ ((i : Int) ∉ S.2 ++ [(k : Int)] ∧ (st'.getD i 0 = 0 ∨ st'.getD i 0 = -1) ∧ (i < k+1 → st'.getD i 0 = -1))
      rw [hv]
      by_cases hik : i = k
      · left
        subst hik
        exact ⟨by simp, by simp⟩
      · have hne : ((i : Int) ∈ S.2 ++ [(k : Int)]) ↔ (i : Int) ∈ S.2 := by
          rw [List.mem_append, List.mem_singleton]
          exact ⟨fun hh => hh.resolve_right (by omega), Or.inl⟩
        rw [hne, if_neg hik]
        rcases h.free i hi hi0 with ⟨g1, g2⟩ | ⟨g1, g2, g3⟩
        · left
          exact ⟨g1, by rw [if_neg (by omega)]; exact g2⟩
        · right
          refine ⟨g1, ?_, fun hlt => ?_⟩
          · split_ifs
            · exact Or.inr rfl
            · exact g2
          · have := g3 (by omega)
            rw [if_neg (by omega)]; exact this
    · intro e he
      rcases List.mem_append.mp he with he | he
      · obtain ⟨i, q1, q2, q3⟩ := h.sub e he
        exact ⟨i, q1, by omega, q3⟩
      · exact ⟨k, by simpa using he, by omega, hk, hst0k⟩
    · show (S.2 ++ [(k : Int)]).Nodup
      rw [List.nodup_append]
      exact ⟨h.nodup, by simp, fun x hx y hy hxy => by simp at hy; subst hy; subst hxy; exact hkn hx⟩
    · intro i hi j hj
      show st'.getD j 0 ≠ 0
      rw [hv]
      rcases List.mem_append.mp hi with hi | hi
      · have := h.far i hi j hj
        split_ifs
        · omega
        · omega
        · exact this
      · have hik : i = k := by have := List.mem_singleton.mp hi; omega
        subst hik
        split_ifs with q1 q2
        · omega
        · omega
        · exact fun hz => q2 ⟨hj, hz⟩
    · show (S.2 ++ [(k : Int)]).Pairwise _
      rw [List.pairwise_append]
      refine ⟨h.pair, by simp, ?_⟩
      intro x hx y hy
      simp at hy
      subst hy
      obtain ⟨i, rfl, _⟩ := h.sub x hx
      intro hmem
      have := h.far i hx k (by simpa using hmem)
      omega
    · intro hnil
      simp at hnil
  · rw [if_neg h0]
    refine ⟨S, rfl, ⟨h.len, h.keep, ?_, ?_, h.nodup, h.far, h.pair, h.start⟩⟩
    · intro i hi hi0
      rcases h.free i hi hi0 with g | ⟨g1, g2, g3⟩
      · exact Or.inl g
      · refine Or.inr ⟨g1, g2, fun hlt => ?_⟩
        by_cases hik : i = k
        · subst hik; omega
        · exact g3 (by omega)
    · intro e he
      obtain ⟨i, q1, q2, q3⟩ := h.sub e he
      exact ⟨i, q1, by omega, q3⟩

theorem resetTags_get (st : List Int) (i : Nat) : (resetTags st).getD i 0 = if st.getD i 0 < 0 then 0 else st.getD i 0 := by
  unfold resetTags
  rw [List.getD_eq_getElem?_getD, List.getD_eq_getElem?_getD, List.getElem?_map]
  cases st[i]? <;> simp

theorem colourPass_inv (hc : 0 < c) (hm : ∀ i, ∀ j ∈ marks i, j < nel) {st : List Int} (hl : st.length = nel) :
    ∃ S, colourPass nel marks c st = some S ∧ PassInv nel marks c (resetTags st) nel S := by
  unfold colourPass
  have h0 : PassInv nel marks c (resetTags st) 0 (resetTags st, []) := by
    refine ⟨by simp [resetTags, hl], fun _ _ => rfl, fun i _ h => Or.inr ⟨by simp, Or.inl h, by omega⟩, by simp, by simp, by simp, by simp, fun _ => rfl⟩
  have key : ∀ (r k : Nat) (S), k + r = nel → PassInv nel marks c (resetTags st) k S →
      ∃ S', (List.range' k r).foldlM (visit marks c) S = some S' ∧ PassInv nel marks c (resetTags st) nel S' := by
    intro r
    induction r with
    | zero =>
      intro k S hk h
      have hkn : k = nel := by omega
      subst hkn
      exact ⟨S, rfl, h⟩
    | succ r ih =>
      intro k S hk h
      obtain ⟨S1, e1, h1⟩ := visit_inv hc hm (by omega) h
      obtain ⟨S2, e2, h2⟩ := ih (k+1) S1 (by omega) h1
      exact ⟨S2, by rw [List.range'_succ, List.foldlM_cons, e1]; exact e2, h2⟩
  rw [List.range_eq_range']
  exact key nel 0 _ (by omega) h0

/-- The state between two colours: `groups` are the colours found so far. -/
structure LoopInv (nel : Nat) (marks : Nat → List Nat) (st : List Int) (fixed : Nat) (first groups : List (List Int)) : Prop where
  len : st.length = nel
  fix : fixed = groups.flatten.length
  nodup : groups.flatten.Nodup
  mem : ∀ e ∈ groups.flatten, ∃ i : Nat, e = i ∧ i < nel
  pos : ∀ i : Nat, i < nel → ((i : Int) ∈ groups.flatten ↔ 0 < st.getD i 0)
  pair : ∀ col ∈ groups, col ∈ first ∨ col.Pairwise (fun e e' => e'.toNat ∉ marks e.toNat)
  later : ∀ col ∈ groups, col ∈ first ∨ ∀ e ∈ col, e ∉ first.flatten

theorem nodup_full {l : List Int} (hn : l.Nodup) (hm : ∀ e ∈ l, ∃ i : Nat, e = i ∧ i < nel) (hl : nel ≤ l.length) : ∀ e : Int, e ∈ l ↔ 0 ≤ e ∧ e < nel := by
  have hsub : l ⊆ (List.range nel).map Int.ofNat := by
    intro e he
    obtain ⟨i, rfl, hi⟩ := hm e he
    exact List.mem_map.mpr ⟨i, List.mem_range.mpr hi, rfl⟩
  have hnd : ((List.range nel).map Int.ofNat).Nodup := List.nodup_range.map (fun a b h => Int.ofNat.inj h)
  have hsp : l.Subperm ((List.range nel).map Int.ofNat) := List.subperm_of_subset hn hsub
  have hperm : l.Perm ((List.range nel).map Int.ofNat) := hsp.perm_of_length_le (by simpa using hl)
  intro e
  rw [hperm.mem_iff, List.mem_map]
  constructor
  · rintro ⟨i, hi, rfl⟩
    have := List.mem_range.mp hi
    exact ⟨by simp, by simpa using this⟩
  · rintro ⟨h0, h1⟩
    exact ⟨e.toNat, List.mem_range.mpr (by omega), by simp only [Int.ofNat_eq_natCast]; omega⟩

theorem colourLoop_spec (hm : ∀ i, ∀ j ∈ marks i, j < nel) (first : List (List Int)) : ∀ (fuel nColors : Nat) (st : List Int) (fixed : Nat) (groups : List (List Int)),
    nel ≤ fixed + fuel → LoopInv nel marks st fixed first groups → first <+: groups →
    ∃ gs, colourLoop nel marks fuel nColors st fixed groups = some gs ∧ IsColouring gs nel ∧ first <+: gs ∧
      (∀ col ∈ gs, col ∈ first ∨ col.Pairwise (fun e e' => e'.toNat ∉ marks e.toNat)) ∧ (∀ col ∈ gs, col ∈ first ∨ ∀ e ∈ col, e ∉ first.flatten) := by
  intro fuel
  induction fuel with
  | zero =>
    intro nColors st fixed groups hf h hp
    unfold colourLoop
    rw [if_pos (by omega)]
    exact ⟨groups, rfl, ⟨h.nodup, nodup_full h.nodup h.mem (by rw [← h.fix]; omega)⟩, hp, h.pair, h.later⟩
  | succ fuel ih =>
    intro nColors st fixed groups hf h hp
    unfold colourLoop
    by_cases hd : nel ≤ fixed
    · rw [if_pos hd]
      exact ⟨groups, rfl, ⟨h.nodup, nodup_full h.nodup h.mem (by rw [← h.fix]; exact hd)⟩, hp, h.pair, h.later⟩
    rw [if_neg hd]
    obtain ⟨S, eS, hS⟩ := colourPass_inv (c := (nColors : Int) + 1) (by omega) hm h.len
    rw [eS]
    dsimp only
    have hr := resetTags_get st
    have hdis : ∀ e ∈ S.2, e ∉ groups.flatten := by
      intro e he hg
      obtain ⟨i, rfl, _, hi, h0⟩ := hS.sub e he
      have := (h.pos i hi).mp hg
      rw [hr, if_neg (by omega)] at h0
      omega
    have hne : S.2 ≠ [] := by
      intro hnil
      -- some element has no colour yet
      have hex : ∃ i : Nat, i < nel ∧ (i : Int) ∉ groups.flatten := by
        by_contra hno
        have hall : ∀ i : Nat, i < nel → (i : Int) ∈ groups.flatten := fun i hi => by
          by_contra hh; exact hno ⟨i, hi, hh⟩
        have hsub : ((List.range nel).map Int.ofNat) ⊆ groups.flatten := by
          intro e he
          obtain ⟨i, hi, rfl⟩ := List.mem_map.mp he
          exact hall i (List.mem_range.mp hi)
        have hnd : ((List.range nel).map Int.ofNat).Nodup := List.nodup_range.map (fun a b h => Int.ofNat.inj h)
        have := (List.subperm_of_subset hnd hsub).length_le
        simp only [List.length_map, List.length_range] at this
        have := h.fix
        omega
      obtain ⟨i, hi, hni⟩ := hex
      have h0 : (resetTags st).getD i 0 = 0 := by
        have : ¬ 0 < st.getD i 0 := fun hh => hni ((h.pos i hi).mpr hh)
        rw [hr]; split_ifs <;> omega
      have hs := hS.start hnil
      rcases hS.free i hi h0 with ⟨g1, _⟩ | ⟨_, _, g3⟩
      · rw [hnil] at g1; simp at g1
      · have := g3 hi
        rw [hs, h0] at this
        omega
    have hlen : 1 ≤ S.2.length := List.length_pos_of_ne_nil hne
    refine ih (nColors+1) S.1 (fixed + S.2.length) (groups ++ [S.2]) (by omega) ?_ (hp.trans (List.prefix_append _ _))
    have hfl : (groups ++ [S.2]).flatten = groups.flatten ++ S.2 := by simp
    constructor
    · exact hS.len
    · rw [hfl, List.length_append, h.fix]
    · rw [hfl, List.nodup_append]
      exact ⟨h.nodup, hS.nodup, fun x hx y hy hxy => by subst hxy; exact hdis x hy hx⟩
    · intro e he
      rw [hfl] at he
      rcases List.mem_append.mp he with he | he
      · exact h.mem e he
      · obtain ⟨i, q, _, hi, _⟩ := hS.sub e he
        exact ⟨i, q, hi⟩
    · intro i hi
      rw [hfl, List.mem_append]
      by_cases h0 : (resetTags st).getD i 0 = 0
      · have hng : (i : Int) ∉ groups.flatten := by
          intro hg
          have := (h.pos i hi).mp hg
          rw [hr, if_neg (by omega)] at h0
          omega
        rcases hS.free i hi h0 with ⟨g1, g2⟩ | ⟨g1, g2, g3⟩
        · exact ⟨fun _ => by rw [g2]; omega, fun _ => Or.inr g1⟩
        · exact ⟨fun h => absurd h (by simp [hng, g1]), fun h => by omega⟩
      · have hk := hS.keep i h0
        have hpos : 0 < st.getD i 0 := by
          rw [hr] at h0
          split_ifs at h0 <;> omega
        rw [hk, hr, if_neg (by omega)]
        exact ⟨fun _ => hpos, fun _ => Or.inl ((h.pos i hi).mpr hpos)⟩
    · intro col hcol
      rcases List.mem_append.mp hcol with hcol | hcol
      · exact h.pair col hcol
      · have : col = S.2 := by simpa using hcol
        subst this
        exact Or.inr hS.pair
    · intro col hcol
      rcases List.mem_append.mp hcol with hcol | hcol
      · exact h.later col hcol
      · have : col = S.2 := by simpa using hcol
        subst this
        refine Or.inr fun e he hf => hdis e he ?_
        obtain ⟨l, hl, hel⟩ := List.mem_flatten.mp hf
        exact List.mem_flatten.mpr ⟨l, hp.subset hl, hel⟩

end IFEM.Threads
