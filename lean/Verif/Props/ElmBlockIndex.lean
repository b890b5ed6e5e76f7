import Verif.Props.ElmBlock
import Mathlib.Data.List.Perm.Subperm
/-!
# C90: The order of the elements in blocks by type, and removal of elements
-/
namespace IFEM.VBlk
open IFEM.Spec

variable {P Q : Type}

theorem idxPass_cons (n : Nat) (x : Int) (xs : List Int) (npc iEx iEl : Nat) (idx : List Nat) : idxPass n (x :: xs) npc iEx iEl idx =
    if x < 0 then
      if npc = n then idxPass n xs 0 (iEx+1) (iEl+1) (idx.set iEx iEl)
      else idxPass n xs 0 (iEx+1) iEl idx
    else idxPass n xs (npc+1) iEx iEl idx := rfl

theorem idxPass_nodes (n : Nat) (e : List Nat) (xs : List Int) (npc iEx iEl : Nat) (idx : List Nat) :
    idxPass n (cast e ++ xs) npc iEx iEl idx = idxPass n xs (npc + e.length) iEx iEl idx := by
  induction e generalizing npc with
  | nil => rfl
  | cons k e ih =>
    show idxPass n ((k : Int) :: (cast e ++ xs)) npc iEx iEl idx = _
    rw [idxPass_cons, if_neg (by omega), ih, List.length_cons]
    congr 1; omega

/-- The elements `ks` have got the positions 0, 1, 2, ... -/
structure Done (els : List (List Nat)) (ks : List Nat) (iEl : Nat) (idx : List Nat) : Prop where
  len : idx.length = els.length
  num : iEl = ks.length
  nodup : ks.Nodup
  lt : ∀ k ∈ ks, k < els.length
  pos : ∀ (j k : Nat), ks[j]? = some k → idx[k]? = some j

/-- The numbers of the elements with `n` nodes, from number `i` on. -/
def withNodes (n : Nat) : Nat → List (List Nat) → List Nat
  | _, [] => []
  | i, e :: es => if e.length = n then i :: withNodes n (i+1) es else withNodes n (i+1) es

theorem withNodes_ge (n : Nat) (es : List (List Nat)) (i k : Nat) (hk : k ∈ withNodes n i es) :
    i ≤ k ∧ ∃ e, es[k - i]? = some e ∧ e.length = n := by
  induction es generalizing i with
  | nil => exact absurd hk (by simp [withNodes])
  | cons e es ih =>
    unfold withNodes at hk
    by_cases c : e.length = n
    · rw [if_pos c] at hk
      rcases List.mem_cons.1 hk with rfl | hk
      · exact ⟨le_refl _, e, by simp, c⟩
      · obtain ⟨h1, x, h2, h3⟩ := ih (i+1) hk
        refine ⟨by omega, x, ?_, h3⟩
        rw [show k - i = (k - (i+1)) + 1 by omega]
        simpa using h2
    · rw [if_neg c] at hk
      obtain ⟨h1, x, h2, h3⟩ := ih (i+1) hk
      refine ⟨by omega, x, ?_, h3⟩
      rw [show k - i = (k - (i+1)) + 1 by omega]
      simpa using h2

theorem withNodes_mem (n : Nat) (es : List (List Nat)) (i k : Nat) (e : List Nat) (he : es[k]? = some e) (hl : e.length = n) :
    i + k ∈ withNodes n i es := by
  induction es generalizing i k with
  | nil => exact absurd he (by simp)
  | cons a es ih =>
    unfold withNodes
    cases k with
    | zero =>
      obtain rfl : a = e := by simpa using he
      rw [if_pos hl]; exact List.mem_cons_self
    | succ k =>
      have := ih (i+1) k (by simpa using he)
      rw [show i + (k+1) = i + 1 + k by omega]
      split
      · exact List.mem_cons_of_mem _ this
      · exact this

theorem withNodes_els (n : Nat) (es pre : List (List Nat)) :
    (withNodes n pre.length es).map (fun k : Nat => (pre ++ es)[k]?) = (es.filter fun e => e.length = n).map some := by
  induction es generalizing pre with
  | nil => rfl
  | cons e es ih =>
    have := ih (pre ++ [e])
    rw [List.length_append, List.length_singleton, List.append_assoc, List.singleton_append] at this
    unfold withNodes
    by_cases c : e.length = n
    · rw [if_pos c, List.filter_cons_of_pos (by simpa using c), List.map_cons, List.map_cons, this]
      congr 1
      simp
    · rw [if_neg c, List.filter_cons_of_neg (by simpa using c), this]

/-- One pass over the connectivity. -/
theorem idxPass_spec (n : Nat) (els pre suf : List (List Nat)) (hs : els = pre ++ suf) (ks : List Nat) (iEl : Nat) (idx : List Nat)
    (hd : Done els ks iEl idx) (hk : ∀ k ∈ ks, k ∉ withNodes n pre.length suf) :
    Done els (ks ++ withNodes n pre.length suf) (idxPass n (suf.flatMap fun e => cast e ++ [-1]) 0 pre.length iEl idx).1
      (idxPass n (suf.flatMap fun e => cast e ++ [-1]) 0 pre.length iEl idx).2 := by
  induction suf generalizing pre ks iEl idx with
  | nil => simpa [withNodes, idxPass] using hd
  | cons e suf ih =>
    rw [List.flatMap_cons, List.append_assoc, idxPass_nodes, Nat.zero_add]
    show Done els _ (idxPass n (-1 :: (suf.flatMap fun e => cast e ++ [-1])) e.length pre.length iEl idx).1
      (idxPass n (-1 :: (suf.flatMap fun e => cast e ++ [-1])) e.length pre.length iEl idx).2
    rw [idxPass_cons, if_pos (by decide)]
    have hlen : pre.length < els.length := by rw [hs]; simp
    have hs' : els = (pre ++ [e]) ++ suf := by rw [hs]; simp
    unfold withNodes at hk ⊢
    by_cases c : e.length = n
    · rw [if_pos c] at hk ⊢
      rw [if_pos c]
      have hnk : pre.length ∉ ks := fun h => hk _ h List.mem_cons_self
      have := ih (pre ++ [e]) hs' (ks ++ [pre.length]) (iEl+1) (idx.set pre.length iEl) ⟨by rw [List.length_set]; exact hd.len, ?_, ?_, ?_, ?_⟩ ?_
      · rw [List.length_append, List.length_singleton, List.append_assoc, List.singleton_append] at this
        exact this
      · rw [hd.num]; simp
      · exact List.nodup_append.2 ⟨hd.nodup, by simp, fun a ha b hb h => hnk (by rw [← List.mem_singleton.1 hb, ← h]; exact ha)⟩
      · intro k hk'
        rcases List.mem_append.1 hk' with h | h
        · exact hd.lt k h
        · rw [List.mem_singleton.1 h]; exact hlen
      · intro j k hjk
        rw [List.getElem?_set]
        by_cases d : j < ks.length
        · rw [List.getElem?_append_left d] at hjk
          rw [if_neg (fun h : pre.length = k => hnk (by rw [h]; exact List.mem_of_getElem? hjk))]
          exact hd.pos j k hjk
        · rw [List.getElem?_append_right (by omega)] at hjk
          have h0 : j - ks.length = 0 := by
            have := (List.getElem?_eq_some_iff.1 hjk).1
            simpa using this
          rw [h0] at hjk
          obtain rfl : pre.length = k := by simpa using hjk
          rw [if_pos rfl, if_pos (by rw [hd.len]; exact hlen), hd.num]
          congr 1; omega
      · intro k hk'
        rw [List.length_append, List.length_singleton]
        rcases List.mem_append.1 hk' with h | h
        · exact fun x => hk k h (List.mem_cons_of_mem _ x)
        · rw [List.mem_singleton.1 h]
          intro x
          have := (withNodes_ge n suf _ _ x).1
          omega
    · rw [if_neg c] at hk ⊢
      rw [if_neg c]
      have := ih (pre ++ [e]) hs' ks iEl idx hd (by rw [List.length_append, List.length_singleton]; exact hk)
      rw [List.length_append, List.length_singleton] at this
      exact this

/-- All passes. -/
theorem idxLoop_spec (els : List (List Nat)) (ns : List Nat) (hns : ns.Nodup) (ks : List Nat) (iEl : Nat) (idx : List Nat)
    (hd : Done els ks iEl idx) (hk : ∀ k ∈ ks, ∀ e, els[k]? = some e → e.length ∉ ns)
    (hall : ∀ (k : Nat) (e : List Nat), els[k]? = some e → k ∈ ks ∨ e.length ∈ ns) (hne : ns ≠ []) :
    ∃ ks', Done els (ks ++ ks') (ks ++ ks').length (idxLoop (els.flatMap fun e => cast e ++ [-1]) els.length ns iEl idx) ∧
      ks'.map (fun k : Nat => els[k]?) = ((ns.flatMap fun n => els.filter fun e => e.length = n).map some) ∧
      (∀ k, k < els.length → k ∈ ks ++ ks') := by
  induction ns generalizing ks iEl idx with
  | nil => exact absurd rfl hne
  | cons n ns ih =>
    have hp := idxPass_spec n els [] els rfl ks iEl idx hd (by
      intro k hk1 hk2
      obtain ⟨-, e, h1, h2⟩ := withNodes_ge n els 0 k hk2
      exact hk k hk1 e (by simpa using h1) (by rw [h2]; exact List.mem_cons_self))
    simp only [List.length_nil] at hp
    have hw : (withNodes n 0 els).map (fun k : Nat => els[k]?) = (els.filter fun e => e.length = n).map some := withNodes_els n els []
    have hmem : ∀ (k : Nat) (e : List Nat), els[k]? = some e → e.length = n → k ∈ withNodes n 0 els := by
      intro k e he hl
      have := withNodes_mem n els 0 k e he hl
      rwa [Nat.zero_add] at this
    unfold idxLoop
    dsimp only
    generalize idxPass n (els.flatMap fun e => cast e ++ [-1]) 0 0 iEl idx = r at hp ⊢
    have hall' : ∀ (k : Nat) (e : List Nat), els[k]? = some e → k ∈ ks ++ withNodes n 0 els ∨ e.length ∈ ns := by
      intro k e he
      rcases hall k e he with h | h
      · exact Or.inl (List.mem_append_left _ h)
      · rcases List.mem_cons.1 h with h | h
        · exact Or.inl (List.mem_append_right _ (hmem k e he h))
        · exact Or.inr h
    have hk' : ∀ k ∈ ks ++ withNodes n 0 els, ∀ e, els[k]? = some e → e.length ∉ ns := by
      intro k hkk e he
      rcases List.mem_append.1 hkk with h | h
      · exact fun x => hk k h e he (List.mem_cons_of_mem _ x)
      · obtain ⟨-, x, h1, h2⟩ := withNodes_ge n els 0 k h
        rw [Nat.sub_zero, he] at h1
        rw [Option.some.inj h1, h2]
        exact (List.nodup_cons.1 hns).1
    by_cases c : r.1 ≥ els.length
    · rw [if_pos c]
      have hfull : ∀ k, k < els.length → k ∈ ks ++ withNodes n 0 els := by
        intro k hkl
        have hsub : (ks ++ withNodes n 0 els) ⊆ List.range els.length := fun x hx => List.mem_range.2 (hp.lt x hx)
        have hle : (List.range els.length).length ≤ (ks ++ withNodes n 0 els).length := by
          rw [List.length_range, ← hp.num]; exact c
        have hperm := (List.subperm_of_subset hp.nodup hsub).perm_of_length_le hle
        exact hperm.mem_iff.2 (List.mem_range.2 hkl)
      have hrest : (ns.flatMap fun m => els.filter fun e => e.length = m) = [] := by
        rw [List.flatMap_eq_nil_iff]
        intro m hm
        rw [List.filter_eq_nil_iff]
        intro e he hl
        obtain ⟨k, hk1⟩ := List.mem_iff_getElem?.1 he
        have := hk' k (hfull k (List.getElem?_eq_some_iff.1 hk1).1) e hk1
        exact this (by simp only [decide_eq_true_eq] at hl; rw [hl]; exact hm)
      refine ⟨withNodes n 0 els, by rw [← hp.num]; exact hp, ?_, hfull⟩
      rw [List.flatMap_cons, hrest, List.append_nil, hw]
    · rw [if_neg c]
      have hne' : ns ≠ [] := by
        rintro rfl
        apply c
        have hsub : List.range els.length ⊆ ks ++ withNodes n 0 els := by
          intro k hkl
          have := List.mem_range.1 hkl
          rcases hall' k els[k] (List.getElem?_eq_getElem this) with h | h
          · exact h
          · exact absurd h (by simp)
        have := (List.subperm_of_subset List.nodup_range hsub).length_le
        rw [List.length_range, ← hp.num] at this
        exact this
      obtain ⟨ks', g1, g2, g3⟩ := ih (List.nodup_cons.1 hns).2 (ks ++ withNodes n 0 els) r.1 r.2 hp hk' hall' hne'
      refine ⟨withNodes n 0 els ++ ks', by rw [← List.append_assoc]; exact g1, ?_, by rw [← List.append_assoc]; exact g3⟩
      rw [List.flatMap_cons, List.map_append, List.map_append, hw, g2]

/-- When the end of the last element of a block of mixed types is set, the index map gives for each element its place among the elements in the
order of their number of nodes (2, 3, 4, 6, 8, 9, 27): the map is one-to-one, and the element at that place is this one. -/
theorem C90_index {B : Block P Q} {els : List (List Nat)} {ids : List Int} (hn : B.nen = 0) (h : Stores (endOfElm B (B.mmnpc.length - 1)).1 els ids)
    (hleg : ∀ e ∈ els, e.length ∈ [2, 3, 4, 6, 8, 9, 27]) (hi : B.elmIdx = []) (hm : B.mmnpc ≠ []) :
    (∀ (k : Nat) (e : List Nat), els[k]? = some e → (blockwise els)[getElmIndex (endOfElm B (B.mmnpc.length - 1)).1 k]? = some e) ∧
      (∀ k k', k < els.length → k' < els.length →
        getElmIndex (endOfElm B (B.mmnpc.length - 1)).1 k = getElmIndex (endOfElm B (B.mmnpc.length - 1)).1 k' → k = k') := by
  have hpos : 0 < B.mmnpc.length := List.length_pos_iff.2 hm
  have hE : (endOfElm B (B.mmnpc.length - 1)).1 = { B with
      mmnpc := B.mmnpc.set (B.mmnpc.length - 1) (-1)
      elmIdx := idxLoop (B.mmnpc.set (B.mmnpc.length - 1) (-1)) B.minex.length legalNENs 0 (List.replicate B.minex.length 0) } := by
    unfold endOfElm
    rw [if_pos hn, if_neg (by omega)]
    dsimp only
    rw [if_pos (by rw [List.length_set]; omega), hi]
    simp
  rw [hE] at h ⊢
  have hconn := (conn_eq h).2 hn
  have hnames := h.names
  have hcount := h.count
  dsimp only at hconn hnames
  rw [hconn]
  have hlen : B.minex.length = els.length := by rw [hnames, hcount]
  rw [hlen]
  obtain ⟨ks, g1, g2, g3⟩ := idxLoop_spec els legalNENs (by decide) [] 0 (List.replicate els.length 0)
    ⟨List.length_replicate, rfl, List.nodup_nil, fun k hk => absurd hk (by simp), fun j k hj => absurd hj (by simp)⟩
    (fun k hk => absurd hk (by simp)) (fun k e he => Or.inr (hleg e (List.mem_of_getElem? he))) (by decide)
  rw [List.nil_append] at g1 g3
  generalize idxLoop (els.flatMap fun e => cast e ++ [-1]) els.length legalNENs 0 (List.replicate els.length 0) = idx at g1
  have hget : ∀ k, k < els.length → ∃ j : Nat, ks[j]? = some k ∧ getElmIndex (⟨B.nen, B.coord, B.param, els.flatMap (fun e => cast e ++ [-1]), B.minex, idx⟩ : Block P Q) k = j := by
    intro k hk
    obtain ⟨j, hj⟩ := List.mem_iff_getElem?.1 (g3 k hk)
    refine ⟨j, hj, ?_⟩
    have := g1.pos j k hj
    unfold getElmIndex
    dsimp only
    rw [if_pos (by rw [g1.len]; exact hk), List.getD_eq_getElem?_getD, this]
    rfl
  refine ⟨fun k e he => ?_, fun k k' hk hk' heq => ?_⟩
  · obtain ⟨j, h1, h2⟩ := hget k (List.getElem?_eq_some_iff.1 he).1
    rw [h2]
    have h3 : (ks.map (fun k : Nat => els[k]?))[j]? = some (some e) := by rw [List.getElem?_map, h1, ← he]; rfl
    rw [g2, List.getElem?_map] at h3
    obtain ⟨x, hx, hx2⟩ := Option.map_eq_some_iff.1 h3
    rw [← Option.some.inj hx2]
    exact hx
  · obtain ⟨j, h1, h2⟩ := hget k hk
    obtain ⟨j', h1', h2'⟩ := hget k' hk'
    rw [h2, h2'] at heq
    subst heq
    rw [h1] at h1'
    exact Option.some.inj h1'

end IFEM.VBlk
