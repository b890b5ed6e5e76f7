import Verif.Lemmas.SamPatch
/-! Tables built from patches: element connectivity. -/
namespace IFEM.Spec
open IFEM.Props
variable {K : Type}

/-! ## Pointer arrays -/

theorem accumulate_last (m : Int) (cs : List Nat) : (accumulate m cs).getLastD 0 = m + cs.sum := by
  have h := accumulate_get m cs cs.length le_rfl
  rw [List.getLastD_eq_getLast?, List.getLast?_eq_getElem?, accumulate_length, show cs.length + 1 - 1 = cs.length by omega, h]
  simp

theorem accumulate_append (m : Int) (cs : List Nat) (c : Nat) : accumulate m (cs ++ [c]) = accumulate m cs ++ [m + cs.sum + c] := by
  induction cs generalizing m with
  | nil => simp [accumulate]
  | cons x xs ih =>
    rw [List.cons_append, accumulate, ih, accumulate, List.cons_append, List.sum_cons]
    rw [show m + (x : Int) + (xs.sum : Nat) = m + ((x + xs.sum : Nat) : Int) by push_cast; ring]

theorem accumulate_zeros (m : Int) (cs : List Nat) (k : Nat) : accumulate m (cs ++ List.replicate k 0) = accumulate m cs ++ List.replicate k (m + cs.sum : Int) := by
  induction k with
  | zero => simp
  | succ k ih =>
    rw [List.replicate_succ', ← List.append_assoc, accumulate_append, ih, List.replicate_succ', List.append_assoc]
    simp

theorem flatten_slice {α : Type} (B : List (List α)) (i : Nat) (b : List α) (h : B[i]? = some b) :
    (((B.take i).map List.length).sum + b.length ≤ B.flatten.length) ∧ (B.flatten.drop ((B.take i).map List.length).sum).take b.length = b := by
  obtain ⟨hi, rfl⟩ := List.getElem?_eq_some_iff.mp h
  have e : B.flatten = (B.take i).flatten ++ (B[i] ++ (B.drop (i+1)).flatten) := by
    conv_lhs => rw [← List.take_append_drop i B, List.flatten_append, List.drop_eq_getElem_cons hi, List.flatten_cons]
  have l : ((B.take i).map List.length).sum = (B.take i).flatten.length := by rw [List.length_flatten]
  rw [l]
  constructor
  · rw [e]; simp only [List.length_append]; omega
  · rw [e, List.drop_left, List.take_left]

/-- What the packed arrays contain. -/
theorem block_get {α : Type} (B : List (List α)) (k : Nat) (b : List α) (h : B[k]? = some b) : ∃ ip : Int,
    at1? (accumulate 1 (B.map List.length)) (k+1) = some ip ∧ at1? (accumulate 1 (B.map List.length)) (k+2) = some (ip + b.length) ∧
    ∀ (j : Nat) (n : α), b[j]? = some n → at1? B.flatten (ip + j) = some n := by
  obtain ⟨hi, hb⟩ := List.getElem?_eq_some_iff.mp h
  have hl : (B.map List.length).length = B.length := List.length_map _
  have e1 := accumulate_at (B.map List.length) (k+1) (by omega) (by omega)
  have e2 := accumulate_at (B.map List.length) (k+2) (by omega) (by omega)
  have e3 := firstOf_succ (B.map List.length) (k+1) (by omega) (by omega)
  have e4 : (B.map List.length).getD (k+1-1) 0 = b.length := by
    rw [List.getD_eq_getElem?_getD, show k+1-1 = k by omega, List.getElem?_map, h]; rfl
  rw [e4] at e3
  refine ⟨(firstOf (B.map List.length) (k+1) : Nat), by push_cast at e1 ⊢; exact e1, ?_, ?_⟩
  · have : ((k + 2 : Nat) : Int) = (k : Int) + 2 := by push_cast; rfl
    rw [this] at e2
    rw [e2, show firstOf (B.map List.length) (k+2) = _ from e3]; push_cast; rfl
  · intro j n hj
    obtain ⟨f1, f2⟩ := flatten_slice B k b h
    have hf : firstOf (B.map List.length) (k+1) = 1 + ((B.take k).map List.length).sum := by
      unfold firstOf; rw [show k+1-1 = k by omega, List.map_take]
    rw [hf]
    have : ((1 + ((B.take k).map List.length).sum : Nat) : Int) + j = ((((B.take k).map List.length).sum + j : Nat) : Int) + 1 := by push_cast; ring
    rw [this, at1?_natCast_succ]
    obtain ⟨hj1, hj2⟩ := List.getElem?_eq_some_iff.mp hj
    have : (B.flatten.drop ((B.take k).map List.length).sum)[j]? = some n := by
      have h3 : ((B.flatten.drop ((B.take k).map List.length).sum).take b.length)[j]? = some n := by rw [f2]; exact hj
      rwa [List.getElem?_take_of_lt hj1] at h3
    rwa [List.getElem?_drop] at this

/-! ## Sorted maps -/

theorem mapInsert_spec (k : Nat) (v : Int × Nat) (m : List (Nat × Int × Nat)) (hs : m.Pairwise fun a b => a.1 < b.1) :
    (k ∈ m.map (fun x => x.1) → mapInsert k v m = none) ∧
    (k ∉ m.map (fun x => x.1) → ∃ m', mapInsert k v m = some m' ∧ (m'.Pairwise fun a b => a.1 < b.1) ∧ ∀ x, x ∈ m' ↔ x = (k, v) ∨ x ∈ m) := by
  induction m with
  | nil => exact ⟨by simp, fun _ => ⟨[(k,v)], rfl, List.pairwise_singleton _ _, by simp⟩⟩
  | cons x xs ih =>
    rw [List.pairwise_cons] at hs
    obtain ⟨i1, i2⟩ := ih hs.2
    constructor
    · intro hk
      unfold mapInsert
      rcases List.mem_cons.mp hk with h | h
      · have h' : k = x.1 := h
        rw [if_neg (by omega), if_pos h']
      · obtain ⟨y, hy, e⟩ := List.mem_map.mp h
        have := hs.1 y hy
        rw [if_neg (by omega), if_neg (by omega), i1 h]; rfl
    · intro hk
      unfold mapInsert
      by_cases h1 : k < x.1
      · rw [if_pos h1]
        refine ⟨_, rfl, ?_, fun y => by simp [or_assoc]⟩
        rw [List.pairwise_cons]
        refine ⟨?_, List.pairwise_cons.mpr hs⟩
        intro y hy
        rcases List.mem_cons.mp hy with rfl | hy
        · exact h1
        · have := hs.1 y hy; dsimp only; omega
      · have hne : k ≠ x.1 := by intro e; apply hk; simp [e]
        rw [if_neg h1, if_neg hne]
        obtain ⟨m', e, s, mm⟩ := i2 (by intro h; apply hk; rw [List.map_cons]; exact List.mem_cons_of_mem _ h)
        refine ⟨x :: m', by rw [e]; rfl, ?_, ?_⟩
        · rw [List.pairwise_cons]
          refine ⟨?_, s⟩
          intro y hy
          rcases (mm y).mp hy with rfl | hy
          · dsimp only; omega
          · exact hs.1 y hy
        · intro y
          rw [List.mem_cons, mm, List.mem_cons]; tauto

theorem mapFold_spec (g : Nat → Int × Nat) (L : List ((Nat × List Int) × Nat)) (m : List (Nat × Int × Nat)) (hs : m.Pairwise fun a b => a.1 < b.1) :
    (((L.map fun p => p.1.1).Nodup ∧ ∀ p ∈ L, p.1.1 ∉ m.map (fun x => x.1)) →
      ∃ m', L.foldlM (fun m e => mapInsert e.1.1 (g e.2) m) m = some m' ∧ (m'.Pairwise fun a b => a.1 < b.1) ∧
        ∀ x, x ∈ m' ↔ x ∈ m ∨ ∃ p ∈ L, x = (p.1.1, g p.2)) ∧
    (¬ ((L.map fun p => p.1.1).Nodup ∧ ∀ p ∈ L, p.1.1 ∉ m.map (fun x => x.1)) → L.foldlM (fun m e => mapInsert e.1.1 (g e.2) m) m = none) := by
  induction L generalizing m with
  | nil => exact ⟨fun _ => ⟨m, rfl, hs, by simp⟩, fun h => absurd ⟨List.nodup_nil, by simp⟩ h⟩
  | cons p L ih =>
    rw [List.foldlM_cons]
    obtain ⟨j1, j2⟩ := mapInsert_spec p.1.1 (g p.2) m hs
    by_cases hk : p.1.1 ∈ m.map (fun x => x.1)
    · rw [j1 hk]
      exact ⟨fun h => absurd hk (h.2 p (by simp)), fun _ => rfl⟩
    · obtain ⟨m', e, s, mm⟩ := j2 hk
      rw [e]
      obtain ⟨i1, i2⟩ := ih m' s
      have hkeys : ∀ k, k ∈ m'.map (fun x => x.1) ↔ k = p.1.1 ∨ k ∈ m.map (fun x => x.1) := by
        intro k
        simp only [List.mem_map, mm]
        constructor
        · rintro ⟨x, rfl | hx, rfl⟩
          · exact Or.inl rfl
          · exact Or.inr ⟨x, hx, rfl⟩
        · rintro (rfl | ⟨x, hx, rfl⟩)
          · exact ⟨_, Or.inl rfl, rfl⟩
          · exact ⟨x, Or.inr hx, rfl⟩
      have hiff : (((p :: L).map fun p => p.1.1).Nodup ∧ ∀ q ∈ p :: L, q.1.1 ∉ m.map (fun x => x.1)) ↔
          ((L.map fun p => p.1.1).Nodup ∧ ∀ q ∈ L, q.1.1 ∉ m'.map (fun x => x.1)) := by
        rw [List.map_cons, List.nodup_cons]
        constructor
        · rintro ⟨⟨a, b⟩, c⟩
          refine ⟨b, fun q hq h => ?_⟩
          rcases (hkeys _).mp h with h | h
          · exact a (List.mem_map.mpr ⟨q, hq, h⟩)
          · exact c q (List.mem_cons_of_mem _ hq) h
        · rintro ⟨a, b⟩
          refine ⟨⟨fun h => ?_, a⟩, fun q hq h => ?_⟩
          · obtain ⟨q, hq, e⟩ := List.mem_map.mp h
            exact b q hq ((hkeys _).mpr (Or.inl e))
          · rcases List.mem_cons.mp hq with rfl | hq
            · exact hk h
            · exact b q hq ((hkeys _).mpr (Or.inr h))
      rw [hiff]
      refine ⟨fun h => ?_, i2⟩
      obtain ⟨m2, e2, s2, mm2⟩ := i1 h
      refine ⟨m2, e2, s2, fun x => ?_⟩
      rw [mm2, mm]
      simp only [List.mem_cons, exists_eq_or_imp]
      tauto

/-! ## Reordering -/

/-- The element with a given number. -/
def elmNo (E : List (Nat × List Int)) (k : Nat) : List Int :=
  match E.find? fun e => decide (e.1 = k) with
  | some e => e.2
  | none => []

/-- Elements one to `n`. -/
def elmPre (E : List (Nat × List Int)) (n : Nat) : List (List Int) := (List.range n).map fun k => elmNo E (k+1)

theorem elmNo_none (E : List (Nat × List Int)) (k : Nat) (h : ∀ e ∈ E, e.1 ≠ k) : elmNo E k = [] := by
  unfold elmNo
  rw [List.find?_eq_none.mpr (by simpa using h)]

theorem elmNo_mem (E : List (Nat × List Int)) (hn : (E.map fun e => e.1).Nodup) (e : Nat × List Int) (he : e ∈ E) : elmNo E e.1 = e.2 := by
  unfold elmNo
  cases h : E.find? fun x => decide (x.1 = e.1) with
  | none => have := List.find?_eq_none.mp h e he; simp at this
  | some x =>
    have h1 : x.1 = e.1 := by simpa using List.find?_some h
    have h2 := List.mem_of_find?_eq_some h
    have : x = e := List.inj_on_of_nodup_map hn h2 he h1
    rw [this]

theorem elmPre_gap (E : List (Nat × List Int)) (n j : Nat) (h : ∀ e ∈ E, ¬ (n < e.1 ∧ e.1 ≤ n + j)) :
    elmPre E (n + j) = elmPre E n ++ List.replicate j [] := by
  induction j with
  | zero => simp
  | succ j ih =>
    have : elmPre E (n + (j + 1)) = elmPre E (n + j) ++ [elmNo E (n + j + 1)] := by
      unfold elmPre; rw [← Nat.add_assoc, List.range_succ, List.map_append]; rfl
    rw [this, ih (fun e he => by have := h e he; omega), elmNo_none E _ (fun e he => by have := h e he; omega), List.replicate_succ', List.append_assoc]

theorem blockPtr_last (B : List (List Int)) : (blockPtr B).getLastD 0 = 1 + (B.map List.length).sum := accumulate_last _ _

theorem blockPtr_length (B : List (List Int)) : (blockPtr B).length = B.length + 1 := by unfold blockPtr; rw [accumulate_length, List.length_map]

theorem elmPre_length (E : List (Nat × List Int)) (n : Nat) : (elmPre E n).length = n := by simp [elmPre]

theorem reorderStep_spec (E : List (Nat × List Int)) (mm : List Int) (n : Nat) (x : Nat × Int × Nat) (hx : n < x.1) (hgap : ∀ e ∈ E, ¬ (n < e.1 ∧ e.1 < x.1))
    (hc : copyInts mm x.2.1 x.2.2 = some (elmNo E x.1)) (hlen : (elmNo E x.1).length = x.2.2) :
    reorderStep mm (blockPtr (elmPre E n), (elmPre E n).flatten) x = some (blockPtr (elmPre E x.1), (elmPre E x.1).flatten) := by
  obtain ⟨j, hj⟩ : ∃ j, x.1 = n + j + 1 := ⟨x.1 - n - 1, by omega⟩
  have e : elmPre E x.1 = elmPre E n ++ List.replicate j [] ++ [elmNo E x.1] := by
    rw [← elmPre_gap E n j (fun e he => by have := hgap e he; omega)]
    rw [hj]
    unfold elmPre; rw [List.range_succ, List.map_append]; rfl
  unfold reorderStep
  rw [hc]
  simp only [Option.bind_eq_bind, Option.bind_some, blockPtr_last, blockPtr_length, elmPre_length]
  rw [show x.1 - (n + 1) = j by omega, e]
  congr 1
  refine Prod.ext ?_ ?_
  · unfold blockPtr
    rw [List.map_append, List.map_append, List.map_replicate, List.map_singleton, accumulate_append, List.length_nil, accumulate_zeros, hlen]
    simp
  · simp [List.flatten_append]

theorem reorderFold_spec (E : List (Nat × List Int)) (mm : List Int) (S : List (Nat × Int × Nat)) (n : Nat) (hs : S.Pairwise fun a b => a.1 < b.1) (hlow : ∀ x ∈ S, n < x.1)
    (hE : ∀ e ∈ E, n < e.1 ↔ e.1 ∈ S.map fun x => x.1) (hS : ∀ x ∈ S, ∃ e ∈ E, e.1 = x.1)
    (hc : ∀ x ∈ S, copyInts mm x.2.1 x.2.2 = some (elmNo E x.1) ∧ (elmNo E x.1).length = x.2.2) :
    ∃ N, S.foldlM (reorderStep mm) (blockPtr (elmPre E n), (elmPre E n).flatten) = some (blockPtr (elmPre E N), (elmPre E N).flatten) ∧ n ≤ N ∧ (∀ e ∈ E, e.1 ≤ N) ∧
      (N = n ∨ ∃ e ∈ E, e.1 = N) := by
  induction S generalizing n with
  | nil =>
    refine ⟨n, rfl, le_rfl, fun e he => ?_, Or.inl rfl⟩
    have := (hE e he).mp
    by_contra hlt
    simpa using this (by omega)
  | cons x S ih =>
    rw [List.pairwise_cons] at hs
    have hstep := reorderStep_spec E mm n x (hlow x (by simp)) (by
      intro e he ⟨h1, h2⟩
      obtain ⟨y, hy, hye⟩ := List.mem_map.mp ((hE e he).mp h1)
      rcases List.mem_cons.mp hy with rfl | hy
      · omega
      · have := hs.1 y hy; omega) (hc x (by simp)).1 (hc x (by simp)).2
    rw [List.foldlM_cons, hstep]
    obtain ⟨N, h1, h2, h3, h4⟩ := ih x.1 hs.2 hs.1 (by
      intro e he
      constructor
      · intro h
        have hn := hlow x (by simp)
        have := (hE e he).mp (by omega)
        rw [List.map_cons] at this
        rcases List.mem_cons.mp this with h' | h'
        · omega
        · exact h'
      · intro h
        obtain ⟨y, hy, hye⟩ := List.mem_map.mp h
        have := hs.1 y hy; omega) (fun y hy => hS y (List.mem_cons_of_mem _ hy)) (fun y hy => hc y (List.mem_cons_of_mem _ hy))
    have hn := hlow x (by simp)
    refine ⟨N, h1, by omega, h3, ?_⟩
    rcases h4 with rfl | h
    · exact Or.inr (hS x (by simp))
    · exact Or.inr h

/-! ## The two branches -/

theorem foldlMax (l : List (Nat × List Int)) (m : Nat) : l.foldl (fun m e => if e.1 > m then e.1 else m) m = max m ((l.map fun e => e.1).foldr max 0) := by
  induction l generalizing m with
  | nil => simp
  | cons x xs ih =>
    rw [List.foldl_cons, ih, List.map_cons, List.foldr_cons]
    split <;> omega

theorem le_foldrMax (l : List Nat) (x : Nat) (h : x ∈ l) : x ≤ l.foldr max 0 := by
  induction l with
  | nil => cases h
  | cons a l ih =>
    rw [List.foldr_cons]
    rcases List.mem_cons.mp h with rfl | h
    · omega
    · have := ih h; omega

theorem foldrMax_mem (l : List Nat) (h : 0 < l.foldr max 0) : l.foldr max 0 ∈ l := by
  induction l with
  | nil => simp at h
  | cons a l ih =>
    rw [List.foldr_cons] at h ⊢
    by_cases hl : l.foldr max 0 ≤ a
    · rw [show max a (l.foldr max 0) = a by omega]; simp
    · rw [show max a (l.foldr max 0) = l.foldr max 0 by omega]
      exact List.mem_cons_of_mem _ (ih (by omega))

theorem outOfOrder_zero (l : List Nat) : outOfOrder l = 0 ↔ l.Pairwise (· < ·) := by
  induction l with
  | nil => simp [outOfOrder]
  | cons a l ih =>
    cases l with
    | nil => simp [outOfOrder]
    | cons b l =>
      rw [outOfOrder, Nat.add_eq_zero_iff, ih, List.pairwise_cons (a := a)]
      constructor
      · rintro ⟨h1, h2⟩
        have hab : a < b := by by_contra h; rw [if_pos (by omega)] at h1; omega
        refine ⟨?_, h2⟩
        intro c hc
        rcases List.mem_cons.mp hc with rfl | hc
        · exact hab
        · have := (List.pairwise_cons.mp h2).1 c hc; omega
      · rintro ⟨h1, h2⟩
        have := h1 b (by simp)
        rw [if_neg (by omega)]
        exact ⟨rfl, h2⟩

theorem consecutive (l : List Nat) (s : Nat) (h : l.Pairwise (· < ·)) (hlow : ∀ x ∈ l, s < x) (hup : ∀ x ∈ l, x ≤ s + l.length) : l = List.range' (s+1) l.length := by
  induction l generalizing s with
  | nil => rfl
  | cons a l ih =>
    rw [List.pairwise_cons] at h
    have ha := hlow a (by simp)
    by_cases e : a = s + 1
    · rw [List.length_cons, List.range'_succ, ← e, ← ih a h.2 h.1 (fun x hx => by
        have := hup x (List.mem_cons_of_mem _ hx); rw [List.length_cons] at this; omega)]
    · exfalso
      -- too many elements in the remaining interval
      have key : ∀ (l : List Nat) (t : Nat), l.Pairwise (· < ·) → (∀ x ∈ l, t < x) → l = [] ∨ ∃ x ∈ l, t + l.length ≤ x := by
        intro l
        induction l with
        | nil => intros; exact Or.inl rfl
        | cons b l ih2 =>
          intro t hp hl
          rw [List.pairwise_cons] at hp
          refine Or.inr ?_
          rcases ih2 b hp.2 hp.1 with rfl | ⟨x, hx, hle⟩
          · exact ⟨b, by simp, by have := hl b (by simp); simp; omega⟩
          · have := hl b (by simp)
            exact ⟨x, List.mem_cons_of_mem _ hx, by rw [List.length_cons]; omega⟩
      rcases key (a :: l) (s+1) (List.pairwise_cons.mpr h) (fun x hx => by
        rcases List.mem_cons.mp hx with rfl | hx
        · omega
        · have := h.1 x hx; omega) with h0 | ⟨x, hx, hle⟩
      · cases h0
      · have := hup x hx; omega

theorem elmsById_eq (E : List (Nat × List Int)) : elmsById E = elmPre E ((E.map fun e => e.1).foldr max 0) := rfl

/-- Elements in consecutive order. -/
theorem elmPre_ordered (E : List (Nat × List Int)) (h : (E.map fun e => e.1) = List.range' 1 E.length) : elmPre E E.length = E.map fun e => e.2 := by
  have hn : (E.map fun e => e.1).Nodup := by rw [h]; exact List.nodup_range'
  apply List.ext_getElem
  · rw [elmPre_length, List.length_map]
  · intro i h1 h2
    rw [List.length_map] at h2
    have hi : E[i].1 = i + 1 := by
      have : (E.map fun e => e.1)[i]? = some (i+1) := by
        rw [h, List.getElem?_range' h2]; simp; omega
      rw [List.getElem?_map, List.getElem?_eq_getElem h2] at this
      simpa using this
    have : (elmPre E E.length)[i] = elmNo E (i+1) := by simp [elmPre]
    rw [this, List.getElem_map, ← hi]
    exact elmNo_mem E hn E[i] (List.getElem_mem h2)

theorem initElementConn_spec (P : List (SPatch K)) (hn : ((activeElms P).map fun e => e.1).Nodup) (hpos : ∀ e ∈ activeElms P, 1 ≤ e.1) :
    initElementConn P = some (some ((elmsById (activeElms P)).length, blockPtr (elmsById (activeElms P)), (elmsById (activeElms P)).flatten)) := by
  unfold initElementConn
  generalize activeElms P = E at hn hpos ⊢
  dsimp only
  rw [foldlMax, Nat.zero_max, elmsById_eq]
  by_cases hord : outOfOrder (E.map fun e => e.1) = 0 ∧ (E.map fun e => e.1).foldr max 0 = E.length
  · rw [if_pos hord]
    have hs := (outOfOrder_zero _).mp hord.1
    have hr : (E.map fun e => e.1) = List.range' 1 E.length := by
      have := consecutive (E.map fun e => e.1) 0 hs (by
        intro x hx; obtain ⟨e, he, rfl⟩ := List.mem_map.mp hx; exact hpos e he) (by
        intro x hx; rw [List.length_map, Nat.zero_add, ← hord.2]; exact le_foldrMax _ _ hx)
      rwa [List.length_map] at this
    rw [hord.2, elmPre_ordered E hr, List.length_map]
    simp [List.flatMap]
  · rw [if_neg hord]
    have hz : ((E.zipIdx).map fun p => p.1.1) = E.map fun e => e.1 := by
      have h2 : (E.zipIdx).map (fun p => p.1.1) = ((E.zipIdx).map Prod.fst).map fun e => e.1 := by rw [List.map_map]; rfl
      rw [h2, List.zipIdx_map_fst]
    obtain ⟨S, eS, sS, mS⟩ := (mapFold_spec (fun i => ((blockPtr (E.map fun e => e.2)).getD i 0 - 1,
      ((blockPtr (E.map fun e => e.2)).getD (i + 1) 0 - (blockPtr (E.map fun e => e.2)).getD i 0).toNat)) E.zipIdx [] List.Pairwise.nil).1
      ⟨by rw [hz]; exact hn, by simp⟩
    rw [eS]
    dsimp only
    have hmem : ∀ x ∈ S, ∃ i e, E[i]? = some e ∧ x = (e.1, (((blockPtr (E.map fun e => e.2)).getD i 0 - 1,
      ((blockPtr (E.map fun e => e.2)).getD (i + 1) 0 - (blockPtr (E.map fun e => e.2)).getD i 0).toNat) : Int × Nat)) := by
      intro x hx
      rcases (mS x).mp hx with h | ⟨p, hp, rfl⟩
      · cases h
      · obtain ⟨e, i⟩ := p
        exact ⟨i, e, List.mem_zipIdx_iff_getElem?.mp hp, rfl⟩
    have hmem' : ∀ e ∈ E, e.1 ∈ S.map fun x => x.1 := by
      intro e he
      obtain ⟨i, hi⟩ := List.mem_iff_getElem?.mp he
      exact List.mem_map.mpr ⟨_, (mS _).mpr (Or.inr ⟨(e, i), List.mem_zipIdx_iff_getElem?.mpr hi, rfl⟩), rfl⟩
    have hval : ∀ i e, E[i]? = some e → (blockPtr (E.map fun e => e.2)).getD i 0 - 1 = (((((E.map fun e => e.2).take i).map List.length).sum : Nat) : Int) ∧
        ((blockPtr (E.map fun e => e.2)).getD (i + 1) 0 - (blockPtr (E.map fun e => e.2)).getD i 0).toNat = e.2.length := by
      intro i e hi
      obtain ⟨hlt, he⟩ := List.getElem?_eq_some_iff.mp hi
      unfold blockPtr
      rw [List.getD_eq_getElem?_getD, accumulate_get _ _ i (by simp; omega), List.getD_eq_getElem?_getD, accumulate_get _ _ (i+1) (by simp; omega)]
      simp only [Option.getD_some]
      rw [List.take_succ_eq_append_getElem (by simpa using hlt), List.sum_append, List.map_take]
      constructor
      · push_cast; ring
      · simp [he]
    have hcopy : ∀ x ∈ S, copyInts (E.flatMap fun e => e.2) x.2.1 x.2.2 = some (elmNo E x.1) ∧ (elmNo E x.1).length = x.2.2 := by
      intro x hx
      obtain ⟨i, e, hi, rfl⟩ := hmem x hx
      obtain ⟨v1, v2⟩ := hval i e hi
      dsimp only
      rw [v1, v2, elmNo_mem E hn e (List.mem_of_getElem? hi)]
      refine ⟨?_, rfl⟩
      have hf : (E.flatMap fun e => e.2) = (E.map fun e => e.2).flatten := by simp [List.flatMap]
      rw [hf]
      obtain ⟨f1, f2⟩ := flatten_slice (E.map fun e => e.2) i e.2 (by rw [List.getElem?_map, hi]; rfl)
      unfold copyInts
      rw [if_pos ⟨by omega, by omega⟩, Int.toNat_natCast, f2]
    obtain ⟨N, h1, -, h3, h4⟩ := reorderFold_spec E (E.flatMap fun e => e.2) S 0 sS (by
        intro x hx; obtain ⟨i, e, hi, rfl⟩ := hmem x hx; exact hpos e (List.mem_of_getElem? hi)) (by
        intro e he; exact ⟨fun _ => hmem' e he, fun _ => hpos e he⟩) (by
        intro x hx; obtain ⟨i, e, hi, rfl⟩ := hmem x hx; exact ⟨e, List.mem_of_getElem? hi, rfl⟩) hcopy
    have hN : N = (E.map fun e => e.1).foldr max 0 := by
      rcases h4 with rfl | ⟨e, he, rfl⟩
      · cases hE : E with
        | nil => rfl
        | cons e E' =>
          have := h3 e (by rw [hE]; simp); have := hpos e (by rw [hE]; simp); omega
      · apply le_antisymm
        · exact le_foldrMax _ _ (List.mem_map.mpr ⟨e, he, rfl⟩)
        · by_contra hlt
          obtain ⟨e', he', h'⟩ := List.mem_map.mp (foldrMax_mem (E.map fun e => e.1) (by omega))
          have := h3 e' he'
          omega
    rw [show (([1], []) : List Int × List Int) = (blockPtr (elmPre E 0), (elmPre E 0).flatten) by rfl, h1, hN]
    simp only [Option.bind_eq_bind, Option.bind_some, elmPre_length]
    rfl

/-- Duplicate element numbers are detected. -/
theorem initElementConn_dup (P : List (SPatch K)) (hn : ¬ ((activeElms P).map fun e => e.1).Nodup) : initElementConn P = some none := by
  unfold initElementConn
  generalize activeElms P = E at hn ⊢
  dsimp only
  rw [if_neg]
  · have hz : ((E.zipIdx).map fun p => p.1.1) = E.map fun e => e.1 := by
      have h2 : (E.zipIdx).map (fun p => p.1.1) = ((E.zipIdx).map Prod.fst).map fun e => e.1 := by rw [List.map_map]; rfl
      rw [h2, List.zipIdx_map_fst]
    rw [(mapFold_spec (fun i => ((blockPtr (E.map fun e => e.2)).getD i 0 - 1,
      ((blockPtr (E.map fun e => e.2)).getD (i + 1) 0 - (blockPtr (E.map fun e => e.2)).getD i 0).toNat)) E.zipIdx [] List.Pairwise.nil).2 (by
        rw [hz]; exact fun h => hn h.1)]
    rfl
  · intro h
    exact hn (((outOfOrder_zero _).mp h.1).imp (fun h => Nat.ne_of_lt h))

end IFEM.Spec
