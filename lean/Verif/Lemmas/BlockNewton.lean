import Verif.Lemmas.BlockInsert
/-!
# Lemmas on the element matrix put together from blocks
-/
namespace IFEM.Lem
open IFEM IFEM.Blk IFEM.Spec.Blk IFEM.Props

variable {R : Type} [Ring R] (c : Config)

theorem pos_inj {n a b x y : Nat} (ha : a < n) (hx : x < n) (h : a + n * b = x + n * y) : a = x ∧ b = y := by
  have h1 : (a + n * b) % n = a := by rw [Nat.add_mul_mod_self_left, Nat.mod_eq_of_lt ha]
  have h2 : (x + n * y) % n = x := by rw [Nat.add_mul_mod_self_left, Nat.mod_eq_of_lt hx]
  have e : a = x := by rw [← h1, h, h2]
  subst e
  exact ⟨rfl, Nat.eq_of_mul_eq_mul_left (by omega : 0 < n) (Nat.add_left_cancel h)⟩

theorem pos_lt {n a b : Nat} (ha : a < n) (hb : b < n) : a + n * b < n * n := by
  have := Nat.mul_le_mul_left n (Nat.succ_le_of_lt hb)
  rw [Nat.mul_succ] at this
  omega

/-- The matrix holds the given entries. -/
structure Holds (N : Mat R) (e : Nat → Nat → Nat → Nat → Nat → Nat → R) : Prop where
  rows : N.nrow = c.size
  cols : N.ncol = c.size
  wf : N.WF
  ent : ∀ k l a i b j, c.Has k a i → c.Has l b j → N.elem[c.dof k a i + c.size * c.dof l b j]? = some (e k l a i b j)

theorem Holds.congr {N : Mat R} {e e' : Nat → Nat → Nat → Nat → Nat → Nat → R} (h : Holds c N e) (he : ∀ k l a i b j, c.Has k a i → c.Has l b j → e k l a i b j = e' k l a i b j) : Holds c N e' :=
  ⟨h.rows, h.cols, h.wf, fun k l a i b j h1 h2 => by rw [h.ent k l a i b j h1 h2, he k l a i b j h1 h2]⟩

/-- Inserting a block. -/
theorem insert_spec (M : Mat R) (hM : M.WF) (hne : M.elem.isEmpty = false) (k l : Nat) (hk : k < c.nBlk) (hl : l < c.nBlk) (f : Int) (hf : f = 0 ∨ k ≠ l)
    (hr : M.nrow = c.nen (c.bas k) * c.cmp k) (hc : M.ncol = c.nen (c.bas l) * c.cmp l) (N : Mat R) (e : Nat → Nat → Nat → Nat → Nat → Nat → R) (hN : Holds c N e) :
    ∃ N', insertOff N M (infoOf c k) (infoOf c l) (some f) = some N' ∧
      Holds c N' (fun k' l' a i b j => if k' = k ∧ l' = l then c.blockEntry M k l a i b j
        else if k' = l ∧ l' = k ∧ f ≠ 0 then (Int.sign f : R) * c.blockEntry M k l b j a i else e k' l' a i b j) := by
  refine ⟨{ N with elem := assign ((quads (c.nen (c.bas k)) (c.nen (c.bas l)) (c.cmp k) (c.cmp l)).flatMap (writes c M k l f)) N.elem }, ?_, ?_⟩
  · unfold insertOff
    rw [hne, if_neg (by decide)]
    exact insert_loop c M hM k l hk hl f hr hc _ (fun t ht => mem_quads.1 ht) N hN.wf hN.rows hN.cols
  · obtain ⟨n1, n2, _⟩ := C73_numbering c
    refine ⟨hN.rows, hN.cols, ?_, ?_⟩
    · show (assign _ _).length = _
      rw [assign_len]; exact hN.wf
    · intro k' l' a i b j h1 h2
      have hlen : c.dof k' a i + c.size * c.dof l' b j < N.elem.length := by
        rw [hN.wf, hN.rows, hN.cols]
        exact pos_lt (n1 _ _ _ h1) (n1 _ _ _ h2)
      -- what an assignment to this position is
      have hw : ∀ w ∈ (quads (c.nen (c.bas k)) (c.nen (c.bas l)) (c.cmp k) (c.cmp l)).flatMap (writes c M k l f), w.1 = c.dof k' a i + c.size * c.dof l' b j →
          (k' = k ∧ l' = l ∧ w.2 = c.blockEntry M k l a i b j) ∨ (k' = l ∧ l' = k ∧ f ≠ 0 ∧ w.2 = (Int.sign f : R) * c.blockEntry M k l b j a i) := by
        intro w hw e
        obtain ⟨t, ht, hw⟩ := List.mem_flatMap.1 hw
        obtain ⟨t1, t2, t3, t4⟩ := mem_quads.1 ht
        have d1 := n1 k t.1 t.2.2.1 ⟨hk, t1, t3⟩
        have d2 := n1 l t.2.1 t.2.2.2 ⟨hl, t2, t4⟩
        unfold writes at hw
        rcases List.mem_cons.1 hw with rfl | hw
        · obtain ⟨e1, e2⟩ := pos_inj d1 (n1 _ _ _ h1) e
          obtain ⟨rfl, rfl, rfl⟩ := n2 _ _ _ _ _ _ ⟨hk, t1, t3⟩ h1 e1
          obtain ⟨rfl, rfl, rfl⟩ := n2 _ _ _ _ _ _ ⟨hl, t2, t4⟩ h2 e2
          exact Or.inl ⟨rfl, rfl, rfl⟩
        · by_cases h0 : f ≠ 0
          · rw [if_pos h0] at hw
            obtain rfl := List.mem_singleton.1 hw
            obtain ⟨e1, e2⟩ := pos_inj d2 (n1 _ _ _ h1) e
            obtain ⟨rfl, rfl, rfl⟩ := n2 _ _ _ _ _ _ ⟨hl, t2, t4⟩ h1 e1
            obtain ⟨rfl, rfl, rfl⟩ := n2 _ _ _ _ _ _ ⟨hk, t1, t3⟩ h2 e2
            exact Or.inr ⟨rfl, rfl, h0, rfl⟩
          · rw [if_neg h0] at hw; cases hw
      show (assign _ _)[_]? = _
      by_cases c1 : k' = k ∧ l' = l
      · obtain ⟨rfl, rfl⟩ := c1
        rw [if_pos ⟨rfl, rfl⟩]
        refine assign_hit _ _ _ _ hlen ?_ ?_
        · exact ⟨_, List.mem_flatMap.2 ⟨(a, b, i, j), mem_quads.2 ⟨h1.2.1, h2.2.1, h1.2.2, h2.2.2⟩, List.mem_cons_self⟩, rfl⟩
        · intro w hw' e
          rcases hw w hw' e with h | h
          · exact h.2.2
          · rcases hf with h0 | h0
            · exact absurd h0 h.2.2.1
            · exact absurd h.1 h0
      · rw [if_neg c1]
        by_cases c2 : k' = l ∧ l' = k ∧ f ≠ 0
        · rw [if_pos c2]
          obtain ⟨rfl, rfl, h0⟩ := c2
          refine assign_hit _ _ _ _ hlen ?_ ?_
          · refine ⟨(c.dof k' a i + c.size * c.dof l' b j, (Int.sign f : R) * c.blockEntry M l' k' b j a i), List.mem_flatMap.2 ⟨(b, a, j, i), mem_quads.2 ⟨h2.2.1, h1.2.1, h2.2.2, h1.2.2⟩, ?_⟩, ?_⟩
            · unfold writes
              rw [if_pos h0]
              exact List.mem_cons_of_mem _ (List.mem_singleton.2 rfl)
            · rfl
          · intro w hw' e
            rcases hw w hw' e with h | h
            · exact absurd ⟨h.1, h.2.1⟩ c1
            · exact h.2.2.2
        · rw [if_neg c2, assign_other, hN.ent _ _ _ _ _ _ h1 h2]
          intro w hw' e
          rcases hw w hw' e with h | h
          · exact c1 ⟨h.1, h.2.1⟩
          · exact c2 ⟨h.1, h.2.1, h.2.2.1⟩

theorem insertDiag_eq (N M : Mat R) (bi : Info) : insertDiag N M bi = insertOff N M bi bi (some 0) := by
  unfold insertDiag insertOff
  by_cases h : M.elem.isEmpty
  · rw [if_pos h, if_pos h]
  · rw [if_neg h, if_neg h]
    congr 1
    funext N t
    congr 1
    funext v
    simp only [Option.bind_eq_bind, Option.bind_some]
    unfold mirror
    simp

/-- The entry when only the blocks in `D` have been inserted. -/
def partEntry (A : List (Mat R)) (flag : Nat → Int) (D : Nat → Nat → Bool) (k l a i b j : Nat) : R :=
  match (if D k l then c.block A k l else none) with
  | some M => c.blockEntry M k l a i b j
  | none =>
    match (if D l k then c.block A l k else none) with
    | some M => ((Int.sign (flag (c.place (c.Upper A.length) l k)) : Int) : R) * c.blockEntry M l k b j a i
    | none => 0

/-- One more block. -/
def addBlk (D : Nat → Nat → Bool) (k l : Nat) : Nat → Nat → Bool := fun k' l' => D k' l' || (decide (k' = k) && decide (l' = l))

theorem addBlk_self (D : Nat → Nat → Bool) (k l : Nat) : addBlk D k l k l = true := by simp [addBlk]

theorem addBlk_other (D : Nat → Nat → Bool) (k l k' l' : Nat) (h : ¬(k' = k ∧ l' = l)) : addBlk D k l k' l' = D k' l' := by
  unfold addBlk
  by_cases h1 : k' = k
  · by_cases h2 : l' = l
    · exact absurd ⟨h1, h2⟩ h
    · simp [h2]
  · simp [h1]

theorem part_none (A : List (Mat R)) (flag : Nat → Int) (D : Nat → Nat → Bool) (k l : Nat) (h : c.block A k l = none) (k' l' a i b j : Nat) :
    partEntry c A flag (addBlk D k l) k' l' a i b j = partEntry c A flag D k' l' a i b j := by
  have key : ∀ x y, (if addBlk D k l x y then c.block A x y else none) = if D x y then c.block A x y else none := by
    intro x y
    by_cases e : x = k ∧ y = l
    · rw [e.1, e.2, h]; simp
    · rw [addBlk_other D k l x y e]
  unfold partEntry
  rw [key, key]

/-- Inserting the block `(k,l)`, which has not been inserted before. -/
theorem step_spec (A : List (Mat R)) (hA : c.Fits A) (flag : Nat → Int)
    (hflag : ∀ k l, k < c.nBlk → l < c.nBlk → k ≠ l → c.block A k l ≠ none → c.block A l k ≠ none → flag (c.place (c.Upper A.length) k l) = 0)
    (D : Nat → Nat → Bool) (k l : Nat) (hk : k < c.nBlk) (hl : l < c.nBlk) (hD : D k l = false) (M : Mat R)
    (hM : (if M.elem.isEmpty then none else some M) = c.block A k l) (g : Option Int)
    (hg : k ≠ l → M.elem.isEmpty = false → g = some (flag (c.place (c.Upper A.length) k l))) (hg0 : k = l → g = some 0)
    (N : Mat R) (hN : Holds c N (partEntry c A flag D)) :
    ∃ N', insertOff N M (infoOf c k) (infoOf c l) g = some N' ∧ Holds c N' (partEntry c A flag (addBlk D k l)) := by
  by_cases he : M.elem.isEmpty
  · rw [if_pos he] at hM
    refine ⟨N, ?_, hN.congr c fun k' l' a i b j _ _ => (part_none c A flag D k l hM.symm k' l' a i b j).symm⟩
    unfold insertOff
    rw [if_pos he]
  · have he' : M.elem.isEmpty = false := by simpa using he
    rw [if_neg he] at hM
    obtain ⟨f1, f2, f3⟩ := hA.2.2 k l hk hl M hM.symm
    obtain ⟨f, hf, hf'⟩ : ∃ f, g = some f ∧ ((k = l ∧ f = 0) ∨ (k ≠ l ∧ f = flag (c.place (c.Upper A.length) k l))) := by
      by_cases e : k = l
      · exact ⟨0, hg0 e, Or.inl ⟨e, rfl⟩⟩
      · exact ⟨_, hg e he', Or.inr ⟨e, rfl⟩⟩
    subst hf
    obtain ⟨N', h1, h2⟩ := insert_spec c M f3 he' k l hk hl f (by rcases hf' with h | h; exacts [Or.inl h.2, Or.inr h.1]) f1 f2 N _ hN
    refine ⟨N', h1, h2.congr c fun k' l' a i b j _ _ => ?_⟩
    by_cases c1 : k' = k ∧ l' = l
    · rw [if_pos c1]
      unfold partEntry
      rw [c1.1, c1.2, addBlk_self, if_pos rfl, ← hM]
    · rw [if_neg c1]
      have q1 : addBlk D k l k' l' = D k' l' := addBlk_other _ _ _ _ _ c1
      by_cases c2 : k' = l ∧ l' = k
      · obtain ⟨rfl, rfl⟩ := c2
        have hne : l' ≠ k' := fun h => c1 ⟨h.symm, h⟩
        have hf2 : f = flag (c.place (c.Upper A.length) l' k') := by
          rcases hf' with h | h
          · exact absurd h.1 hne
          · exact h.2
        by_cases hb : D k' l' = true ∧ c.block A k' l' ≠ none
        · have h0 : f = 0 := by
            rw [hf2]
            exact hflag l' k' hk hl hne (by rw [← hM]; simp) hb.2
          rw [if_neg (fun h => h.2.2 h0)]
          unfold partEntry
          rw [q1, if_pos hb.1]
          obtain ⟨M', hM'⟩ := Option.ne_none_iff_exists'.1 hb.2
          rw [hM']
        · have hbn : (if D k' l' then c.block A k' l' else none) = none := by
            by_cases hd : D k' l' = true
            · rw [if_pos hd]
              by_contra hc
              exact hb ⟨hd, hc⟩
            · rw [if_neg hd]
          unfold partEntry
          rw [q1, hbn, addBlk_self, if_pos rfl, ← hM, hD]
          dsimp only
          rw [← hf2]
          by_cases h0 : f ≠ 0
          · rw [if_pos ⟨rfl, rfl, h0⟩]
          · rw [if_neg (fun h => h0 h.2.2)]
            rw [not_not.1 h0]
            simp
      · rw [if_neg (fun h => c2 ⟨h.1, h.2.1⟩)]
        unfold partEntry
        rw [q1, addBlk_other D k l l' k' (fun h => c2 ⟨h.2, h.1⟩)]

end IFEM.Lem
