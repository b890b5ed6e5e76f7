import Verif.Props.BlockMats
/-!
# C73: the element matrix and vector put together from blocks
-/
namespace IFEM.Props
open IFEM IFEM.Blk IFEM.Spec.Blk IFEM.Lem

section main
variable {R : Type} [Ring R] {c : Config} {nA nB : Nat} {order : List Nat} {zero : Nat → Bool} {offs : List Nat} {flag : Nat → Int}

theorem place_range (c : Config) (nA k l : Nat) (hk : k < c.nBlk) (hl : l < c.nBlk) (hne : k ≠ l) (u : Bool) (hu : u = true → k < l) :
    c.nBlk < c.place u k l ∧ (loopPairs c.nBlk u)[c.place u k l - c.nBlk - 1]? = some (k, l) := by
  rw [place_eq c u k l hne, show c.nBlk + 1 + (rowStart c.nBlk u k + colPos u k l) - c.nBlk - 1 = rowStart c.nBlk u k + colPos u k l by omega]
  exact ⟨by omega, loopPairs_get c u k l hk hl hne hu⟩

/-- The layouts of the two functions agree except for exactly all blocks above the diagonal. -/
theorem lay_eq (c : Config) (nA : Nat) (h1 : c.nBlk < nA) (h : nA ≠ 1 + c.nBlk * (c.nBlk + 1) / 2) : lay1 c nA = c.Upper nA := by
  unfold lay1 Config.Upper
  apply decide_eq_decide.2
  omega

/-- With two blocks the layouts agree on all pairs that can be stored. -/
theorem lay_two (c : Config) (nA : Nat) (h2 : c.nBlk ≤ 2) (k l : Nat) (hk : k < c.nBlk) (hl : l < c.nBlk) (hne : k < l) (u v : Bool) : c.place u k l = c.place v k l := by
  have hk : k = 0 := by omega
  have hl : l = 1 := by omega
  subst hk hl
  unfold Config.place
  cases u <;> cases v <;> simp

/-- **C73.** Setting up an element: every call reports success, and the matrices and vectors have the
sizes of their blocks.  (With three blocks or more and exactly all blocks above the diagonal the
off-diagonal ones have not, see `C73_upper_counterexample`.) -/
theorem C73_setup (h : c.Calls nA nB order offs) :
    ∃ s : Elm R, c.setup nA nB order zero offs flag = some (true, s) ∧
      s.A.length = nA ∧ s.b.length = nB ∧ s.neldof = c.size ∧ s.A[0]? = some ⟨0, 0, []⟩ ∧ s.b[0]? = some [] ∧
      (∀ k < c.nBlk, s.A[k+1]? = some (if zero k then ⟨0, 0, []⟩ else Mat.zero (c.nen (c.bas k) * c.cmp k) (c.nen (c.bas k) * c.cmp k)) ∧
        s.b[k+1]? = some (List.replicate (c.nen (c.bas k) * c.cmp k) 0)) ∧
      ((c.nBlk ≤ 2 ∨ nA ≠ 1 + c.nBlk * (c.nBlk + 1) / 2) →
        ∀ k l, k < c.nBlk → l < c.nBlk → k ≠ l → (c.Upper nA = true → k < l) → c.place (c.Upper nA) k l < nA →
          s.A[c.place (c.Upper nA) k l]? = some (if c.place (c.Upper nA) k l ∈ offs then Mat.zero (c.nen (c.bas k) * c.cmp k) (c.nen (c.bas l) * c.cmp l) else ⟨0, 0, []⟩)) := by
  obtain ⟨s, hs, e⟩ := setup_eq (R := R) (zero := zero) (flag := flag) h
  refine ⟨_, e, hs.len, ?_, rfl, ?_, ?_, ?_, ?_⟩
  · show s.b.length = nB
    rw [hs.vecs]; exact tab_len _ _
  · show s.A[0]? = _
    rw [hs.low 0 (Nat.zero_le _)]
    refine (tab_get (by have := h.mats; omega)).trans ?_
    rw [if_neg (by simp)]
  · show s.b[0]? = _
    rw [hs.vecs]
    refine (tab_get (by have := h.vecs; omega)).trans ?_
    rw [if_neg (by simp)]
  · intro k hk
    have hm := h.perm.mem_iff.2 (List.mem_range.2 hk)
    constructor
    · show s.A[k+1]? = _
      rw [hs.low (k+1) (by omega)]
      refine (tab_get (by have := h.mats; omega)).trans ?_
      simp only [Nat.add_sub_cancel]
      cases hz : zero k <;> simp [hm]
    · show s.b[k+1]? = _
      rw [hs.vecs]
      refine (tab_get (by have := h.vecs; omega)).trans ?_
      simp [hm]
  · intro hF k l hk hl hne hu hp
    show s.A[_]? = _
    obtain ⟨g1, g2⟩ := place_range c nA k l hk hl hne _ hu
    refine hs.dims _ g1 hp (k, l) ?_
    by_cases hl1 : nA = 1 + c.nBlk * (c.nBlk + 1) / 2
    · have hn : c.nBlk ≤ 2 := by
        rcases hF with hF | hF
        · exact hF
        · exact absurd hl1 hF
      have hUp : c.Upper nA = true := decide_eq_true hl1.le
      have hkl := hu hUp
      rw [lay_two c nA hn k l hk hl hkl _ (lay1 c nA)]
      exact (place_range c nA k l hk hl hne _ fun _ => hkl).2
    · rw [lay_eq c nA h.mats hl1]
      exact g2

theorem start_ready (h : c.Calls nA nB order offs) (s : Elm R) (hs : OffInv c nA flag (afterRedim c nA nB zero order : Elm R) offs s) (A' : List (Mat R)) (b' : List (List R)) :
    Ready c { s with A := A', b := b', neldof := c.size, blockInfo := tab c.nBlk (blkOf c fun k => 1 + (c.start (c.bas k) + c.before k)) } :=
  by
  refine ⟨tab_len _ _, fun k hk => ?_⟩
  refine info_eq c { s with A := A', b := b', neldof := c.size, blockInfo := tab c.nBlk (blkOf c fun k => 1 + (c.start (c.bas k) + c.before k)) } (fun k => 1 + (c.start (c.bas k) + c.before k)) rfl (fun k hk => ?_) k hk
  show ∃ q, s.basisInfo[c.bas k]? = some q ∧ _
  rw [hs.bases]; exact redim_bases h k hk

theorem dof_lt (c : Config) {k a i : Nat} (h : c.Has k a i) : c.dof k a i < c.size := (C73_numbering c).1 k a i h

/-- **C73.** The element matrix: whatever is put in the blocks, the entry for two degrees of freedom
is that of their block, or that of the transposed block with the sign of its flag if the block is
not stored, or zero if neither is; a second call returns the same matrix. -/
theorem C73_newton (h : c.Calls nA nB order offs) :
    ∃ s : Elm R, c.setup nA nB order zero offs flag = some (true, s) ∧
    ∀ A', A'.length = nA → c.Fits A' →
      (∀ k l, k < c.nBlk → l < c.nBlk → k ≠ l → c.block A' k l ≠ none → c.place (c.Upper nA) k l ∈ offs) →
      (∀ k l, k < c.nBlk → l < c.nBlk → k ≠ l → c.block A' k l ≠ none → c.block A' l k ≠ none → flag (c.place (c.Upper nA) k l) = 0) →
      ∃ N, ({ s with A := A' } : Elm R).newton = some (N, { s with A := A'.set 0 N }) ∧
        N.nrow = c.size ∧ N.ncol = c.size ∧ N.WF ∧
        (∀ k l a i b j, c.Has k a i → c.Has l b j →
          N.get? ((c.dof k a i : Int) + 1) ((c.dof l b j : Int) + 1) = some (c.entry A' flag k l a i b j)) ∧
        (({ s with A := A'.set 0 N } : Elm R).newton).map Prod.fst = some N := by
  obtain ⟨s, hs, e⟩ := setup_eq (R := R) (zero := zero) (flag := flag) h
  refine ⟨_, e, fun A' hlen hF hoff hflag => ?_⟩
  subst hlen
  have hr := start_ready h s hs A' s.b
  have hsym : ∀ k l, k < c.nBlk → l < c.nBlk → k ≠ l → c.block A' k l ≠ none →
      s.symmFlag[c.place (c.Upper A'.length) k l - c.nBlk - 1]? = some (flag (c.place (c.Upper A'.length) k l)) := by
    intro k l hk hl hne hb
    have hm := hoff k l hk hl hne hb
    obtain ⟨g1, g2⟩ := h.offs _ hm
    rw [(hs.flags (List.ne_nil_of_mem hm)).2 _ g1 g2, if_pos hm]
  have h0 : Holds c (Mat.zero c.size c.size : Mat R) (fun _ _ _ _ _ _ => 0) := by
    refine ⟨rfl, rfl, by unfold Mat.WF Mat.zero; simp, fun k l a i b j h1 h2 => ?_⟩
    have := pos_lt (dof_lt c h1) (dof_lt c h2)
    show (List.replicate _ _)[_]? = _
    rw [List.getElem?_replicate, if_pos this]
  obtain ⟨N, kb, a1, a2⟩ := rows_spec _ hr hF flag hflag hsym _ h0
  have hget : ∀ k l a i b j, c.Has k a i → c.Has l b j →
          N.get? ((c.dof k a i : Int) + 1) ((c.dof l b j : Int) + 1) = some (c.entry A' flag k l a i b j) := by
    intro k l a i b j h1 h2
    have := get_eq N a2.wf (c.dof k a i) (c.dof l b j) (by rw [a2.rows]; exact dof_lt c h1) (by rw [a2.cols]; exact dof_lt c h2)
    rw [a2.rows, List.getD_eq_getElem?_getD, a2.ent k l a i b j h1 h2] at this
    rw [show ((c.dof k a i : Int) + 1) = ((1 + c.dof k a i : Nat) : Int) by push_cast; ring, show ((c.dof l b j : Int) + 1) = ((1 + c.dof l b j : Nat) : Int) by push_cast; ring]
    exact this
  have hU : Elm.symm2 ({ s with A := A', neldof := c.size, blockInfo := tab c.nBlk (blkOf c fun k => 1 + (c.start (c.bas k) + c.before k)) } : Elm R) = c.Upper A'.length := by
    unfold Elm.symm2 Config.Upper
    dsimp only
    rw [tab_len]
    apply decide_eq_decide.2
    have := hF.2.1
    omega
  have hnew : Elm.newton ({ s with A := A', neldof := c.size, blockInfo := tab c.nBlk (blkOf c fun k => 1 + (c.start (c.bas k) + c.before k)) } : Elm R) =
      some (N, { s with A := A'.set 0 N, neldof := c.size, blockInfo := tab c.nBlk (blkOf c fun k => 1 + (c.start (c.bas k) + c.before k)) }) := by
    unfold Elm.newton
    rw [hU]
    dsimp only
    rw [hF.1]
    simp only [Option.bind_eq_bind, Option.bind_some]
    rw [if_pos (by rfl), resize_empty, tab_len, a1]
    rfl
  refine ⟨N, hnew, a2.rows, a2.cols, a2.wf, hget, ?_⟩
  by_cases hN : N.elem.isEmpty
  · have hN0 : N = ⟨0, 0, []⟩ := by
      have h1 := List.isEmpty_iff.1 hN
      have h2 := a2.wf
      unfold Mat.WF at h2
      rw [h1, a2.rows, a2.cols] at h2
      have h3 : c.size = 0 := by
        rcases Nat.eq_zero_or_pos c.size with h | h
        · exact h
        · have := Nat.mul_pos h h; simp at h2; omega
      rcases N with ⟨n1, n2, el⟩
      have h4 := a2.rows
      have h5 := a2.cols
      dsimp only at h1 h4 h5
      rw [h1, h4, h5, h3]
    have : A'.set 0 N = A' := by
      rw [hN0]
      have := hF.1
      rcases A' with - | ⟨m, A'⟩
      · simp at this
      · have := Option.some.inj this
        rw [List.set_cons_zero, this]
    dsimp only
    rw [this, hnew]; rfl
  · unfold Elm.newton
    dsimp only
    rw [List.getElem?_set_self (by have := hF.2.1; omega)]
    simp only [Option.bind_eq_bind, Option.bind_some]
    rw [if_neg hN]; rfl

/-- Inserting a block vector. -/
theorem insertVec_spec (c : Config) (v w : List R) (k : Nat) (hk : k < c.nBlk) (hv : v.length = c.size) (hw : w.length = c.nen (c.bas k) * c.cmp k) :
    ∃ v', insertVec v w (infoOf c k) = some v' ∧ v'.length = c.size ∧
      ∀ l b j, c.Has l b j → v'[c.dof l b j]? = if l = k then w[b * c.cmp k + j]? else v[c.dof l b j]? := by
  have hloop : ∀ (T : List (Nat × Nat)), (∀ t ∈ T, c.Has k t.1 t.2) → ∀ v : List R, v.length = c.size →
      T.foldlM (fun (v : List R) (t : Nat × Nat) => do
        let x ← w[(infoOf c k).nc*t.1 + t.2]?
        if 1 ≤ (infoOf c k).idof ∧ (infoOf c k).idof - 1 + (infoOf c k).nd*t.1 + t.2 < v.length then some (v.set ((infoOf c k).idof - 1 + (infoOf c k).nd*t.1 + t.2) x) else none) v =
      some (assign (T.map fun t => (c.dof k t.1 t.2, w.getD (t.1 * c.cmp k + t.2) 0)) v) := by
    intro T
    induction T with
    | nil => intro _ v _; rfl
    | cons t T ih =>
      intro hT v hv
      have ht := hT t List.mem_cons_self
      have hd := dof_lt c ht
      have hp : (infoOf c k).idof - 1 + (infoOf c k).nd*t.1 + t.2 = c.dof k t.1 t.2 := by
        have := infoOf_pos c k t.1 t.2
        have : 1 ≤ (infoOf c k).idof := by unfold infoOf; dsimp only; omega
        omega
      have hlt : t.1 * c.cmp k + t.2 < w.length := by
        rw [hw]
        have := Nat.mul_le_mul_right (c.cmp k) (Nat.succ_le_of_lt ht.2.1)
        rw [Nat.succ_mul] at this
        have := ht.2.2
        omega
      have hx : w[(infoOf c k).nc*t.1 + t.2]? = some (w.getD (t.1 * c.cmp k + t.2) 0) := by
        show w[c.cmp k*t.1 + t.2]? = _
        rw [mul_comm, List.getD_eq_getElem?_getD, List.getElem?_eq_getElem hlt]; rfl
      rw [List.foldlM_cons, hx]
      simp only [Option.bind_eq_bind, Option.bind_some]
      rw [hp, if_pos ⟨by unfold infoOf; dsimp only; omega, by omega⟩]
      exact ih (fun t ht => hT t (List.mem_cons_of_mem _ ht)) _ (by simpa using hv)
  have hT : ∀ t, t ∈ Mat.pairs (infoOf c k).nen (infoOf c k).nc ↔ c.Has k t.1 t.2 := by
    intro t
    unfold Mat.pairs Config.Has infoOf
    obtain ⟨x, y⟩ := t
    simp [hk]
  refine ⟨_, hloop _ (fun t ht => (hT t).1 ht) v hv, by rw [assign_len, hv], fun l b j h => ?_⟩
  by_cases e : l = k
  · subst e
    have hlt : b * c.cmp l + j < w.length := by
      rw [hw]
      have := Nat.mul_le_mul_right (c.cmp l) (Nat.succ_le_of_lt h.2.1)
      rw [Nat.succ_mul] at this
      have := h.2.2
      omega
    rw [if_pos rfl, assign_hit _ _ _ (w.getD (b * c.cmp l + j) 0) (by rw [hv]; exact dof_lt c h)]
    · rw [List.getD_eq_getElem?_getD, List.getElem?_eq_getElem hlt]; rfl
    · exact ⟨_, List.mem_map.2 ⟨(b, j), (hT _).2 h, rfl⟩, rfl⟩
    · intro x hx hxe
      obtain ⟨t, ht, rfl⟩ := List.mem_map.1 hx
      obtain ⟨_, h1, h2⟩ := (C73_numbering c).2.1 _ _ _ _ _ _ ((hT t).1 ht) h hxe
      dsimp only
      rw [h1, h2]
  · rw [if_neg e, assign_other]
    intro x hx hxe
    obtain ⟨t, ht, rfl⟩ := List.mem_map.1 hx
    exact e ((C73_numbering c).2.1 _ _ _ _ _ _ ((hT t).1 ht) h hxe).1.symm

/-- **C73.** The element vector: the entry for a degree of freedom is that of the vector of its block. -/
theorem C73_rhs (h : c.Calls nA nB order offs) :
    ∃ s : Elm R, c.setup nA nB order zero offs flag = some (true, s) ∧
    ∀ b', c.FitsV b' →
      ∃ v, ({ s with b := b' } : Elm R).rhs = some (v, { s with b := b'.set 0 v }) ∧ v.length = c.size ∧
        (∀ k a i, c.Has k a i → v[c.dof k a i]? = (b'[k+1]?).bind fun w => w[a * c.cmp k + i]?) ∧
        (({ s with b := b'.set 0 v } : Elm R).rhs).map Prod.fst = some v := by
  obtain ⟨s, hs, e⟩ := setup_eq (R := R) (zero := zero) (flag := flag) h
  refine ⟨_, e, fun b' hF => ?_⟩
  have hr := start_ready h s hs s.A b'
  have hloop : ∀ m, m ≤ c.nBlk → ∃ v : List R, (List.range m).foldlM (fun (v : List R) (ib : Nat) => do
      let bi ← ({ s with b := b', neldof := c.size, blockInfo := tab c.nBlk (blkOf c fun k => 1 + (c.start (c.bas k) + c.before k)) } : Elm R).info ib
      let w ← b'[1 + ib]?
      insertVec v w bi) (List.replicate c.size 0) = some v ∧ v.length = c.size ∧
      ∀ k a i, c.Has k a i → k < m → v[c.dof k a i]? = (b'[k+1]?).bind fun w => w[a * c.cmp k + i]? := by
    intro m
    induction m with
    | zero => intro _; exact ⟨_, rfl, by simp, fun _ _ _ _ h => absurd h (by omega)⟩
    | succ m ih =>
      intro hm
      obtain ⟨v, a1, a2, a3⟩ := ih (by omega)
      obtain ⟨w, w1, w2⟩ := hF.2 m (by omega)
      obtain ⟨v', b1, b2, b3⟩ := insertVec_spec c v w m (by omega) a2 w2
      refine ⟨v', ?_, b2, fun k a i hk hlt => ?_⟩
      · rw [List.range_succ, List.foldlM_append, a1]
        simp only [List.foldlM_cons, List.foldlM_nil, Option.bind_eq_bind, Option.bind_some]
        rw [hr.info m (by omega), show 1 + m = m + 1 by omega, w1]
        simp only [Option.bind_some]
        rw [b1]; rfl
      · rw [b3 k a i hk]
        by_cases e : k = m
        · subst e; rw [if_pos rfl, w1]; rfl
        · rw [if_neg e, a3 k a i hk (by omega)]
  obtain ⟨v, a1, a2, a3⟩ := hloop _ (le_refl _)
  have hres : vresize ([] : List R) c.size = List.replicate c.size 0 := by
    unfold vresize
    by_cases h0 : c.size = 0
    · rw [h0]; rfl
    · rw [if_neg (by simpa using h0)]
  have hnew : Elm.rhs ({ s with b := b', neldof := c.size, blockInfo := tab c.nBlk (blkOf c fun k => 1 + (c.start (c.bas k) + c.before k)) } : Elm R) =
      some (v, { s with b := b'.set 0 v, neldof := c.size, blockInfo := tab c.nBlk (blkOf c fun k => 1 + (c.start (c.bas k) + c.before k)) }) := by
    unfold Elm.rhs
    dsimp only
    rw [hF.1]
    simp only [Option.bind_eq_bind, Option.bind_some]
    rw [if_pos (by rfl), hres, tab_len]
    simp only [Option.bind_eq_bind] at a1
    rw [a1]
    rfl
  refine ⟨v, hnew, a2, fun k a i hk => a3 k a i hk hk.1, ?_⟩
  have hlen : 0 < b'.length := (List.getElem?_eq_some_iff.1 hF.1).1
  by_cases hN : v.isEmpty
  · have hN := List.isEmpty_iff.1 hN
    have : b'.set 0 v = b' := by
      have := hF.1
      rcases b' with - | ⟨m, b'⟩
      · simp at this
      · have := Option.some.inj this
        rw [List.set_cons_zero, this, hN]
    dsimp only
    rw [this, hnew]; rfl
  · unfold Elm.rhs
    dsimp only
    rw [List.getElem?_set_self hlen]
    simp only [Option.bind_eq_bind, Option.bind_some]
    rw [if_neg hN]; rfl

end main
/-! ### Examples -/

/-- Two components and one component on a basis with two nodes, with one component on a basis with one
node in between. -/
def exConfig : Config := ⟨3, 2, fun k => if k = 1 then 1 else 0, fun k => if k = 0 then 2 else 1, fun j => if j = 0 then 2 else 1, by decide⟩

example : exConfig.size = 7 := by decide +kernel
example : ((List.range 2).map fun a => [exConfig.dof 0 a 0, exConfig.dof 0 a 1, exConfig.dof 2 a 0]) = [[0, 1, 2], [3, 4, 5]] ∧ exConfig.dof 1 0 0 = 6 := by decide +kernel

/-- The calls: five matrices besides the element matrix, only the blocks (0,1) and (0,2) above the
diagonal stored. -/
theorem exCalls : exConfig.Calls 6 4 [2, 0, 1] [4, 5] := ⟨by decide, by decide, by decide, by decide, by decide⟩

/-- The block matrices: mass like diagonal blocks, a zero block, an antisymmetric and a symmetric coupling. -/
def exMats : List (Mat Int) :=
  [⟨0, 0, []⟩, ⟨4, 4, [1,2,3,4, 5,6,7,8, 9,10,11,12, 13,14,15,16]⟩, ⟨0, 0, []⟩, ⟨2, 2, [17,18,19,20]⟩, ⟨4, 1, [21,22,23,24]⟩, ⟨4, 2, [25,26,27,28, 29,30,31,32]⟩]

theorem exBlock_none (k l : Nat) (hk : k < 3) (hl : l < 3) (h : (k, l) ∉ [(0,0), (2,2), (0,1), (0,2)]) : exConfig.block exMats k l = none := by
  interval_cases k <;> interval_cases l <;> first | decide +kernel | (exfalso; revert h; decide)

theorem exFits : exConfig.Fits exMats := by
  refine ⟨rfl, by decide, fun k l hk hl M hM => ?_⟩
  change k < 3 at hk
  change l < 3 at hl
  by_cases h : (k, l) ∈ [(0,0), (2,2), (0,1), (0,2)]
  · simp only [List.mem_cons, Prod.mk.injEq, List.not_mem_nil, or_false] at h
    rcases h with h | h | h | h
    all_goals
      obtain ⟨rfl, rfl⟩ := h
      obtain rfl := Option.some.inj hM
      exact ⟨by decide, by decide, by unfold Mat.WF; decide⟩
  · rw [exBlock_none k l hk hl h] at hM
    cases hM

/-- The hypotheses of `C73_newton` hold. -/
example : (∀ k l, k < 3 → l < 3 → k ≠ l → exConfig.block exMats k l ≠ none → exConfig.place (exConfig.Upper 6) k l ∈ [4, 5]) ∧
    (∀ k l, k < 3 → l < 3 → k ≠ l → exConfig.block exMats k l ≠ none → exConfig.block exMats l k = none) := by
  constructor <;> intro k l hk hl hne hb
  · by_cases h : (k, l) ∈ [(0,0), (2,2), (0,1), (0,2)]
    · simp only [List.mem_cons, Prod.mk.injEq, List.not_mem_nil, or_false] at h
      rcases h with h | h | h | h
      all_goals
        obtain ⟨rfl, rfl⟩ := h
        first | exact absurd rfl hne | decide +kernel
    · exact absurd (exBlock_none k l hk hl h) hb
  · by_cases h : (k, l) ∈ [(0,0), (2,2), (0,1), (0,2)]
    · simp only [List.mem_cons, Prod.mk.injEq, List.not_mem_nil, or_false] at h
      rcases h with h | h | h | h
      all_goals
        obtain ⟨rfl, rfl⟩ := h
        first | exact absurd rfl hne | decide +kernel
    · exact absurd (exBlock_none k l hk hl h) hb

/-- The matrix of the example. -/
example : ((exConfig.setup 6 4 [2, 0, 1] (fun k => decide (k = 1)) [4, 5] (fun p => if p = 4 then -1 else 1) : Option (Bool × Elm Int)).bind fun r =>
      ({ r.2 with A := exMats } : Elm Int).newton.map fun x => (r.1, x.1.elem)) =
    some (true,
      [ 1,  2, 25,  3,  4, 29, -21,
        5,  6, 26,  7,  8, 30, -22,
       25, 26, 17, 27, 28, 18,   0,
        9, 10, 27, 11, 12, 31, -23,
       13, 14, 28, 15, 16, 32, -24,
       29, 30, 19, 31, 32, 20,   0,
       21, 22,  0, 23, 24,  0,   0]) := by decide +kernel

/-- **C73**, refused sizes: `redim` succeeds exactly when the block exists and has a vector (and a matrix unless the basis is negated), and a
block other than the whole system is given an existing one-based basis number; no other matrix, vector or basis
is changed, and nothing is changed for what does not exist. -/
theorem C73_refuses (s : Elm Int) (blk nen ncmp : Nat) (basis : Int) :
    ((s.redim blk nen ncmp basis).1 = true ↔ blk ≤ s.blockInfo.length ∧ blk < s.b.length ∧ (0 ≤ basis → blk < s.A.length) ∧
      (blk ≠ 0 → basis ≠ 0 ∧ basis.natAbs ≤ s.basisInfo.length)) ∧
    (∀ i, i ≠ blk ∨ s.blockInfo.length < blk ∨ basis < 0 → (s.redim blk nen ncmp basis).2.A[i]? = s.A[i]?) ∧
    (∀ i, i ≠ blk ∨ s.blockInfo.length < blk → (s.redim blk nen ncmp basis).2.b[i]? = s.b[i]?) ∧
    (∀ i, i + 1 ≠ basis.natAbs → (s.redim blk nen ncmp basis).2.basisInfo[i]? = s.basisInfo[i]?) := by
  have hA : (redimA s blk nen ncmp basis).1 = true ↔ (0 ≤ basis → blk ≤ s.blockInfo.length ∧ blk < s.A.length) := by
    unfold redimA
    by_cases h : basis < 0
    · rw [if_pos h]; simp; omega
    · rw [if_neg h]
      by_cases h2 : blk ≤ s.blockInfo.length ∧ blk < s.A.length
      · rw [if_pos h2]; simp [h2]
      · rw [if_neg h2]; simp; omega
  have hA2 : ∀ i, i ≠ blk ∨ s.blockInfo.length < blk ∨ basis < 0 → (redimA s blk nen ncmp basis).2[i]? = s.A[i]? := by
    intro i hi
    unfold redimA
    by_cases h : basis < 0
    · rw [if_pos h]
    · rw [if_neg h]
      by_cases h2 : blk ≤ s.blockInfo.length ∧ blk < s.A.length
      · rw [if_pos h2]
        dsimp only
        have hne : blk ≠ i := by omega
        exact List.getElem?_modify_ne _ _ hne
      · rw [if_neg h2]
  have hB : (redimB s blk nen ncmp).1 = true ↔ (blk ≤ s.blockInfo.length ∧ blk < s.b.length) := by
    unfold redimB
    by_cases h2 : blk ≤ s.blockInfo.length ∧ blk < s.b.length
    · rw [if_pos h2]; simp [h2]
    · rw [if_neg h2]; simp; omega
  have hB2 : ∀ i, i ≠ blk ∨ s.blockInfo.length < blk → (redimB s blk nen ncmp).2[i]? = s.b[i]? := by
    intro i hi
    unfold redimB
    by_cases h2 : blk ≤ s.blockInfo.length ∧ blk < s.b.length
    · rw [if_pos h2]
      dsimp only
      have hne : blk ≠ i := by omega
      exact List.getElem?_modify_ne _ _ hne
    · rw [if_neg h2]
  have hQ : (redimBasis s.basisInfo nen ncmp (basis.natAbs : Int)).1 = true ↔ (basis ≠ 0 ∧ basis.natAbs ≤ s.basisInfo.length) := by
    unfold redimBasis
    by_cases h2 : (basis.natAbs : Int) > 0 ∧ (basis.natAbs : Int) ≤ s.basisInfo.length
    · rw [if_pos h2]; simp; omega
    · rw [if_neg h2]; simp; omega
  have hQ2 : ∀ i, i + 1 ≠ basis.natAbs → (redimBasis s.basisInfo nen ncmp (basis.natAbs : Int)).2[i]? = s.basisInfo[i]? := by
    intro i hi
    unfold redimBasis
    by_cases h2 : (basis.natAbs : Int) > 0 ∧ (basis.natAbs : Int) ≤ s.basisInfo.length
    · rw [if_pos h2]
      dsimp only
      have hne : basis.natAbs - 1 ≠ i := by omega
      exact List.getElem?_modify_ne _ _ hne
    · rw [if_neg h2]
  unfold Elm.redim
  by_cases h : blk = 0
  · rw [if_pos h]
    refine ⟨?_, hA2, hB2, fun _ _ => rfl⟩
    simp only [Bool.and_eq_true, hA, hB]
    constructor
    · rintro ⟨a, b, c⟩; exact ⟨b, c, fun h => (a h).2, fun h' => absurd h h'⟩
    · rintro ⟨a, b, c, _⟩; exact ⟨fun h => ⟨a, c h⟩, a, b⟩
  · rw [if_neg h]
    refine ⟨?_, hA2, hB2, hQ2⟩
    simp only [Bool.and_eq_true, hA, hB, hQ, decide_eq_true_eq]
    constructor
    · rintro ⟨⟨⟨a, b, c⟩, _⟩, d⟩; exact ⟨b, c, fun h => (a h).2, fun _ => d⟩
    · rintro ⟨a, b, c, d⟩; exact ⟨⟨⟨fun h => ⟨a, c h⟩, a, b⟩, a⟩, d h⟩

/-- **F117.** With three blocks and all blocks above the diagonal, `redimOffDiag` gives the last of them,
which `getNewtonMatrix` takes for the block (1,2), the dimensions of the block (1,0). -/
theorem C73_upper_counterexample :
    exConfig.Upper 7 = true ∧ exConfig.place true 1 2 = 6 ∧ exConfig.Calls 7 4 [0, 1, 2] [4, 5, 6] ∧
    (exConfig.setup 7 4 [0, 1, 2] (fun _ => false) [4, 5, 6] (fun _ => 1) : Option (Bool × Elm Int)).map (fun r => (r.1, r.2.A.map fun m => (m.nrow, m.ncol))) =
      some (true, [(0, 0), (4, 4), (1, 1), (2, 2), (4, 1), (4, 2), (1, 4)]) ∧
    (exConfig.nen (exConfig.bas 1) * exConfig.cmp 1, exConfig.nen (exConfig.bas 2) * exConfig.cmp 2) = (1, 2) :=
  ⟨by decide, by decide +kernel, ⟨by decide, by decide, by decide, by decide, by decide⟩, by decide +kernel, by decide⟩

/-- **F118.** The position just past the last matrix is not refused by `redimOffDiag`. -/
theorem C73_guard_counterexample :
    (exConfig.setup 6 4 [0, 1, 2] (fun _ => false) [] (fun _ => 1) : Option (Bool × Elm Int)).map (fun r => (r.1, (r.2.redimOffDiag 6 1).isNone, (r.2.redimOffDiag 7 1).map Prod.fst)) =
      some (true, true, some false) := by decide +kernel

/-- **F119.** Giving the size of a block twice counts its components twice, and the element matrix is then
written outside its bounds although all calls reported success:
two blocks of one component on one basis with two nodes. -/
theorem C73_twice_counterexample :
    (let c : Config := ⟨2, 1, fun _ => 0, fun _ => 1, fun _ => 2, by decide⟩
     (c.setup 3 3 [0, 0, 1] (fun _ => false) [] (fun _ => 1) : Option (Bool × Elm Int)).map (fun r => (r.1, r.2.basisInfo.map Basis.ncmp,
        ({ r.2 with A := [⟨0, 0, []⟩, ⟨2, 2, [1, 2, 3, 4]⟩, ⟨2, 2, [5, 6, 7, 8]⟩] } : Elm Int).newton.map fun x => x.1.elem))) =
      some (true, [3], none) := by decide +kernel

end IFEM.Props
