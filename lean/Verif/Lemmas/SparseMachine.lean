import Verif.Spec.SparseMachine
import Verif.Lemmas.SparseOps
import Verif.Lemmas.SparseConv
/-! Refinement of the abstract sparse matrix. -/
namespace IFEM
open Sparse
variable {R : Type} [CommRing R]

/-- The stored matrix implements the abstract one. -/
structure Impl (M : Sparse R) (S : SpAbs R) : Prop where
  nrow : M.nrow = S.nrow
  ncol : M.ncol = S.ncol
  mode : M.editable = S.mode
  held : ∃ T, Holds M T ∧ (∀ r c, (r, c) ∈ T.map Prod.fst ↔ S.has r c) ∧ ∀ r c, (VMap.find? T (r, c)).getD 0 = S.val r c

theorem Impl.val {M : Sparse R} {S : SpAbs R} (h : Impl M S) (r c : Nat) : M.get? r c = some (S.val r c) := by
  obtain ⟨T, h1, -, h3⟩ := h.held
  rw [get?_spec h1, h3]

theorem impl_update {M : Sparse R} {S : SpAbs R} (h : Impl M S) (r c : Nat) (f : R → R) :
    Impl ((M.modify? f r c).getD M) (S.update r c f) ∧ ((M.modify? f r c).getD M).solver = M.solver ∧
    ((M.modify? f r c).isSome ↔ (1 ≤ r ∧ r ≤ S.nrow ∧ 1 ≤ c ∧ c ≤ S.ncol) ∧ (S.mode = .pattern ∨ S.has r c)) := by
  obtain ⟨T, h1, h2, h3⟩ := h.held
  unfold SpAbs.update
  by_cases hr : 1 ≤ r ∧ r ≤ S.nrow ∧ 1 ≤ c ∧ c ≤ S.ncol
  · by_cases hm : S.mode = .pattern ∨ S.has r c
    · rw [if_pos ⟨hr, hm⟩]
      obtain ⟨M', T', g1, g2, g3, g4, g5, g6, g7, g8⟩ := modify?_spec h1 f r c (by rw [h.nrow, h.ncol]; exact hr)
        (by rw [h.mode, h2]; exact hm)
      rw [g1]
      refine ⟨⟨g3.trans h.nrow, g4.trans h.ncol, g5.trans h.mode, T', g2, ?_, ?_⟩, g6, by simp [hr, hm]⟩
      · intro i j
        rw [g8, h2]
        simp only [Prod.mk.injEq]
      · intro i j
        rw [g7]
        simp only [Prod.mk.injEq]
        split
        · rw [Option.getD_some, h3]
        · exact h3 i j
    · have : M.modify? f r c = none := by
        apply modify?_missing h1 f r c
        · rw [h.mode]; tauto
        · rw [h2]; tauto
      rw [this, if_neg (by tauto)]
      exact ⟨h, rfl, by simp [hm]⟩
  · have : M.modify? f r c = none := by
      unfold modify? inRange
      rw [h.nrow, h.ncol]
      rw [if_pos (by rw [decide_eq_false hr]; rfl)]
    rw [this, if_neg (by tauto)]
    refine ⟨h, rfl, ?_⟩
    simp only [Option.isSome_none, Bool.false_eq_true, false_iff]
    tauto

theorem find?_perm {T T' : VMap R} (h : T'.Perm T) (hn : (T.map Prod.fst).Nodup) (k : Nat × Nat) :
    VMap.find? T' k = VMap.find? T k := by
  have hn' : (T'.map Prod.fst).Nodup := (h.map _).nodup_iff.2 hn
  cases hx : VMap.find? T' k with
  | some x =>
    have := (VMap.find?_eq_some hn').1 hx
    exact ((VMap.find?_eq_some hn).2 (h.mem_iff.1 this)).symm
  | none =>
    cases hy : VMap.find? T k with
    | none => rfl
    | some y =>
      have := (VMap.find?_eq_some hn).1 hy
      rw [(VMap.find?_eq_some hn').2 (h.mem_iff.2 this)] at hx
      cases hx

theorem impl_compress {M : Sparse R} {S : SpAbs R} (h : Impl M S) :
    Impl (M.compressPattern.getD M) (if M.solver = .none then S else { S with mode := .locked }) ∧
    (M.compressPattern.getD M).solver = M.solver ∧
    (M.compressPattern.isSome ↔ M.solver = .none ∨ S.mode ≠ .locked) := by
  by_cases hs : M.solver = .none
  · rw [if_pos hs]
    have : M.compressPattern = some M := by unfold compressPattern; rw [hs]
    rw [this]
    exact ⟨h, rfl, by simp [hs]⟩
  rw [if_neg hs]
  by_cases hl : S.mode = .locked
  · have : M.compressPattern = none := by
      have hM : M.editable = .locked := h.mode.trans hl
      unfold compressPattern optimiseCols optimiseRows
      cases hq : M.solver <;> simp_all
    rw [this]
    refine ⟨?_, rfl, by simp [hs, hl]⟩
    have : { S with mode := .locked } = S := by cases S; simp_all
    rw [Option.getD_none, this]; exact h
  · obtain ⟨T, h1, h2, h3⟩ := h.held
    have hM : M.editable ≠ .locked := by rw [h.mode]; exact hl
    have key : ∃ M' T', M.compressPattern = some M' ∧ Holds M' T' ∧ T'.Perm T ∧ M'.editable = .locked ∧
      M'.nrow = M.nrow ∧ M'.ncol = M.ncol ∧ M'.solver = M.solver := by
      have hcp : M.compressPattern = (if M.colFormat then M.optimiseCols else M.optimiseRows) := by
        unfold compressPattern colFormat
        cases hq : M.solver
        · exact absurd hq hs
        all_goals rfl
      rw [hcp]
      by_cases hcf : M.colFormat = true
      · rw [if_pos hcf]; exact optimiseCols_spec h1 hM hcf
      · rw [if_neg hcf]; exact optimiseRows_spec h1 hM (by simpa using hcf)
    obtain ⟨M', T', g1, g2, g3, g4, g5, g6, g7⟩ := key
    rw [g1]
    refine ⟨⟨g5.trans h.nrow, g6.trans h.ncol, g4, T', g2, ?_, ?_⟩, g7, by simp [hl]⟩
    · intro r c
      rw [(g3.map _).mem_iff, h2]
    · intro r c
      rw [find?_perm g3 h1.nodup, h3]

theorem impl_map {M : Sparse R} {S : SpAbs R} (h : Impl M S) (f : R → R) (h0 : f 0 = 0) (el : VMap R) (a : List R)
    (hel : M.editable ≠ .locked → el = M.elem.map fun p => (p.1, f p.2)) (ha : a = M.A.map f) :
    Impl { M with elem := el, A := a } { S with val := fun i j => f (S.val i j) } := by
  obtain ⟨T, h1, h2, h3⟩ := h.held
  refine ⟨h.nrow, h.ncol, h.mode, _, holds_map h1 f el a hel ha, ?_, ?_⟩
  · intro r c
    rw [List.map_map]
    exact h2 r c
  · intro r c
    rw [find?_map_val]
    have := h3 r c
    dsimp only
    rw [← this]
    cases VMap.find? T (r, c) <;> simp [h0]

theorem impl_scale {M : Sparse R} {S : SpAbs R} (h : Impl M S) (alpha : R) :
    Impl (M.mult alpha) { S with val := fun i j => S.val i j * alpha } ∧ (M.mult alpha).solver = M.solver := by
  unfold mult
  by_cases he : M.editable = .locked
  · rw [if_pos he]
    exact ⟨impl_map h (· * alpha) (zero_mul _) M.elem (M.A.map (· * alpha)) (fun h => absurd he h) rfl, rfl⟩
  · rw [if_neg he]
    obtain ⟨T, h1, -⟩ := h.held
    have hA := (h1.edit he).2.2.2.2
    exact ⟨impl_map h (· * alpha) (zero_mul _) (M.elem.map fun p => (p.1, p.2 * alpha)) M.A (fun _ => rfl)
      (by rw [hA]; rfl), rfl⟩

theorem impl_empty (r c : Nat) (sv : SparseSolver) :
    Impl ({ nrow := r, ncol := c, solver := sv } : Sparse R) (SpAbs.empty r c) :=
  ⟨rfl, rfl, rfl, [], holds_empty r c sv, by simp [SpAbs.empty], by intro r c; rfl⟩

theorem impl_resize {M : Sparse R} {S : SpAbs R} (h : Impl M S) (r c : Nat) (force : Bool) (b : Bool) :
    Impl (M.resize r c force) (S.exec b (.resize r c force)) ∧ (M.resize r c force).solver = M.solver := by
  unfold resize SpAbs.exec
  dsimp only
  generalize (if c = 0 then r else c) = c'
  rw [h.nrow, h.ncol]
  by_cases hc : r = S.nrow ∧ c' = S.ncol ∧ force = false
  · rw [if_pos hc, if_pos (by simpa using hc)]
    refine ⟨?_, rfl⟩
    have := impl_map h (fun _ => 0) rfl (M.elem.map fun p => (p.1, 0)) (M.A.map fun _ => 0) (fun _ => rfl) rfl
    rw [← h.nrow, ← h.ncol] at *
    exact this
  · rw [if_neg hc, if_neg (by simpa using hc)]
    exact ⟨impl_empty r c' M.solver, rfl⟩

theorem find?_filter (T : VMap R) (q : Nat × Nat → Bool) (k : Nat × Nat) :
    VMap.find? (T.filter fun p => q p.1) k = if q k then VMap.find? T k else none := by
  unfold VMap.find?
  induction T with
  | nil => simp
  | cons p T ih =>
    rw [List.filter_cons, List.find?_cons]
    by_cases hk : (p.1 == k) = true
    · have hpk : p.1 = k := by simpa using hk
      rw [hk]
      subst hpk
      by_cases hq : q p.1
      · simp [hq]
      · rw [if_neg hq, ih, if_neg hq, if_neg hq]
    · have hf : (p.1 == k) = false := by simpa using hk
      rw [hf]
      by_cases hq : q p.1
      · rw [if_pos hq, List.find?_cons, hf]; exact ih
      · rw [if_neg hq]; exact ih

theorem impl_redim {M : Sparse R} {S : SpAbs R} (h : Impl M S) (r c : Nat) (b : Bool) :
    Impl ((M.redim r c).getD M) (S.exec b (.redim r c)) ∧ ((M.redim r c).getD M).solver = M.solver := by
  unfold redim SpAbs.exec
  dsimp only
  have e : (if c > 0 then c else r) = if c = 0 then r else c := by
    by_cases h : c = 0
    · rw [if_neg (by omega), if_pos h]
    · rw [if_pos (by omega), if_neg h]
  rw [e]
  generalize (if c = 0 then r else c) = c'
  rw [h.mode]
  by_cases hm : S.mode = .pattern
  · rw [if_neg (by simp [hm]), if_pos hm]
    obtain ⟨T, h1, h2, h3⟩ := h.held
    have he : M.editable ≠ .locked := by rw [h.mode, hm]; decide
    obtain ⟨g1, g2, g3, g4, g5⟩ := h1.edit he
    refine ⟨⟨rfl, rfl, rfl, T.filter (fun p => !(decide (p.1.1 > r) || decide (p.1.2 > c'))), ?_, ?_, ?_⟩, rfl⟩
    · refine ⟨?_, ?_, ?_, ?_⟩
      · exact h1.nodup.sublist (List.filter_sublist.map _)
      · intro p hp
        rw [List.mem_filter] at hp
        have := h1.range p hp.1
        have h5 := hp.2
        simp only [Bool.not_eq_true', Bool.or_eq_false_iff, decide_eq_false_iff_not] at h5
        dsimp only [Option.getD_some]
        omega
      · intro _
        refine ⟨?_, g2.sublist List.filter_sublist, g3, g4, g5⟩
        dsimp only [Option.getD_some]
        rw [g1]
      · intro hl; dsimp only [Option.getD_some] at hl; rw [hm] at hl; cases hl
    · intro i j
      simp only [List.mem_map, List.mem_filter]
      rw [← h2]
      constructor
      · rintro ⟨p, ⟨hp, hq⟩, hk⟩
        have h5 := hq
        simp only [Bool.not_eq_true', Bool.or_eq_false_iff, decide_eq_false_iff_not] at h5
        rw [hk] at h5
        exact ⟨List.mem_map.2 ⟨p, hp, hk⟩, by dsimp only at h5; omega, by dsimp only at h5; omega⟩
      · rintro ⟨hp, hi, hj⟩
        obtain ⟨p, hp, hk⟩ := List.mem_map.1 hp
        refine ⟨p, ⟨hp, ?_⟩, hk⟩
        rw [hk]
        simp; omega
    · intro i j
      rw [find?_filter T (fun k => !(decide (k.1 > r) || decide (k.2 > c')))]
      dsimp only
      by_cases hij : i ≤ r ∧ j ≤ c'
      · rw [if_pos hij, if_pos (by simp; omega), h3]
      · rw [if_neg hij, if_neg (by simp; omega)]; rfl
  · rw [if_pos hm, if_neg hm]
    exact ⟨h, rfl⟩

theorem impl_exec {M : Sparse R} {S : SpAbs R} (h : Impl M S) (op : SpOp R) :
    Impl (op.run M) (S.exec (decide (M.solver ≠ .none)) op) ∧ (op.run M).solver = M.solver := by
  cases op with
  | add r c v => exact ⟨(impl_update h r c (· + v)).1, (impl_update h r c (· + v)).2.1⟩
  | set r c v => exact ⟨(impl_update h r c (fun _ => v)).1, (impl_update h r c (fun _ => v)).2.1⟩
  | lock on =>
    unfold SpOp.run lockPattern SpAbs.exec
    dsimp only
    rw [h.mode]
    by_cases hl : S.mode = .locked
    · rw [if_pos hl, if_pos hl]; exact ⟨h, rfl⟩
    · rw [if_neg hl, if_neg hl]
      refine ⟨?_, rfl⟩
      obtain ⟨T, h1, h2, h3⟩ := h.held
      refine ⟨h.nrow, h.ncol, rfl, T, ?_, h2, h3⟩
      have hM : M.editable ≠ .locked := by rw [h.mode]; exact hl
      refine ⟨h1.nodup, h1.range, fun _ => h1.edit hM, fun hq => ?_⟩
      cases on <;> simp at hq
  | compress =>
    obtain ⟨g1, g2, -⟩ := impl_compress h
    refine ⟨?_, g2⟩
    unfold SpOp.run SpAbs.exec
    dsimp only
    by_cases hs : M.solver = .none
    · rw [if_pos hs] at g1
      simpa [hs] using g1
    · rw [if_neg hs] at g1
      simpa [hs] using g1
  | scale a => exact impl_scale h a
  | clear =>
    unfold SpOp.run init
    dsimp only
    have := impl_resize h M.nrow M.ncol false false
    refine ⟨?_, this.2⟩
    have h1 := this.1
    unfold SpAbs.exec at h1 ⊢
    dsimp only at h1 ⊢
    rw [← h.nrow, ← h.ncol] at h1 ⊢
    by_cases h0 : M.ncol = 0
    · rw [if_pos h0]
      rw [if_pos h0] at h1
      by_cases h00 : M.nrow = 0
      · rw [if_pos ⟨rfl, by omega, rfl⟩] at h1
        rw [if_pos h00]
        have e : (⟨M.nrow, M.nrow, S.mode, fun i j => M.nrow = 0 ∧ S.has i j, fun _ _ => 0⟩ : SpAbs R) =
            { S with val := fun _ _ => 0 } := by
          have := h.nrow
          have := h.ncol
          cases S
          simp_all
        rw [e, ← h.nrow, ← h.ncol]; exact h1
      · rw [if_neg (by omega)] at h1
        rw [if_neg h00]
        have e : (fun i j => M.nrow = 0 ∧ S.has i j) = fun _ _ => False := by
          funext i j; simp [h00]
        rw [e]; exact h1
    · rw [if_neg h0]
      rw [if_pos ⟨rfl, by rw [if_neg h0], rfl⟩] at h1
      exact h1
  | resize r c force => exact impl_resize h r c force _
  | redim r c => exact impl_redim h r c _

end IFEM
