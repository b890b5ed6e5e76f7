import Verif.Lemmas.BlockOff
import Verif.Model.Matrix
import Mathlib.Algebra.Ring.Basic
import Mathlib.Data.Int.Cast.Basic
/-!
# Lemmas on inserting a block
-/
namespace IFEM.Lem
open IFEM IFEM.Blk IFEM.Spec.Blk IFEM.Props

/-- Assignments to a list, one after the other. -/
def assign {α : Type} (W : List (Nat × α)) (L : List α) : List α := W.foldl (fun L w => L.set w.1 w.2) L

theorem assign_len {α : Type} (W : List (Nat × α)) (L : List α) : (assign W L).length = L.length := by
  unfold assign
  induction W generalizing L with
  | nil => rfl
  | cons w W ih => rw [List.foldl_cons, ih, List.length_set]

theorem assign_other {α : Type} (W : List (Nat × α)) (L : List α) (x : Nat) (h : ∀ w ∈ W, w.1 ≠ x) : (assign W L)[x]? = L[x]? := by
  unfold assign
  induction W generalizing L with
  | nil => rfl
  | cons w W ih =>
    rw [List.foldl_cons, ih _ fun w' hw => h w' (List.mem_cons_of_mem _ hw), List.getElem?_set_ne (h w List.mem_cons_self)]

theorem assign_hit {α : Type} (W : List (Nat × α)) (L : List α) (x : Nat) (v : α) (hx : x < L.length) (h1 : ∃ w ∈ W, w.1 = x)
    (h2 : ∀ w ∈ W, w.1 = x → w.2 = v) : (assign W L)[x]? = some v := by
  induction W generalizing L with
  | nil => obtain ⟨w, hw, _⟩ := h1; cases hw
  | cons w W ih =>
    show (assign W (L.set w.1 w.2))[x]? = _
    by_cases hw : ∃ w' ∈ W, w'.1 = x
    · exact ih _ (by simpa using hx) hw fun w' hw' => h2 w' (List.mem_cons_of_mem _ hw')
    · rw [assign_other]
      · obtain ⟨w', hw', e⟩ := h1
        rcases List.mem_cons.1 hw' with rfl | h
        · rw [← e, List.getElem?_set_self (e ▸ hx), h2 _ List.mem_cons_self e]
        · exact absurd ⟨w', h, e⟩ hw
      · intro w' hw' e
        exact hw ⟨w', hw', e⟩

theorem setAt_eq {R : Type} (N : Mat R) (hN : N.WF) (r c : Nat) (hr : r < N.nrow) (hc : c < N.ncol) (v : R) :
    N.setAt? (1 + r) (1 + c) v = some { N with elem := N.elem.set (r + N.nrow * c) v } := by
  unfold Mat.setAt?
  have : r + N.nrow * c < N.elem.length := by
    rw [hN]
    have := Nat.mul_le_mul_left N.nrow (Nat.succ_le_of_lt hc)
    rw [Nat.mul_succ] at this
    omega
  simp only [Nat.add_sub_cancel_left]
  rw [if_pos ⟨by omega, by omega, by omega, by omega, this⟩]

theorem get_eq {R : Type} [Zero R] (M : Mat R) (hM : M.WF) (r c : Nat) (hr : r < M.nrow) (hc : c < M.ncol) :
    M.get? ((1 + r : Nat) : Int) ((1 + c : Nat) : Int) = some (M.elem.getD (r + M.nrow * c) 0) := by
  have : r + M.nrow * c < M.elem.length := by
    rw [hM]
    have := Nat.mul_le_mul_left M.nrow (Nat.succ_le_of_lt hc)
    rw [Nat.mul_succ] at this
    omega
  unfold Mat.get?
  rw [if_pos ⟨by omega, by omega, by omega, by omega⟩, show (((1 + r : Nat) : Int) - 1).toNat = r by omega, show (((1 + c : Nat) : Int) - 1).toNat = c by omega,
    List.getD_eq_getElem?_getD, List.getElem?_eq_getElem this]
  rfl

theorem mem_quads {m n p q : Nat} {t : Nat × Nat × Nat × Nat} : t ∈ quads m n p q ↔ t.1 < m ∧ t.2.1 < n ∧ t.2.2.1 < p ∧ t.2.2.2 < q := by
  obtain ⟨a, b, i, j⟩ := t
  unfold quads Mat.pairs
  simp only [List.mem_flatMap, List.mem_map, List.mem_range, Prod.mk.injEq]
  constructor
  · rintro ⟨a', ha, b', hb, u, ⟨i', hi, j', hj, rfl⟩, rfl, rfl, rfl, rfl⟩
    exact ⟨ha, hb, hi, hj⟩
  · rintro ⟨ha, hb, hi, hj⟩
    exact ⟨a, ha, b, hb, (i, j), ⟨i, hi, j, hj, rfl⟩, rfl, rfl, rfl⟩

section
variable {R : Type} [Ring R] (c : Config)

/-- The assignments made for one entry of a block. -/
def writes (M : Mat R) (k l : Nat) (f : Int) (t : Nat × Nat × Nat × Nat) : List (Nat × R) :=
  (c.dof k t.1 t.2.2.1 + c.size * c.dof l t.2.1 t.2.2.2, c.blockEntry M k l t.1 t.2.2.1 t.2.1 t.2.2.2) ::
  if f ≠ 0 then [(c.dof l t.2.1 t.2.2.2 + c.size * c.dof k t.1 t.2.2.1, (Int.sign f : R) * c.blockEntry M k l t.1 t.2.2.1 t.2.1 t.2.2.2)] else []

/-- The parameters of the block `k`. -/
def infoOf (k : Nat) : Info := ⟨c.nen (c.bas k), c.tot (c.bas k), c.cmp k, 1 + (c.start (c.bas k) + c.before k)⟩

theorem infoOf_pos (k a i : Nat) : (infoOf c k).idof + (infoOf c k).nd * a + i = 1 + c.dof k a i := by
  unfold infoOf Config.dof
  dsimp only
  rw [mul_comm]; omega

theorem mirror_eq (N : Mat R) (hN : N.WF) (f : Int) (r s : Nat) (hr : r < N.ncol) (hs : s < N.nrow) (v : R) :
    mirror N f (1 + r) (1 + s) v = some { N with elem := assign (if f ≠ 0 then [(s + N.nrow * r, (Int.sign f : R) * v)] else []) N.elem } := by
  unfold mirror assign
  rcases Int.lt_trichotomy f 0 with h | h | h
  · rw [if_neg (by omega), if_pos h, setAt_eq N hN s r hs hr, if_pos (by omega), Int.sign_eq_neg_one_of_neg h]
    simp
  · subst h; simp
  · rw [if_pos h, setAt_eq N hN s r hs hr, if_pos (by omega), Int.sign_eq_one_of_pos h]
    simp

/-- The loop over the entries of a block is a series of assignments. -/
theorem insert_loop (M : Mat R) (hM : M.WF) (k l : Nat) (hk : k < c.nBlk) (hl : l < c.nBlk) (f : Int) (hr : M.nrow = c.nen (c.bas k) * c.cmp k) (hc : M.ncol = c.nen (c.bas l) * c.cmp l)
    (T : List (Nat × Nat × Nat × Nat)) (hT : ∀ t ∈ T, t.1 < c.nen (c.bas k) ∧ t.2.1 < c.nen (c.bas l) ∧ t.2.2.1 < c.cmp k ∧ t.2.2.2 < c.cmp l)
    (N : Mat R) (hN : N.WF) (hNr : N.nrow = c.size) (hNc : N.ncol = c.size) :
    T.foldlM (fun (N : Mat R) (t : Nat × Nat × Nat × Nat) => do
      let v ← M.get? ((1 + (infoOf c k).nc*t.1 + t.2.2.1 : Nat) : Int) ((1 + (infoOf c l).nc*t.2.1 + t.2.2.2 : Nat) : Int)
      let N ← N.setAt? ((infoOf c k).idof + (infoOf c k).nd*t.1 + t.2.2.1) ((infoOf c l).idof + (infoOf c l).nd*t.2.1 + t.2.2.2) v
      let f ← some f
      mirror N f ((infoOf c k).idof + (infoOf c k).nd*t.1 + t.2.2.1) ((infoOf c l).idof + (infoOf c l).nd*t.2.1 + t.2.2.2) v) N =
    some { N with elem := assign (T.flatMap (writes c M k l f)) N.elem } := by
  induction T generalizing N with
  | nil => rfl
  | cons t T ih =>
    obtain ⟨h1, h2, h3, h4⟩ := hT t List.mem_cons_self
    have hd1 := (C73_numbering c).1 k t.1 t.2.2.1 ⟨hk, h1, h3⟩
    have hd2 := (C73_numbering c).1 l t.2.1 t.2.2.2 ⟨hl, h2, h4⟩
    have q1 : t.1 * c.cmp k + t.2.2.1 < M.nrow := by
      have := Nat.mul_le_mul_right (c.cmp k) (Nat.succ_le_of_lt h1)
      rw [Nat.succ_mul] at this
      omega
    have q2 : t.2.1 * c.cmp l + t.2.2.2 < M.ncol := by
      have := Nat.mul_le_mul_right (c.cmp l) (Nat.succ_le_of_lt h2)
      rw [Nat.succ_mul] at this
      omega
    rw [List.foldlM_cons]
    have g : M.get? ((1 + (infoOf c k).nc*t.1 + t.2.2.1 : Nat) : Int) ((1 + (infoOf c l).nc*t.2.1 + t.2.2.2 : Nat) : Int) = some (c.blockEntry M k l t.1 t.2.2.1 t.2.1 t.2.2.2) := by
      have := get_eq M hM _ _ q1 q2
      unfold infoOf
      dsimp only
      rw [Nat.add_assoc, Nat.add_assoc 1, mul_comm (c.cmp k), mul_comm (c.cmp l), this]
      rfl
    rw [g, infoOf_pos, infoOf_pos]
    simp only [Option.bind_eq_bind, Option.bind_some]
    rw [setAt_eq N hN _ _ (by omega) (by omega)]
    simp only [Option.bind_some]
    rw [mirror_eq]
    · simp only [Option.bind_some]
      refine Eq.trans (ih (fun t ht => hT t (List.mem_cons_of_mem _ ht)) _ ?_ hNr hNc) ?_
      · show (assign _ _).length = _
        rw [assign_len, List.length_set, hN]
      · congr 2
        rw [List.flatMap_cons]
        unfold writes assign
        rw [List.foldl_append, List.foldl_cons, hNr]
    · show (List.set _ _ _).length = _
      rw [List.length_set, hN]
    · show _ < N.ncol
      omega
    · show _ < N.nrow
      omega

end
end IFEM.Lem
