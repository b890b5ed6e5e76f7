import Verif.Lemmas.BlockNewton
import Mathlib.Data.List.Nodup
/-!
# Lemmas on the loops over the blocks
-/
namespace IFEM.Lem
open IFEM IFEM.Blk IFEM.Spec.Blk IFEM.Props

variable {R : Type} [Ring R] (c : Config)

theorem foldlM_skip {α β : Type} (L : List α) (p : α → Bool) (f : β → α → Option β) (h : ∀ b a, p a = false → f b a = some b) (b : β) :
    L.foldlM f b = (L.filter p).foldlM f b := by
  induction L generalizing b with
  | nil => rfl
  | cons a L ih =>
    rw [List.foldlM_cons]
    by_cases e : p a = true
    · rw [List.filter_cons_of_pos e, List.foldlM_cons]
      congr 1
      funext b'
      exact ih b'
    · rw [List.filter_cons_of_neg e, h b a (by simpa using e)]
      exact ih b

/-- The blocks inserted before the row `k` and, in that row, in the columns `P`. -/
def upTo (k : Nat) (P : List Nat) : Nat → Nat → Bool := fun k' l' => decide (k' < k) || (decide (k' = k) && decide (l' ∈ P))

theorem upTo_add (k : Nat) (P : List Nat) (l : Nat) : addBlk (upTo k P) k l = upTo k (P ++ [l]) := by
  funext k' l'
  unfold addBlk upTo
  by_cases h1 : k' = k
  · by_cases h2 : l' = l
    · simp [h1, h2]
    · simp [h1, h2]
  · simp [h1]

theorem upTo_new (k : Nat) (P : List Nat) (l : Nat) (h : l ∉ P) : upTo k P k l = false := by
  unfold upTo
  simp [h]

theorem rowCols_nodup (n : Nat) (symm : Bool) (k : Nat) : (rowCols n symm k).Nodup := by
  unfold rowCols cols
  exact List.Nodup.filter _ (List.nodup_range' ..)

theorem rowCols_mem (n : Nat) (symm : Bool) (k l : Nat) (hk : k < n) : l ∈ rowCols n symm k ↔ l < n ∧ l ≠ k ∧ (symm = true → k < l) := by
  cases symm with
  | true =>
    rw [rowCols_upper, List.mem_range'_1]
    constructor
    · intro h; exact ⟨by omega, by omega, fun _ => by omega⟩
    · intro h
      have := h.2.2 rfl
      omega
  | false =>
    rw [rowCols_full n k hk, List.mem_append, List.mem_range, List.mem_range'_1]
    constructor
    · intro h; exact ⟨by omega, by omega, fun h => Bool.noConfusion h⟩
    · intro h
      omega

/-- The element is set up: the parameters of the blocks are known. -/
structure Ready (s : Elm R) : Prop where
  nb : s.blockInfo.length = c.nBlk
  info : ∀ k, k < c.nBlk → s.info k = some (infoOf c k)

section loop
variable {c} (s : Elm R) (hs : Ready c s) (hA : c.Fits s.A) (flag : Nat → Int)
  (hflag : ∀ k l, k < c.nBlk → l < c.nBlk → k ≠ l → c.block s.A k l ≠ none → c.block s.A l k ≠ none → flag (c.place (c.Upper s.A.length) k l) = 0)
  (hsym : ∀ k l, k < c.nBlk → l < c.nBlk → k ≠ l → c.block s.A k l ≠ none →
    s.symmFlag[c.place (c.Upper s.A.length) k l - c.nBlk - 1]? = some (flag (c.place (c.Upper s.A.length) k l)))
include hs hA hflag hsym

/-- One turn of the inner loop. -/
theorem offStep_spec (k : Nat) (hk : k < c.nBlk) (j l : Nat) (hj : (rowCols c.nBlk (c.Upper s.A.length) k)[j]? = some l) (N : Mat R)
    (hN : Holds c N (partEntry c s.A flag (upTo k (k :: (rowCols c.nBlk (c.Upper s.A.length) k).take j)))) :
    ∃ N', s.offStep k (infoOf c k) (N, c.nBlk - 1 + min (rowStart c.nBlk (c.Upper s.A.length) k + j) (s.A.length - c.nBlk - 1)) l =
        some (N', c.nBlk - 1 + min (rowStart c.nBlk (c.Upper s.A.length) k + (j+1)) (s.A.length - c.nBlk - 1)) ∧
      Holds c N' (partEntry c s.A flag (upTo k (k :: (rowCols c.nBlk (c.Upper s.A.length) k).take (j+1)))) := by
  set U := c.Upper s.A.length with hU
  obtain ⟨hj1, hj2⟩ := List.getElem?_eq_some_iff.1 hj
  obtain ⟨l1, l2, l3⟩ := (rowCols_mem c.nBlk U k l hk).1 (List.mem_of_getElem? hj)
  have hcp : colPos U k l = j := by
    have h1 := colPos_get c.nBlk k l U hk l1 (Ne.symm l2) l3
    obtain ⟨h2, h3⟩ := List.getElem?_eq_some_iff.1 h1
    exact (rowCols_nodup c.nBlk U k).getElem_inj_iff.1 (h3.trans hj2.symm)
  have hpl : c.place U k l = c.nBlk + 1 + (rowStart c.nBlk U k + j) := by rw [place_eq c U k l (Ne.symm l2), hcp]
  have hblk : c.block s.A k l = (s.A[c.nBlk + 1 + (rowStart c.nBlk U k + j)]?).filter fun m => !m.elem.isEmpty := by
    unfold Config.block
    rw [← hU, if_neg (fun h => by have := l3 h.1; omega), hpl]
  have htake : k :: (rowCols c.nBlk U k).take (j+1) = (k :: (rowCols c.nBlk U k).take j) ++ [l] := by
    rw [List.take_succ, hj]; rfl
  have hnb : 0 < c.nBlk := by omega
  have hlen := hA.2.1
  rw [htake, ← upTo_add]
  unfold Elm.offStep
  by_cases hm : rowStart c.nBlk U k + j < s.A.length - c.nBlk - 1
  · have e1 : c.nBlk - 1 + min (rowStart c.nBlk U k + j) (s.A.length - c.nBlk - 1) = c.nBlk - 1 + (rowStart c.nBlk U k + j) := by omega
    have e2 : 2 + (c.nBlk - 1 + (rowStart c.nBlk U k + j)) = c.nBlk + 1 + (rowStart c.nBlk U k + j) := by omega
    dsimp only
    rw [e1, e2, if_pos ⟨by omega, l2⟩, hs.info l l1, hs.nb]
    have hlt : c.nBlk + 1 + (rowStart c.nBlk U k + j) < s.A.length := by omega
    rw [List.getElem?_eq_getElem hlt] at hblk ⊢
    simp only [Option.bind_eq_bind, Option.bind_some]
    have hD : upTo k (k :: (rowCols c.nBlk U k).take j) k l = false := by
      refine upTo_new _ _ _ fun h => ?_
      rcases List.mem_cons.1 h with h | h
      · exact l2 h
      · obtain ⟨i, hi, e⟩ := List.getElem_of_mem h
        rw [List.length_take] at hi
        rw [List.getElem_take] at e
        have := (rowCols_nodup c.nBlk U k).getElem_inj_iff.1 (e.trans hj2.symm)
        omega
    have hM : (if (s.A[c.nBlk + 1 + (rowStart c.nBlk U k + j)]).elem.isEmpty then none else some (s.A[c.nBlk + 1 + (rowStart c.nBlk U k + j)])) = c.block s.A k l := by
      rw [hblk, Option.filter_some]
      cases (s.A[c.nBlk + 1 + (rowStart c.nBlk U k + j)]).elem.isEmpty <;> simp
    obtain ⟨N', a1, a2⟩ := step_spec c s.A hA flag hflag _ k l hk l1 hD _ hM
      (s.symmFlag[c.nBlk - 1 + (rowStart c.nBlk U k + j) + 1 - c.nBlk]?) (fun hne he => by
        have := hsym k l hk l1 hne (by rw [← hM, he]; simp)
        rw [hpl] at this
        rw [← hU, hpl, ← this]
        congr 1; omega) (fun h => absurd h.symm l2) N hN
    refine ⟨N', ?_, a2⟩
    rw [a1]
    simp only [Option.bind_some]
    congr 2
    omega
  · refine ⟨N, ?_, hN.congr c fun k' l' a i b j _ _ => (part_none c s.A flag _ k l ?_ k' l' a i b j).symm⟩
    · rw [if_neg (fun h => by have := h.1; dsimp only at this; omega)]
      congr 2
      omega
    · rw [hblk, List.getElem?_eq_none (by omega)]; rfl

/-- The inner loop. -/
theorem offLoop_spec (k : Nat) (hk : k < c.nBlk) (N : Mat R) (hN : Holds c N (partEntry c s.A flag (upTo k [k]))) :
    ∃ N', (rowCols c.nBlk (c.Upper s.A.length) k).foldlM (fun (st : Mat R × Nat) (jb : Nat) => s.offStep k (infoOf c k) st jb)
        (N, c.nBlk - 1 + min (rowStart c.nBlk (c.Upper s.A.length) k) (s.A.length - c.nBlk - 1)) =
        some (N', c.nBlk - 1 + min (rowStart c.nBlk (c.Upper s.A.length) (k+1)) (s.A.length - c.nBlk - 1)) ∧
      Holds c N' (partEntry c s.A flag (upTo k (k :: rowCols c.nBlk (c.Upper s.A.length) k))) := by
  have key : ∀ j, j ≤ (rowCols c.nBlk (c.Upper s.A.length) k).length → ∃ N', ((rowCols c.nBlk (c.Upper s.A.length) k).take j).foldlM (fun (st : Mat R × Nat) (jb : Nat) => s.offStep k (infoOf c k) st jb)
        (N, c.nBlk - 1 + min (rowStart c.nBlk (c.Upper s.A.length) k) (s.A.length - c.nBlk - 1)) =
        some (N', c.nBlk - 1 + min (rowStart c.nBlk (c.Upper s.A.length) k + j) (s.A.length - c.nBlk - 1)) ∧
      Holds c N' (partEntry c s.A flag (upTo k (k :: (rowCols c.nBlk (c.Upper s.A.length) k).take j))) := by
    intro j
    induction j with
    | zero => intro _; exact ⟨N, rfl, hN⟩
    | succ j ih =>
      intro hj
      obtain ⟨N1, a1, a2⟩ := ih (by omega)
      have hget := List.getElem?_eq_getElem (show j < (rowCols c.nBlk (c.Upper s.A.length) k).length by omega)
      obtain ⟨N2, b1, b2⟩ := offStep_spec s hs hA flag hflag hsym k hk j _ hget N1 a2
      refine ⟨N2, ?_, b2⟩
      rw [List.take_succ, hget, List.foldlM_append, a1]
      simp only [Option.toList_some, List.foldlM_cons, List.foldlM_nil, Option.bind_eq_bind, Option.bind_some, b1]
      rfl
  obtain ⟨N', a1, a2⟩ := key _ (le_refl _)
  rw [List.take_length] at a1 a2
  refine ⟨N', ?_, a2⟩
  rw [a1, rowCols_len _ _ _ hk]
  unfold rowStart
  rw [Finset.sum_range_succ]

/-- One row. -/
theorem rowStep_spec (k : Nat) (hk : k < c.nBlk) (N : Mat R) (hN : Holds c N (partEntry c s.A flag (upTo k []))) :
    ∃ N', s.rowStep (c.Upper s.A.length) (N, c.nBlk - 1 + min (rowStart c.nBlk (c.Upper s.A.length) k) (s.A.length - c.nBlk - 1)) k =
        some (N', c.nBlk - 1 + min (rowStart c.nBlk (c.Upper s.A.length) (k+1)) (s.A.length - c.nBlk - 1)) ∧
      Holds c N' (partEntry c s.A flag (upTo (k+1) [])) := by
  have hlen := hA.2.1
  have hlt : 1 + k < s.A.length := by omega
  have hblk : c.block s.A k k = (s.A[1 + k]?).filter fun m => !m.elem.isEmpty := by
    unfold Config.block Config.place
    rw [if_neg (fun h => by omega), if_pos rfl, Nat.add_comm]
  rw [List.getElem?_eq_getElem hlt] at hblk
  have hM : (if (s.A[1 + k]).elem.isEmpty then none else some (s.A[1 + k])) = c.block s.A k k := by
    rw [hblk, Option.filter_some]
    cases (s.A[1 + k]).elem.isEmpty <;> simp
  obtain ⟨N1, a1, a2⟩ := step_spec c s.A hA flag hflag (upTo k []) k k hk hk (upTo_new _ _ _ (by simp)) _ hM (some 0) (fun h => absurd rfl h) (fun _ => rfl) N hN
  rw [upTo_add, List.nil_append] at a2
  obtain ⟨N2, b1, b2⟩ := offLoop_spec s hs hA flag hflag hsym k hk N1 a2
  refine ⟨N2, ?_, b2.congr c fun k' l' a i b j h1 h2 => ?_⟩
  · unfold Elm.rowStep
    rw [hs.info k hk, List.getElem?_eq_getElem hlt]
    simp only [Option.bind_eq_bind, Option.bind_some]
    rw [insertDiag_eq, a1]
    simp only [Option.bind_some]
    rw [hs.nb, foldlM_skip _ (fun jb => decide (jb ≠ k))]
    · exact b1
    · intro st jb h
      have : ¬ jb ≠ k := of_decide_eq_false h
      unfold Elm.offStep
      rw [if_neg (fun h' => this h'.2)]
  · have key : ∀ x y, x < c.nBlk → y < c.nBlk → (if upTo k (k :: rowCols c.nBlk (c.Upper s.A.length) k) x y then c.block s.A x y else none) = if upTo (k+1) [] x y then c.block s.A x y else none := by
      intro x y hx hy
      by_cases e : x = k
      · subst e
        have e2 : upTo (x+1) [] x y = true := by unfold upTo; simp
        rw [e2, if_pos rfl]
        by_cases e3 : y ∈ x :: rowCols c.nBlk (c.Upper s.A.length) x
        · rw [if_pos (by unfold upTo; simp only [decide_eq_true e3]; simp)]
        · have hn : upTo x (x :: rowCols c.nBlk (c.Upper s.A.length) x) x y = false := upTo_new _ _ _ e3
          rw [hn, if_neg (by decide)]
          rw [List.mem_cons, rowCols_mem _ _ _ _ hx, not_or] at e3
          unfold Config.block
          rw [if_pos]
          by_contra hc
          exact e3.2 ⟨hy, e3.1, fun hu => by have : ¬ y < x := fun h => hc ⟨hu, h⟩; omega⟩
      · have : upTo k (k :: rowCols c.nBlk (c.Upper s.A.length) k) x y = upTo (k+1) [] x y := by
          unfold upTo
          simp only [e, decide_false, Bool.false_and, Bool.or_false, List.not_mem_nil, Bool.and_false]
          exact decide_eq_decide.2 ⟨fun h => by omega, fun h => by omega⟩
        rw [this]
    unfold partEntry
    rw [key _ _ h1.1 h2.1, key _ _ h2.1 h1.1]

/-- All rows. -/
theorem rows_spec (N : Mat R) (hN : Holds c N (fun _ _ _ _ _ _ => 0)) :
    ∃ N' kb, (List.range c.nBlk).foldlM (fun (st : Mat R × Nat) (ib : Nat) => s.rowStep (c.Upper s.A.length) st ib) (N, c.nBlk - 1) = some (N', kb) ∧
      Holds c N' (c.entry s.A flag) := by
  have key : ∀ k, k ≤ c.nBlk → ∃ N', (List.range k).foldlM (fun (st : Mat R × Nat) (ib : Nat) => s.rowStep (c.Upper s.A.length) st ib) (N, c.nBlk - 1) =
        some (N', c.nBlk - 1 + min (rowStart c.nBlk (c.Upper s.A.length) k) (s.A.length - c.nBlk - 1)) ∧
      Holds c N' (partEntry c s.A flag (upTo k [])) := by
    intro k
    induction k with
    | zero =>
      intro _
      refine ⟨N, ?_, hN.congr c fun k l a i b j _ _ => ?_⟩
      · simp [rowStart]
      · unfold partEntry upTo; simp
    | succ k ih =>
      intro hk
      obtain ⟨N1, a1, a2⟩ := ih (by omega)
      obtain ⟨N2, b1, b2⟩ := rowStep_spec s hs hA flag hflag hsym k (by omega) N1 a2
      refine ⟨N2, ?_, b2⟩
      rw [List.range_succ, List.foldlM_append, a1]
      simp only [List.foldlM_cons, List.foldlM_nil, Option.bind_eq_bind, Option.bind_some, b1]
      rfl
  obtain ⟨N', a1, a2⟩ := key _ (le_refl _)
  refine ⟨N', _, a1, a2.congr c fun k l a i b j h1 h2 => ?_⟩
  have e : ∀ x y, x < c.nBlk → (if upTo c.nBlk [] x y then c.block s.A x y else none) = c.block s.A x y := by
    intro x y hx
    rw [if_pos (by unfold upTo; simp [hx])]
  unfold partEntry Config.entry
  rw [e _ _ h1.1, e _ _ h2.1]
  cases c.block s.A k l <;> cases c.block s.A l k <;> rfl

end loop
end IFEM.Lem
