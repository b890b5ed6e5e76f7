import Verif.Lemmas.BlockSetup
/-!
# Lemmas on the off-diagonal blocks of an element
-/
namespace IFEM.Lem
open IFEM IFEM.Blk IFEM.Spec.Blk IFEM.Props

theorem flat_len {α : Type} (f : Nat → List α) (n : Nat) : ((List.range n).flatMap f).length = ∑ i ∈ Finset.range n, (f i).length := by
  induction n with
  | zero => rfl
  | succ n ih =>
    rw [List.range_succ, List.flatMap_append, List.length_append, ih, Finset.sum_range_succ]
    simp

/-- An entry of lists put one after the other. -/
theorem flat_get {α : Type} (f : Nat → List α) (n k j : Nat) (hk : k < n) (hj : j < (f k).length) :
    ((List.range n).flatMap f)[∑ i ∈ Finset.range k, (f i).length + j]? = (f k)[j]? := by
  induction n with
  | zero => omega
  | succ n ih =>
    rw [List.range_succ, List.flatMap_append]
    by_cases e : k = n
    · subst e
      rw [List.getElem?_append_right (by rw [flat_len]; omega), flat_len, Nat.add_sub_cancel_left]
      simp
    · have hk' : k < n := by omega
      rw [List.getElem?_append_left, ih hk']
      rw [flat_len]
      have := psum_mono (fun i => (f i).length) (Nat.succ_le_of_lt hk')
      rw [Finset.sum_range_succ] at this
      omega

/-- The columns of the off-diagonal blocks in a row. -/
def rowCols (n : Nat) (symm : Bool) (ib : Nat) : List Nat := (cols n symm ib).filter fun jb => decide (jb ≠ ib)

theorem rowCols_upper (n ib : Nat) : rowCols n true ib = List.range' (ib+1) (n - (ib+1)) := by
  unfold rowCols cols
  rw [if_pos rfl, List.filter_eq_self]
  intro a ha
  have := List.mem_range'_1.1 ha
  exact decide_eq_true (by omega)

theorem rowCols_full (n ib : Nat) (h : ib < n) : rowCols n false ib = List.range ib ++ List.range' (ib+1) (n - (ib+1)) := by
  unfold rowCols cols
  simp only [Bool.false_eq_true, if_false, Nat.sub_zero]
  have e : List.range' 0 n = List.range' 0 ib ++ (ib :: List.range' (ib+1) (n - (ib+1))) := by
    rw [← List.range'_succ, show n - (ib+1) + 1 = n - ib by omega]
    have := List.range'_append_1 (s := 0) (m := ib) (n := n - ib)
    rw [Nat.zero_add] at this
    rw [this]
    congr 1; omega
  rw [e, List.filter_append, List.filter_cons_of_neg (by simp), List.filter_eq_self.2, List.filter_eq_self.2, List.range_eq_range']
  · intro a ha
    have := List.mem_range'_1.1 ha
    exact decide_eq_true (by omega)
  · intro a ha
    have := List.mem_range'_1.1 ha
    exact decide_eq_true (by omega)

theorem rowCols_len (n ib : Nat) (symm : Bool) (h : ib < n) : (rowCols n symm ib).length = if symm then n - 1 - ib else n - 1 := by
  cases symm with
  | true => rw [rowCols_upper, List.length_range', if_pos rfl]; omega
  | false => rw [rowCols_full n ib h, List.length_append, List.length_range, List.length_range', if_neg (by decide)]; omega

/-- The number of off-diagonal blocks in the rows before `k`. -/
def rowStart (n : Nat) (symm : Bool) (k : Nat) : Nat := ∑ i ∈ Finset.range k, if symm then n - 1 - i else n - 1

/-- The position of a column in its row. -/
def colPos (symm : Bool) (k l : Nat) : Nat := if symm then l - k - 1 else if l < k then l else l - 1

theorem colPos_get (n k l : Nat) (symm : Bool) (hk : k < n) (hl : l < n) (hne : k ≠ l) (hs : symm = true → k < l) :
    (rowCols n symm k)[colPos symm k l]? = some l := by
  cases symm with
  | true =>
    have := hs rfl
    rw [rowCols_upper]
    unfold colPos
    rw [if_pos rfl, List.getElem?_range' (by omega)]
    congr 1; omega
  | false =>
    rw [rowCols_full n k hk]
    unfold colPos
    rw [if_neg (by decide)]
    by_cases h : l < k
    · rw [if_pos h, List.getElem?_append_left (by simpa using h), List.getElem?_range h]
    · rw [if_neg h, List.getElem?_append_right (by simp; omega), List.length_range, List.getElem?_range' (by omega)]
      congr 1; omega

theorem rowStart_eq (n k : Nat) (symm : Bool) (hk : k ≤ n) : ∑ i ∈ Finset.range k, (rowCols n symm i).length = rowStart n symm k := by
  unfold rowStart
  refine Finset.sum_congr rfl fun i hi => rowCols_len n i symm ?_
  have := Finset.mem_range.1 hi
  omega

theorem rowStart_full (n k : Nat) : rowStart n false k = k * (n - 1) := by
  unfold rowStart
  simp

theorem place_eq (c : Config) (symm : Bool) (k l : Nat) (hne : k ≠ l) : c.place symm k l = c.nBlk + 1 + (rowStart c.nBlk symm k + colPos symm k l) := by
  unfold Config.place
  rw [if_neg hne]
  cases symm with
  | true => unfold rowStart colPos; simp
  | false => rw [rowStart_full]; unfold colPos; simp

theorem loopPairs_get (c : Config) (symm : Bool) (k l : Nat) (hk : k < c.nBlk) (hl : l < c.nBlk) (hne : k ≠ l) (hs : symm = true → k < l) :
    (loopPairs c.nBlk symm)[rowStart c.nBlk symm k + colPos symm k l]? = some (k, l) := by
  have h1 := colPos_get c.nBlk k l symm hk hl hne hs
  have hj := (List.getElem?_eq_some_iff.1 h1).1
  unfold loopPairs
  rw [← rowStart_eq c.nBlk k symm hk.le]
  have := flat_get (fun ib => (rowCols c.nBlk symm ib).map fun jb => (ib, jb)) c.nBlk k (colPos symm k l) hk (by simpa using hj)
  simp only [List.length_map] at this
  refine Eq.trans this ?_
  rw [List.getElem?_map, h1]; rfl

theorem rowStart_upper (n : Nat) : 2 * rowStart n true n = n * (n - 1) := by
  unfold rowStart
  simp only [if_true]
  rw [Finset.sum_range_reflect (fun i => i) n, mul_comm, Finset.sum_range_id_mul_two]

theorem loopPairs_len (n : Nat) (symm : Bool) : (loopPairs n symm).length = n * (n - 1) / if symm then 2 else 1 := by
  have h : (loopPairs n symm).length = rowStart n symm n := by
    rw [← rowStart_eq n n symm (le_refl _)]
    unfold loopPairs
    rw [flat_len]
    exact Finset.sum_congr rfl fun i _ => by rw [List.length_map]; rfl
  rw [h]
  cases symm with
  | true =>
    have := rowStart_upper n
    rw [if_pos rfl]
    omega
  | false => rw [rowStart_full, if_neg (by decide), Nat.div_one]

theorem findOff_eq (L : List (Nat × Nat)) (kb blk : Nat) (h : kb < blk) : findOff L kb blk = L[blk - kb - 1]? := by
  induction L generalizing kb with
  | nil => rfl
  | cons q L ih =>
    unfold findOff
    by_cases e : kb + 1 = blk
    · rw [if_pos e, show blk - kb - 1 = 0 by omega]; rfl
    · rw [if_neg e, ih (kb+1) (by omega), show blk - kb - 1 = (blk - (kb+1) - 1) + 1 by omega]; rfl

theorem mem_loopPairs (n : Nat) (symm : Bool) (q : Nat × Nat) (h : q ∈ loopPairs n symm) : q.1 < n ∧ q.2 < n ∧ q.1 ≠ q.2 ∧ (symm = true → q.1 < q.2) := by
  unfold loopPairs at h
  obtain ⟨k, hk, h⟩ := List.mem_flatMap.1 h
  have hk := List.mem_range.1 hk
  obtain ⟨l, hl, rfl⟩ := List.mem_map.1 h
  obtain ⟨h1, h2⟩ := List.mem_filter.1 hl
  have h2 := of_decide_eq_true h2
  unfold cols at h1
  have h1 := List.mem_range'_1.1 h1
  refine ⟨hk, ?_, fun e => h2 e.symm, fun hs => ?_⟩
  · dsimp only
    by_cases hs : symm <;> simp only [hs, if_true, if_false, Bool.false_eq_true] at h1 <;> omega
  · rw [hs] at h1
    simp only [if_true] at h1
    dsimp only
    omega

end IFEM.Lem
