import Verif.Props.Matrix
/-!
# C60: rows, columns, blocks and shapes of dense matrices
-/
namespace IFEM.Props
open IFEM IFEM.Spec IFEM.Lem IFEM.Mat

variable {R : Type} {r c p q : Nat}

theorem mapM_ofFn {β : Type} (n : Nat) (f : Nat → Option β) (g : Fin n → β) (h : ∀ k : Fin n, f k = some (g k)) : (List.range n).mapM f = some (List.ofFn g) := by
  induction n with
  | zero => rfl
  | succ n ih =>
    rw [List.range_succ, List.mapM_append, ih (fun k => g k.castSucc) (fun k => h k.castSucc), List.ofFn_succ', List.concat_eq_append]
    have := h (Fin.last n)
    simp only [Fin.val_last] at this
    simp only [List.mapM_cons, List.mapM_nil, this, Option.bind_eq_bind, Option.bind_some, Option.pure_def]

theorem rep_row1 {m : Mat R} {A : Matrix (Fin r) (Fin c) R} (h : Rep m A) (h2 : r < 2) (i : Fin r) : m.elem = List.ofFn fun j => A i j := by
  have hr : r = 1 := by have := i.2; omega
  subst hr
  apply List.ext_getElem?
  intro p
  by_cases hp : p < c
  · have := h.ent i ⟨p, hp⟩
    rw [show (i : Nat) + 1 * p = p by omega] at this
    rw [this, List.getElem?_eq_getElem (by simpa using hp), List.getElem_ofFn]
  · rw [List.getElem?_eq_none (by rw [h.size]; omega), List.getElem?_eq_none (by simpa using hp)]

/-- `getRow` returns the entries of a row. -/
theorem C60_getRow {m : Mat R} {A : Matrix (Fin r) (Fin c) R} (h : Rep m A) (i : Fin r) : m.getRow (i + 1) = some (List.ofFn fun j => A i j) := by
  unfold getRow
  rw [h.rows, h.cols]
  by_cases h2 : r < 2
  · rw [if_pos h2, rep_row1 h h2 i]
  · rw [if_neg h2]
    simp only [Nat.add_sub_cancel]
    exact mapM_ofFn c _ _ fun j => h.ent i j

/-- `getColumn` returns the entries of a column. -/
theorem C60_getColumn {m : Mat R} {A : Matrix (Fin r) (Fin c) R} (h : Rep m A) (j : Fin c) : m.getColumn (j + 1) = some (List.ofFn fun i => A i j) := by
  unfold getColumn
  rw [h.rows, h.cols]
  have hle : r * j.1 + r ≤ r * c := by
    calc r * j.1 + r = r * (j.1 + 1) := by ring
      _ ≤ r * c := Nat.mul_le_mul_left _ (by omega)
  by_cases h2 : c < 2
  · rw [if_pos h2, ← rep_col h j]
    have hj : j.1 = 0 := by omega
    have hc : c = 1 := by omega
    have hl : m.elem.length = r := by rw [h.size, hc, Nat.mul_one]
    unfold col
    rw [hj, Nat.mul_zero, List.drop_zero, h.rows, List.take_of_length_le (by omega)]
  · rw [if_neg h2]
    simp only [Nat.add_sub_cancel]
    rw [if_pos (by rw [h.size]; exact hle), rep_col h j]

/-- `fillColumn` replaces the leading entries of a column, as many as there are values, and nothing else. -/
theorem C60_fillColumn {m : Mat R} {A : Matrix (Fin r) (Fin c) R} (h : Rep m A) (j : Fin c) (d : List R) :
    ∃ m', m.fillColumn (j + 1) d = some m' ∧ Rep m' (fun i j' => if j' = j then d.getD i.1 (A i j) else A i j') := by
  have hle : r * j.1 + r ≤ r * c := by
    calc r * j.1 + r = r * (j.1 + 1) := by ring
      _ ≤ r * c := Nat.mul_le_mul_left _ (by omega)
  obtain ⟨b, b1, b2, b3⟩ := write_spec m.elem (d.take r) (r * j.1) (by rw [List.length_take, h.size]; omega)
  refine ⟨{ m with elem := b }, ?_, ⟨h.rows, h.cols, by rw [← h.size]; exact b2, fun i j' => ?_⟩⟩
  · unfold fillColumn
    rw [h.rows, Nat.add_sub_cancel, b1]; rfl
  · show b[_]? = _
    rw [b3, List.length_take]
    by_cases hj : j' = j
    · subst hj
      rw [if_pos rfl]
      by_cases hd : i.1 < d.length
      · rw [if_pos (by have := i.2; omega), show i.1 + r * j'.1 - r * j'.1 = i.1 by omega, List.getElem?_take, if_pos i.2, List.getD_eq_getElem?_getD,
          List.getElem?_eq_getElem hd]; rfl
      · rw [if_neg (by omega), h.ent i j', List.getD_eq_getElem?_getD, List.getElem?_eq_none (by omega)]; rfl
    · rw [if_neg hj, if_neg, h.ent i j']
      rintro ⟨e1, e2⟩
      have hne : j'.1 ≠ j.1 := fun e => hj (Fin.ext e)
      rcases Nat.lt_or_gt_of_ne hne with hlt | hlt
      · have : r * j'.1 + r ≤ r * j.1 := by
          calc r * j'.1 + r = r * (j'.1 + 1) := by ring
            _ ≤ r * j.1 := Nat.mul_le_mul_left _ (by omega)
        have := i.2; omega
      · have : r * j.1 + r ≤ r * j'.1 := by
          calc r * j.1 + r = r * (j.1 + 1) := by ring
            _ ≤ r * j'.1 := Nat.mul_le_mul_left _ (by omega)
        omega

/-- `fillRow` replaces a row and nothing else. -/
theorem C60_fillRow {m : Mat R} {A : Matrix (Fin r) (Fin c) R} (h : Rep m A) (i : Fin r) (d : Fin c → R) :
    ∃ m', m.fillRow (i + 1) (List.ofFn d) = some m' ∧ Rep m' (fun i' j => if i' = i then d j else A i' j) := by
  unfold fillRow
  rw [h.rows, h.cols]
  by_cases h2 : r < 2
  · rw [if_pos h2]
    have hr : r = 1 := by have := i.2; omega
    subst hr
    obtain ⟨b, b1, b2, b3⟩ := write_spec m.elem (List.ofFn d) 0 (by rw [List.length_ofFn, h.size]; omega)
    refine ⟨{ m with elem := b }, ?_, ⟨h.rows, h.cols, by rw [← h.size]; exact b2, fun i' j => ?_⟩⟩
    · rw [List.take_of_length_le (by rw [List.length_ofFn, h.size]; omega), b1, ← h.cols]
      simp only [Option.map_some]
      rw [h.rows]
    · show b[_]? = _
      have hi : i' = i := Subsingleton.elim _ _
      rw [b3, List.length_ofFn, if_pos (by omega), if_pos hi, List.getElem?_eq_getElem (by rw [List.length_ofFn]; omega), List.getElem_ofFn]
      congr 2
      exact Fin.ext (by simp)
  · rw [if_neg h2]
    refine rep_block h (List.range c) List.nodup_range _ (fun _ => i.1) (fun j => j) (fun j y => ((List.ofFn d)[j]?).getD y) _
      (fun _ _ => i.2) (fun m' a b e j hj => ?_) (fun i' j => ?_)
    · have hj' : j < c := List.mem_range.mp hj
      rw [List.getElem?_eq_getElem (by simpa using hj')]
      simp only [Option.bind_eq_bind, Option.bind_some, Option.getD_some]
      rw [setAt_modify m' _ _ _ ⟨by omega, by omega, by omega, by omega⟩ (by rw [a, b]; exact e), a]
      rfl
    · by_cases hi : i' = i
      · left
        refine ⟨j.1, List.mem_range.mpr j.2, fun y _ => ?_, ?_⟩
        · rw [hi]; simp
        · rw [if_pos hi, List.getElem?_eq_getElem (by simp)]
          simp
      · right
        exact ⟨fun x _ e => hi (Fin.ext e.1.symm), if_neg hi⟩

/-! ## Blocks -/

theorem mem_blockPairs {m b : Mat R} {t : Bool} {A : Matrix (Fin r) (Fin c) R} {B : Matrix (Fin p) (Fin q) R} (hA : Rep m A) (hB : RepOp b t B)
    (r0 c0 : Nat) (x : Nat × Nat) :
    x ∈ blockPairs m b r0 c0 t ↔ x.1 < p ∧ x.2 < q ∧ x.1 + r0 ≤ r ∧ x.2 + c0 ≤ c := by
  obtain ⟨b1, b2⟩ := repOp_dims hB
  unfold blockPairs
  rw [b1, b2, hA.rows, hA.cols, mem_pairs]
  omega

theorem block_cover {r0 c0 : Nat} (hr : 1 ≤ r0) (hc : 1 ≤ c0) {m b : Mat R} {t : Bool} {A : Matrix (Fin r) (Fin c) R} {B : Matrix (Fin p) (Fin q) R}
    (hA : Rep m A) (hB : RepOp b t B) (i : Fin r) (j : Fin c) :
    if h : r0 ≤ i.1 + 1 ∧ i.1 + 1 - r0 < p ∧ c0 ≤ j.1 + 1 ∧ j.1 + 1 - c0 < q then
      (i.1 + 1 - r0, j.1 + 1 - c0) ∈ blockPairs m b r0 c0 t ∧
      ∀ y ∈ blockPairs m b r0 c0 t, (y.1 + r0 - 1 = i.1 ∧ y.2 + c0 - 1 = j.1) ↔ y = (i.1 + 1 - r0, j.1 + 1 - c0)
    else ∀ y ∈ blockPairs m b r0 c0 t, ¬ (y.1 + r0 - 1 = i.1 ∧ y.2 + c0 - 1 = j.1) := by
  have hi := i.2
  have hj := j.2
  split
  · rename_i h
    refine ⟨(mem_blockPairs hA hB _ _ _).mpr ⟨h.2.1, h.2.2.2, by dsimp only; omega, by dsimp only; omega⟩, fun y hy => ?_⟩
    obtain ⟨y1, y2⟩ := y
    rw [Prod.mk.injEq]
    dsimp only
    omega
  · rename_i h
    intro y hy e
    obtain ⟨h1, h2, h3, h4⟩ := (mem_blockPairs hA hB _ _ _).mp hy
    exact h ⟨by omega, by omega, by omega, by omega⟩

/-- `fillBlock` replaces the block whose upper left entry is at the given row and column, cut off at the borders of the matrix, and nothing else. -/
theorem C60_fillBlock {m b : Mat R} {t : Bool} {A : Matrix (Fin r) (Fin c) R} {B : Matrix (Fin p) (Fin q) R} (hA : Rep m A) (hB : RepOp b t B)
    (r0 c0 : Nat) (hr : 1 ≤ r0) (hc : 1 ≤ c0) :
    ∃ m', m.fillBlock b r0 c0 t = some m' ∧ Rep m' (fun i j =>
      if h : r0 ≤ i.1 + 1 ∧ i.1 + 1 - r0 < p ∧ c0 ≤ j.1 + 1 ∧ j.1 + 1 - c0 < q then B ⟨i.1 + 1 - r0, h.2.1⟩ ⟨j.1 + 1 - c0, h.2.2.2⟩ else A i j) := by
  unfold fillBlock
  refine rep_block hA _ (nodup_pairs _ _) _ (fun x => x.1 + r0 - 1) (fun x => x.2 + c0 - 1) (fun x y => (opGet? b t x.1 x.2).getD y) _
    (fun x hx => ?_) (fun m' a b' e x hx => ?_) (fun i j => ?_)
  · have := (mem_blockPairs hA hB _ _ _).mp hx
    omega
  · obtain ⟨h1, h2, h3, h4⟩ := (mem_blockPairs hA hB _ _ _).mp hx
    rw [rep_opGet hB _ _ h1 h2]
    simp only [Option.bind_eq_bind, Option.bind_some, Option.getD_some]
    rw [setAt_modify m' _ _ _ ⟨by omega, by omega, by omega, by omega⟩ (by rw [a, b']; exact e), a]
  · have hcov := block_cover hr hc hA hB i j
    split at hcov
    · rename_i h
      left
      refine ⟨_, hcov.1, hcov.2, ?_⟩
      rw [dif_pos h, rep_opGet hB _ _ h.2.1 h.2.2.2]; rfl
    · rename_i h
      right
      exact ⟨hcov, dif_neg h⟩

/-- `addBlock` adds a multiple to that block. -/
theorem C60_addBlock [Field R] {m b : Mat R} {t : Bool} {A : Matrix (Fin r) (Fin c) R} {B : Matrix (Fin p) (Fin q) R} (hA : Rep m A) (hB : RepOp b t B)
    (s : R) (r0 c0 : Nat) (hr : 1 ≤ r0) (hc : 1 ≤ c0) :
    ∃ m', m.addBlock b s r0 c0 t = some m' ∧ Rep m' (fun i j =>
      if h : r0 ≤ i.1 + 1 ∧ i.1 + 1 - r0 < p ∧ c0 ≤ j.1 + 1 ∧ j.1 + 1 - c0 < q then A i j + s * B ⟨i.1 + 1 - r0, h.2.1⟩ ⟨j.1 + 1 - c0, h.2.2.2⟩ else A i j) := by
  unfold addBlock
  refine rep_block hA _ (nodup_pairs _ _) _ (fun x => x.1 + r0 - 1) (fun x => x.2 + c0 - 1) (fun x y => y + s * (opGet? b t x.1 x.2).getD 0) _
    (fun x hx => ?_) (fun m' a b' e x hx => ?_) (fun i j => ?_)
  · have := (mem_blockPairs hA hB _ _ _).mp hx
    omega
  · obtain ⟨h1, h2, h3, h4⟩ := (mem_blockPairs hA hB _ _ _).mp hx
    rw [rep_opGet hB _ _ h1 h2]
    simp only [Option.bind_eq_bind, Option.bind_some, Option.getD_some]
    have := addAt_modify m' (x.1 + r0) (x.2 + c0) (s * B ⟨x.1, h1⟩ ⟨x.2, h2⟩) ⟨by omega, by omega, by omega, by omega⟩ (by rw [a, b']; exact e)
    simp only [Nat.cast_add] at this
    rw [this, a]
  · have hcov := block_cover hr hc hA hB i j
    split at hcov
    · rename_i h
      left
      refine ⟨_, hcov.1, hcov.2, ?_⟩
      rw [dif_pos h, rep_opGet hB _ _ h.2.1 h.2.2.2]; rfl
    · rename_i h
      right
      exact ⟨hcov, dif_neg h⟩

/-- `extractBlock` copies that block, or adds it to the given one; entries of the given block that fall outside the matrix stay as they are. -/
theorem C60_extractBlock [Field R] {m b : Mat R} {t : Bool} {A : Matrix (Fin r) (Fin c) R} {B : Matrix (Fin p) (Fin q) R} (hA : Rep m A) (hB : RepOp b t B)
    (addTo : Bool) (r0 c0 : Nat) (hr : 1 ≤ r0) (hc : 1 ≤ c0) :
    ∃ b', m.extractBlock b r0 c0 addTo t = some b' ∧ RepOp b' t (fun i j =>
      if h : i.1 + r0 - 1 < r ∧ j.1 + c0 - 1 < c then (if addTo then B i j else 0) + A ⟨i.1 + r0 - 1, h.1⟩ ⟨j.1 + c0 - 1, h.2⟩ else B i j) := by
  have hget : ∀ x ∈ blockPairs m b r0 c0 t, ∀ h1 : x.1 + r0 - 1 < r, ∀ h2 : x.2 + c0 - 1 < c,
      m.get? ((x.1 + r0 : Nat) : Int) ((x.2 + c0 : Nat) : Int) = some (A ⟨x.1 + r0 - 1, h1⟩ ⟨x.2 + c0 - 1, h2⟩) := by
    intro x hx h1 h2
    have := rep_get hA (x.1 + r0 - 1) (x.2 + c0 - 1) h1 h2
    rw [show ((x.1 + r0 - 1 : Nat) : Int) + 1 = ((x.1 + r0 : Nat) : Int) by omega, show ((x.2 + c0 - 1 : Nat) : Int) + 1 = ((x.2 + c0 : Nat) : Int) by omega] at this
    exact this
  unfold extractBlock
  let g : Nat × Nat → R → R := fun x y => (if addTo then y else 0) + (m.get? ((x.1 + r0 : Nat) : Int) ((x.2 + c0 : Nat) : Int)).getD 0
  cases t with
  | false =>
    have hB' : Rep b B := hB
    refine rep_block hB' _ (nodup_pairs _ _) _ (fun x => x.1) (fun x => x.2) g _ (fun x hx => ((mem_blockPairs hA hB _ _ _).mp hx).1)
      (fun m' a b' e x hx => ?_) (fun i j => ?_)
    · obtain ⟨h1, h2, h3, h4⟩ := (mem_blockPairs hA hB _ _ _).mp hx
      have hg := hget x hx (by omega) (by omega)
      simp only [g, hg, Option.bind_eq_bind, Option.bind_some, Option.getD_some]
      cases addTo with
      | true =>
        have := addAt_modify m' (x.1 + 1) (x.2 + 1) (A ⟨x.1 + r0 - 1, by omega⟩ ⟨x.2 + c0 - 1, by omega⟩) ⟨by omega, by omega, by omega, by omega⟩ (by rw [a, b']; exact e)
        simp only [Nat.add_sub_cancel, Nat.cast_add, Nat.cast_one] at this
        simp only [if_true]
        rw [this, a]
      | false =>
        have := setAt_modify m' (x.1 + 1) (x.2 + 1) (A ⟨x.1 + r0 - 1, by omega⟩ ⟨x.2 + c0 - 1, by omega⟩) ⟨by omega, by omega, by omega, by omega⟩ (by rw [a, b']; exact e)
        simp only [Nat.add_sub_cancel] at this
        simp only [Bool.false_eq_true, if_false, zero_add]
        rw [this, a]
    · by_cases h : i.1 + r0 - 1 < r ∧ j.1 + c0 - 1 < c
      · left
        have hm : (i.1, j.1) ∈ blockPairs m b r0 c0 false := (mem_blockPairs hA hB _ _ _).mpr ⟨i.2, j.2, by dsimp only; omega, by dsimp only; omega⟩
        refine ⟨(i.1, j.1), hm, fun y _ => ?_, ?_⟩
        · obtain ⟨y1, y2⟩ := y
          simp
        · have hg := hget _ hm h.1 h.2
          dsimp only at hg
          simp only [g, dif_pos h, hg, Option.getD_some]
      · right
        refine ⟨fun x hx e => h ?_, dif_neg h⟩
        obtain ⟨h1, h2, h3, h4⟩ := (mem_blockPairs hA hB _ _ _).mp hx
        omega
  | true =>
    have hB' : Rep b B.transpose := hB
    show ∃ b', _ ∧ Rep b' _
    refine rep_block hB' _ (nodup_pairs _ _) _ (fun x => x.2) (fun x => x.1) g _ (fun x hx => ((mem_blockPairs hA hB _ _ _).mp hx).2.1)
      (fun m' a b' e x hx => ?_) (fun j i => ?_)
    · obtain ⟨h1, h2, h3, h4⟩ := (mem_blockPairs hA hB _ _ _).mp hx
      have hg := hget x hx (by omega) (by omega)
      simp only [g, hg, Option.bind_eq_bind, Option.bind_some, Option.getD_some]
      cases addTo with
      | true =>
        have := addAt_modify m' (x.2 + 1) (x.1 + 1) (A ⟨x.1 + r0 - 1, by omega⟩ ⟨x.2 + c0 - 1, by omega⟩) ⟨by omega, by omega, by omega, by omega⟩ (by rw [a, b']; exact e)
        simp only [Nat.add_sub_cancel, Nat.cast_add, Nat.cast_one] at this
        simp only [if_true]
        rw [this, a]
      | false =>
        have := setAt_modify m' (x.2 + 1) (x.1 + 1) (A ⟨x.1 + r0 - 1, by omega⟩ ⟨x.2 + c0 - 1, by omega⟩) ⟨by omega, by omega, by omega, by omega⟩ (by rw [a, b']; exact e)
        simp only [Nat.add_sub_cancel] at this
        simp only [Bool.false_eq_true, if_false, zero_add]
        rw [this, a]
    · by_cases h : i.1 + r0 - 1 < r ∧ j.1 + c0 - 1 < c
      · left
        have hm : (i.1, j.1) ∈ blockPairs m b r0 c0 true := (mem_blockPairs hA hB _ _ _).mpr ⟨i.2, j.2, by dsimp only; omega, by dsimp only; omega⟩
        refine ⟨(i.1, j.1), hm, fun y _ => ?_, ?_⟩
        · obtain ⟨y1, y2⟩ := y
          simp [and_comm]
        · have hg := hget _ hm h.1 h.2
          dsimp only at hg
          refine (dif_pos h).trans ?_
          simp only [Matrix.transpose_apply, g, hg, Option.getD_some]
      · right
        refine ⟨fun x hx e => h ?_, dif_neg h⟩
        obtain ⟨h1, h2, h3, h4⟩ := (mem_blockPairs hA hB _ _ _).mp hx
        omega

theorem diag_loop [Zero R] {m : Mat R} (h : Rep m (0 : Matrix (Fin r) (Fin c) R)) (d : List R) (v : Nat → R) (hd : ∀ i < min r c, d[i]? = some (v i)) :
    ∃ m', (List.range (min m.nrow m.ncol)).foldlM (fun (m : Mat R) r => do
      let v ← d[r]?
      m.setAt? (r+1) (r+1) v) m = some m' ∧ Rep m' (fun (i : Fin r) (j : Fin c) => if i.1 = j.1 then v i else 0) := by
  rw [h.rows, h.cols]
  refine rep_block h (List.range (min r c)) List.nodup_range _ (fun x => x) (fun x => x) (fun j _ => v j) _
    (fun x hx => by have := List.mem_range.mp hx; omega) (fun m' a b e j hj => ?_) (fun i j => ?_)
  · have hj' := List.mem_range.mp hj
    rw [hd j hj']
    simp only [Option.bind_eq_bind, Option.bind_some]
    rw [setAt_modify m' _ _ _ ⟨by omega, by omega, by omega, by omega⟩ (by rw [a, b]; exact e), a]
    rfl
  · by_cases hij : i.1 = j.1
    · left
      have hi := i.2
      have hj := j.2
      refine ⟨i.1, List.mem_range.mpr (by omega), fun y _ => ?_, ?_⟩
      · constructor
        · exact fun e => e.1
        · rintro rfl; exact ⟨rfl, hij⟩
      · rw [if_pos hij]
    · right
      exact ⟨fun x _ e => hij (e.1.symm.trans e.2), by rw [if_neg hij]; rfl⟩

/-- `diag` makes the matrix diagonal, with a given dimension or with the dimensions it has. -/
theorem C60_diag [Zero R] (m : Mat R) (hw : m.WF) :
    (∀ (n : Nat), 0 < n → ∀ d : Fin n → R, ∃ m', m.diag (List.ofFn d) n = some m' ∧ Rep m' (Matrix.diagonal d)) ∧
    ∀ d : Fin (min m.nrow m.ncol) → R, ∃ m', m.diag (List.ofFn d) 0 = some m' ∧
      Rep m' (fun (i : Fin m.nrow) (j : Fin m.ncol) => if h : i.1 = j.1 then d ⟨i.1, by omega⟩ else 0) := by
  constructor
  · intro n hn d
    obtain ⟨m', h1, h2⟩ := diag_loop (C60_resize_clear m hw n n) (List.ofFn d) (fun i => if h : i < n then d ⟨i, h⟩ else 0) (by
      intro i hi
      have hi' : i < n := by omega
      rw [List.getElem?_eq_getElem (by simpa using hi'), List.getElem_ofFn, dif_pos hi'])
    refine ⟨m', ?_, ?_⟩
    · unfold diag
      rw [if_pos hn]; exact h1
    · have : Matrix.diagonal d = fun (i j : Fin n) => if i.1 = j.1 then (if h : i.1 < n then d ⟨i.1, h⟩ else 0) else 0 := by
        funext i j
        rw [Matrix.diagonal_apply, dif_pos i.2]
        by_cases e : i = j
        · rw [if_pos e, if_pos (congrArg Fin.val e)]
        · rw [if_neg e, if_neg fun e' => e (Fin.ext e')]
      rw [this]; exact h2
  · intro d
    obtain ⟨m', h1, h2⟩ := diag_loop (C60_resize_clear m hw m.nrow m.ncol) (List.ofFn d) (fun i => if h : i < min m.nrow m.ncol then d ⟨i, h⟩ else 0) (by
      intro i hi
      rw [List.getElem?_eq_getElem (by simpa using hi), List.getElem_ofFn, dif_pos hi])
    refine ⟨m', ?_, ?_⟩
    · unfold diag
      rw [if_neg (by omega)]; exact h1
    · have : (fun (i : Fin m.nrow) (j : Fin m.ncol) => if h : i.1 = j.1 then d ⟨i.1, by omega⟩ else 0) =
          fun (i : Fin m.nrow) (j : Fin m.ncol) => if i.1 = j.1 then (if h : i.1 < min m.nrow m.ncol then d ⟨i.1, h⟩ else 0) else 0 := by
        funext i j
        by_cases e : i.1 = j.1
        · rw [dif_pos e, if_pos e, dif_pos (by omega)]
        · rw [dif_neg e, if_neg e]
      rw [this]; exact h2

/-! ## Adding and removing rows and columns -/

/-- `augmentCols` puts the columns of another matrix behind those of the matrix. -/
theorem C60_augmentCols {m b : Mat R} {A : Matrix (Fin r) (Fin c) R} {B : Matrix (Fin r) (Fin q) R} (hA : Rep m A) (hB : Rep b B) :
    (m.augmentCols b).1 = true ∧ Rep (m.augmentCols b).2 (fun (i : Fin r) (j : Fin (c + q)) => Fin.addCases (A i) (B i) j) := by
  unfold augmentCols
  rw [if_neg (by rw [hA.rows, hB.rows]; simp)]
  refine ⟨rfl, ⟨hA.rows, by rw [hA.cols, hB.cols], by rw [List.length_append, hA.size, hB.size]; ring, fun i j => ?_⟩⟩
  refine Fin.addCases (fun j => ?_) (fun j => ?_) j
  · rw [Fin.addCases_left, Fin.val_castAdd, List.getElem?_append_left (by rw [hA.size]; exact rep_idx i.2 j.2)]
    exact hA.ent i j
  · rw [Fin.addCases_right, Fin.val_natAdd, List.getElem?_append_right (by rw [hA.size]; exact Nat.le_trans (Nat.mul_le_mul_left r (Nat.le_add_right c j.1)) (Nat.le_add_left _ _)), hA.size,
      show i.1 + r * (c + j.1) - r * c = i.1 + r * j.1 by rw [Nat.mul_add]; omega]
    exact hB.ent i j

/-- With different numbers of rows (or columns) nothing is done. -/
theorem C60_augment_mismatch [Zero R] (m b : Mat R) (pre : Bool) :
    (b.nrow ≠ m.nrow → m.augmentCols b = (false, m)) ∧ (b.ncol ≠ m.ncol → m.augmentRows b pre = some (false, m)) :=
  ⟨fun h => if_pos h, fun h => if_pos h⟩

theorem col_le (n : Nat) {a b : Nat} (h : a < b) : n * a + n ≤ n * b := by
  calc n * a + n = n * (a + 1) := by ring
    _ ≤ n * b := Nat.mul_le_mul_left _ h

theorem mul_add_le (a b : Nat) (c : Nat) : a * c ≤ (a + b) * c := Nat.mul_le_mul_right _ (Nat.le_add_right _ _)

theorem getElem_grow [Zero R] (e : List R) (n p : Nat) (hp : p < e.length) : (e ++ List.replicate n 0)[p]? = e[p]? :=
  List.getElem?_append_left hp


theorem augment_core [Zero R] {m b : Mat R} {A : Matrix (Fin r) (Fin c) R} {B : Matrix (Fin q) (Fin c) R} (hA : Rep m A) (hB : Rep b B) (pre : Bool) :
    ∃ e', m.augmentRows b pre = some (true, ⟨r + q, c, e'⟩) ∧ e'.length = (r + q) * c ∧
      ∀ j : Fin c, (∀ i : Fin r, e'[(if pre then q else 0) + i.1 + (r + q) * j.1]? = some (A i j)) ∧
        ∀ i : Fin q, e'[(if pre then 0 else r) + i.1 + (r + q) * j.1]? = some (B i j) := by
  obtain ⟨oA, hoA⟩ : ∃ oA, oA = if pre then q else 0 := ⟨_, rfl⟩
  obtain ⟨oB, hoB⟩ : ∃ oB, oB = if pre then 0 else r := ⟨_, rfl⟩
  rw [← hoA, ← hoB]
  have hoff : oA = q ∧ oB = 0 ∧ pre = true ∨ oA = 0 ∧ oB = r ∧ pre = false := by
    cases pre
    · exact Or.inr ⟨hoA, hoB, rfl⟩
    · exact Or.inl ⟨hoA, hoB, rfl⟩
  have hlen : (m.elem ++ List.replicate ((r + q) * c - m.elem.length) (0 : R)).length = (r + q) * c := by
    rw [List.length_append, List.length_replicate, hA.size]
    have := mul_add_le r q c
    omega
  have hbl : ∀ (j : Nat) (hj : j < c), (b.col j).length = q ∧ ∀ i (hi : i < q), (b.col j)[i]? = some (B ⟨i, hi⟩ ⟨j, hj⟩) := by
    intro j hj
    rw [rep_col hB ⟨j, hj⟩]
    refine ⟨by simp, fun i hi => ?_⟩
    rw [List.getElem?_eq_getElem (by simpa using hi), List.getElem_ofFn]
  obtain ⟨e', h1, h2, h3, h4, h5⟩ := revLoop (fun (e : List R) c' => do
        let e ← if 0 < c' ∨ pre = true then memmove e ((r + q) * c' + oA) (r * c') r else some e
        write e ((r + q) * c' + oB) (b.col c')) (m.elem ++ List.replicate ((r + q) * c - m.elem.length) 0) (fun j => r * j) (fun j => (r + q) * j)
        (fun p => if oA ≤ p % (r + q) ∧ p % (r + q) < oA + r then m.elem[p % (r + q) - oA + r * (p / (r + q))]?
             else (b.col (p / (r + q)))[p % (r + q) - oB]?) c
        (m.elem ++ List.replicate ((r + q) * c - m.elem.length) 0) (fun j => Nat.mul_le_mul_left _ (by omega))
        (by
          intro j hj e he hk
          have hc1 := col_le (r + q) hj
          have hmm := mul_add_le r q j
          have hcol := col_le r (show j < j + 1 by omega)
          have hmove : ∃ e1, (if 0 < j ∨ pre = true then memmove e ((r + q) * j + oA) (r * j) r else some e) = some e1 ∧ e1.length = e.length ∧
              ∀ p, e1[p]? = if (r + q) * j + oA ≤ p ∧ p < (r + q) * j + oA + r then e[r * j + (p - ((r + q) * j + oA))]? else e[p]? := by
            by_cases h0 : 0 < j ∨ pre = true
            · rw [if_pos h0]
              exact memmove_spec e ((r + q) * j + oA) (r * j) r (by rw [he, hlen]; omega)
            · refine ⟨e, by rw [if_neg h0], rfl, fun p => ?_⟩
              have h01 : j = 0 := by
                by_contra hj0
                exact h0 (Or.inl (by omega))
              have h02 : oA = 0 := by
                rcases hoff with ⟨_, _, h⟩ | ⟨h, _⟩
                · exact absurd (Or.inr h) h0
                · exact h
              subst h01; subst h02
              split <;> simp
          obtain ⟨e1, a1, a2, a3⟩ := hmove
          obtain ⟨e2, w1, w2, w3⟩ := write_spec e1 (b.col j) ((r + q) * j + oB) (by rw [(hbl j hj).1, a2, he, hlen]; omega)
          refine ⟨e2, ?_, by rw [w2, a2, he], fun p hp => ?_, fun p hp => ?_, fun p h1 h2 => ?_⟩
          · by_cases h0 : 0 < j ∨ pre = true
            · rw [if_pos h0] at a1
              simp only [if_pos h0, a1]; exact w1
            · rw [if_neg h0] at a1
              simp only [if_neg h0, a1]; exact w1
          · replace hp : p < r * j := hp
            rw [w3, (hbl j hj).1, if_neg (by omega), a3, if_neg (by omega)]
            exact hk p (by omega)
          · replace hp : (r + q) * (j + 1) ≤ p := hp
            have : (r + q) * (j + 1) = (r + q) * j + (r + q) := by ring
            rw [w3, (hbl j hj).1, if_neg (by omega), a3, if_neg (by omega)]
          · have hs : (r + q) * (j + 1) = (r + q) * j + (r + q) := by ring
            replace h2 : p < (r + q) * (j + 1) := h2
            obtain ⟨i, rfl⟩ := Nat.exists_eq_add_of_le h1
            have hi : i < r + q := by omega
            have e1 : ((r + q) * j + i) % (r + q) = i := by rw [Nat.mul_add_mod, Nat.mod_eq_of_lt hi]
            have e2 : ((r + q) * j + i) / (r + q) = j := by rw [Nat.mul_add_div (by omega), Nat.div_eq_of_lt hi, Nat.add_zero]
            rw [w3, (hbl j hj).1, e1, e2]
            by_cases hir : oA ≤ i ∧ i < oA + r
            · rw [if_neg (by omega), if_pos hir, a3, if_pos (by omega), show r * j + ((r + q) * j + i - ((r + q) * j + oA)) = i - oA + r * j by omega,
                hk _ (by omega), getElem_grow _ _ _ (by rw [hA.size]; exact rep_idx (by omega) hj)]
            · rw [if_pos (by omega), if_neg hir]
              congr 1; omega)
        rfl (fun p _ => rfl)
  refine ⟨e', ?_, by rw [← hlen]; exact h2, fun j => ⟨fun i => ?_, fun i => ?_⟩⟩
  · unfold augmentRows
    rw [if_neg (by rw [hA.cols, hB.cols]; simp), hA.rows, hA.cols, hB.rows]
    have : (if pre = true then 0 else r) = oB := hoB.symm
    simp only [← hoA, this]
    rw [h1]; rfl
  · have hi : oA + i.1 < r + q := by have := i.2; omega
    have hp := rep_idx hi j.2
    rw [h5 _ (by simp) hp, Nat.add_mul_mod_self_left, Nat.mod_eq_of_lt hi, Nat.add_mul_div_left _ _ (by omega), Nat.div_eq_of_lt hi, Nat.zero_add,
      if_pos (by have := i.2; omega), Nat.add_sub_cancel_left]
    exact hA.ent i j
  · have hi : oB + i.1 < r + q := by have := i.2; omega
    have hp := rep_idx hi j.2
    rw [h5 _ (by simp) hp, Nat.add_mul_mod_self_left, Nat.mod_eq_of_lt hi, Nat.add_mul_div_left _ _ (by omega), Nat.div_eq_of_lt hi, Nat.zero_add,
      if_neg (by have := i.2; omega), Nat.add_sub_cancel_left]
    exact (hbl j.1 j.2).2 i.1 i.2

/-- `augmentRows` puts the rows of another matrix below those of the matrix, or above them. -/
theorem C60_augmentRows [Zero R] {m b : Mat R} {A : Matrix (Fin r) (Fin c) R} {B : Matrix (Fin q) (Fin c) R} (hA : Rep m A) (hB : Rep b B) :
    (∃ m', m.augmentRows b false = some (true, m') ∧ Rep m' (fun (i : Fin (r + q)) (j : Fin c) => Fin.addCases (fun k => A k j) (fun k => B k j) i)) ∧
    ∃ m', m.augmentRows b true = some (true, m') ∧ Rep m' (fun (i : Fin (q + r)) (j : Fin c) => Fin.addCases (fun k => B k j) (fun k => A k j) i) := by
  constructor
  · obtain ⟨e', h1, h2, h3⟩ := augment_core hA hB false
    refine ⟨_, h1, ⟨rfl, rfl, h2, fun i j => ?_⟩⟩
    refine Fin.addCases (motive := fun i => e'[i.1 + (r + q) * j.1]? = some (Fin.addCases (fun k => A k j) (fun k => B k j) i)) (fun k => ?_) (fun k => ?_) i
    · rw [Fin.addCases_left, Fin.val_castAdd]
      simpa using (h3 j).1 k
    · rw [Fin.addCases_right, Fin.val_natAdd]
      simpa using (h3 j).2 k
  · obtain ⟨e', h1, h2, h3⟩ := augment_core hA hB true
    refine ⟨_, h1, ⟨Nat.add_comm _ _, rfl, by rw [Nat.add_comm q r]; exact h2, fun i j => ?_⟩⟩
    refine Fin.addCases (motive := fun i => e'[i.1 + (q + r) * j.1]? = some (Fin.addCases (fun k => B k j) (fun k => A k j) i)) (fun k => ?_) (fun k => ?_) i
    · rw [Fin.addCases_left, Fin.val_castAdd, Nat.add_comm q r]
      simpa using (h3 j).2 k
    · rw [Fin.addCases_right, Fin.val_natAdd, Nat.add_comm q r]
      simpa using (h3 j).1 k

/-- `expandRows` with more rows keeps all entries and the new rows are zero. -/
theorem C60_expandRows_grow [Zero R] {m : Mat R} {A : Matrix (Fin r) (Fin c) R} (hA : Rep m A) (n : Nat) (hn : r < n) (hc : 1 ≤ c) (h0 : 0 < r ∨ c = 1) :
    ∃ m', m.expandRows ((n : Int) - r) false = some m' ∧ m.expandRows n true = some m' ∧
      Rep m' (fun (i : Fin n) (j : Fin c) => if h : i.1 < r then A ⟨i.1, h⟩ j else 0) := by
  have hrn : r * c ≤ n * c := Nat.mul_le_mul_right _ (by omega)
  have hlen : (m.elem ++ List.replicate (n * c - m.elem.length) (0 : R)).length = n * c := by
    rw [List.length_append, List.length_replicate, hA.size]
    omega
  obtain ⟨e', h1, h2, h3, h4, h5⟩ := revLoop (fun (e : List R) c' => do
        let e ← memmove e (n * (c'+1)) (r * (c'+1)) r
        write e (r + n * c') (List.replicate (n - r) 0)) (m.elem ++ List.replicate (n * c - m.elem.length) 0) (fun j => r * (j + 1)) (fun j => n * j + r)
        (fun p => if p % n < r then m.elem[p % n + r * (p / n)]? else some 0) (c - 1)
        (m.elem ++ List.replicate (n * c - m.elem.length) 0) (fun j => Nat.add_le_add_right (Nat.mul_le_mul_left _ (by omega)) _)
        (by
          intro j hj e he hk
          have hc1 := col_le n (show j + 1 < c by omega)
          have hmm : r * (j + 1) ≤ n * (j + 1) := Nat.mul_le_mul_right _ (by omega)
          have hmm0 : r * j ≤ n * j := Nat.mul_le_mul_right _ (by omega)
          have hs : n * (j + 1) = n * j + n := by ring
          have hsr : r * (j + 1) = r * j + r := by ring
          have hsr2 : r * (j + 1 + 1) = r * (j + 1) + r := by ring
          obtain ⟨e1, a1, a2, a3⟩ := memmove_spec e (n * (j + 1)) (r * (j + 1)) r (by rw [he, hlen]; omega)
          obtain ⟨e2, w1, w2, w3⟩ := write_spec e1 (List.replicate (n - r) (0 : R)) (r + n * j) (by rw [List.length_replicate, a2, he, hlen]; omega)
          rw [List.length_replicate] at w3
          refine ⟨e2, ?_, by rw [w2, a2, he], fun p hp => ?_, fun p hp => ?_, fun p h1 h2 => ?_⟩
          · simp only [a1]; exact w1
          · replace hp : p < r * (j + 1) := hp
            rw [w3, if_neg (by omega), a3, if_neg (by omega)]
            exact hk p (by omega)
          · replace hp : n * (j + 1) + r ≤ p := hp
            rw [w3, if_neg (by omega), a3, if_neg (by omega)]
          · replace h2 : p < n * (j + 1) + r := h2
            replace h1 : n * j + r ≤ p := h1
            rw [w3]
            by_cases hp : p < n * (j + 1)
            · obtain ⟨i, rfl⟩ := Nat.exists_eq_add_of_le (show n * j ≤ p by omega)
              have hi : i < n := by omega
              have e1 : (n * j + i) % n = i := by rw [Nat.mul_add_mod, Nat.mod_eq_of_lt hi]
              rw [e1, if_pos (by omega), if_neg (by omega), List.getElem?_replicate, if_pos (by omega)]
            · obtain ⟨i, rfl⟩ := Nat.exists_eq_add_of_le (show n * (j + 1) ≤ p by omega)
              have hi : i < n := by omega
              have e1 : (n * (j + 1) + i) % n = i := by rw [Nat.mul_add_mod, Nat.mod_eq_of_lt hi]
              have e2 : (n * (j + 1) + i) / n = j + 1 := by rw [Nat.mul_add_div (by omega), Nat.div_eq_of_lt hi, Nat.add_zero]
              have hir : i < r := by omega
              rw [e1, e2, if_pos hir, if_neg (by omega), a3, if_pos (by omega), show r * (j + 1) + (n * (j + 1) + i - n * (j + 1)) = i + r * (j + 1) by omega,
                hk _ (by show _ < r * (j + 1 + 1); omega), getElem_grow _ _ _ (by rw [hA.size]; exact rep_idx hir (by omega))])
        rfl (fun p _ => rfl)
  have heq : m.expandRows ((n : Int) - r) false = some ⟨n, c, e'⟩ := by
    unfold expandRows
    simp only [Bool.false_eq_true, if_false, hA.rows, hA.cols]
    rw [if_neg (by omega), if_neg (by omega), if_pos (by omega), if_neg (by omega), show ((r : Int) + ((n : Int) - r)).toNat = n by omega]
    rw [h1]; rfl
  refine ⟨⟨n, c, e'⟩, heq, ?_, ⟨rfl, rfl, by rw [← hlen]; exact h2, fun i j => ?_⟩⟩
  · rw [← heq]
    unfold expandRows
    simp only [if_true, Bool.false_eq_true, if_false, hA.rows]
  · dsimp only
    have hp := rep_idx i.2 j.2
    have hz : n * 0 + r = r := by omega
    have hlast : n * (c - 1) + n = n * c := by
      calc n * (c - 1) + n = n * (c - 1 + 1) := by ring
        _ = n * c := by rw [show c - 1 + 1 = c by omega]
    have hmm : r * (c - 1) ≤ n * (c - 1) := Nat.mul_le_mul_right _ (by omega)
    have hmm' : r * (c - 1) + r = r * c := by
      calc r * (c - 1) + r = r * (c - 1 + 1) := by ring
        _ = r * c := by rw [show c - 1 + 1 = c by omega]
    by_cases q1 : i.1 + n * j.1 < r
    · have hj : j.1 = 0 := by
        by_contra hj
        have : n * 1 ≤ n * j.1 := Nat.mul_le_mul_left _ (by omega)
        omega
      rw [h3 _ (by show _ < r * (0 + 1); omega), getElem_grow _ _ _ (by rw [hA.size]; omega), dif_pos (by omega)]
      have := hA.ent ⟨i.1, by omega⟩ j
      rw [← this, hj]; simp
    · by_cases q2 : i.1 + n * j.1 < n * (c - 1) + r
      · rw [h5 _ (by show n * 0 + r ≤ _; omega) q2, Nat.add_mul_mod_self_left, Nat.mod_eq_of_lt i.2, Nat.add_mul_div_left _ _ (by omega), Nat.div_eq_of_lt i.2, Nat.zero_add]
        by_cases hi : i.1 < r
        · rw [if_pos hi, dif_pos hi]; exact hA.ent ⟨i.1, hi⟩ j
        · rw [if_neg hi, dif_neg hi]
      · have hj : ¬ j.1 < c - 1 := by
          intro hj
          have := col_le n hj
          have := i.2
          omega
        have hj' : j.1 = c - 1 := by have := j.2; omega
        rw [hj'] at q2 hp ⊢
        rw [h4 _ (by show n * (c - 1) + r ≤ _; omega), List.getElem?_append_right (by rw [hA.size]; omega), List.getElem?_replicate, if_pos (by rw [hA.size]; omega), dif_neg (by omega)]

/-- `expandRows` with fewer rows keeps the first rows. -/
theorem C60_expandRows_shrink [Zero R] {m : Mat R} {A : Matrix (Fin r) (Fin c) R} (hA : Rep m A) (n : Nat) (h0 : 0 < n) (hn : n ≤ r) (hc : 1 ≤ c) :
    ∃ m', m.expandRows ((n : Int) - r) false = some m' ∧ m.expandRows n true = some m' ∧
      Rep m' (fun (i : Fin n) (j : Fin c) => A ⟨i.1, Nat.lt_of_lt_of_le i.2 hn⟩ j) := by
  have htrue : m.expandRows n true = m.expandRows ((n : Int) - r) false := by
    unfold expandRows
    simp only [if_true, Bool.false_eq_true, if_false, hA.rows]
  rcases Nat.eq_or_lt_of_le hn with e | hlt
  · subst e
    have : m.expandRows ((n : Int) - n) false = some m := by
      unfold expandRows
      simp only [Bool.false_eq_true, if_false, hA.rows, hA.cols]
      rw [if_neg (by omega), if_neg (by omega), if_neg (by omega)]
    exact ⟨m, this, htrue.trans this, hA⟩
  · obtain ⟨e', h1, h2, h3, h4, h5⟩ := fwdLoop (fun (e : List R) c' => memmove e (n * (c'+1)) (r * (c'+1)) n) m.elem (fun j => r * (j + 1)) (fun j => n * (j + 1))
        (fun p => m.elem[p % n + r * (p / n)]?) (c - 1) (fun j => Nat.mul_le_mul_left _ (by omega))
        (by
          intro j hj e he hk
          have hc1 := col_le r (show j + 1 < c by omega)
          have hmm : n * (j + 1) ≤ r * (j + 1) := Nat.mul_le_mul_right _ (by omega)
          have hs : n * (j + 1 + 1) = n * (j + 1) + n := by ring
          have hs' : r * (j + 1 + 1) = r * (j + 1) + r := by ring
          obtain ⟨e1, a1, a2, a3⟩ := memmove_spec e (n * (j + 1)) (r * (j + 1)) n (by rw [he, hA.size]; omega)
          refine ⟨e1, a1, by rw [a2, he], fun p hp => ?_, fun p hp => ?_, fun p h1 h2 => ?_⟩
          · replace hp : r * (j + 1 + 1) ≤ p := hp
            rw [a3, if_neg (by omega)]
            exact hk p (by show r * (j + 1) ≤ p; omega)
          · replace hp : p < n * (j + 1) := hp
            rw [a3, if_neg (by omega)]
          · replace h1 : n * (j + 1) ≤ p := h1
            replace h2 : p < n * (j + 1 + 1) := h2
            obtain ⟨i, rfl⟩ := Nat.exists_eq_add_of_le h1
            have hi : i < n := by omega
            have e1 : (n * (j + 1) + i) % n = i := by rw [Nat.mul_add_mod, Nat.mod_eq_of_lt hi]
            have e2 : (n * (j + 1) + i) / n = j + 1 := by rw [Nat.mul_add_div (by omega), Nat.div_eq_of_lt hi, Nat.add_zero]
            rw [a3, if_pos (by omega), e1, e2, show r * (j + 1) + (n * (j + 1) + i - n * (j + 1)) = i + r * (j + 1) by omega]
            exact hk _ (by show r * (j + 1) ≤ _; omega))
    have hmm : n * c ≤ r * c := Nat.mul_le_mul_right _ (by omega)
    have heq : m.expandRows ((n : Int) - r) false = some ⟨n, c, e'.take (n * c)⟩ := by
      unfold expandRows
      simp only [Bool.false_eq_true, if_false, hA.rows, hA.cols]
      rw [if_neg (by omega), if_pos (by omega), show ((r : Int) + ((n : Int) - r)).toNat = n by omega]
      rw [h1]; rfl
    refine ⟨_, heq, htrue.trans heq, ⟨rfl, rfl, by dsimp only; rw [List.length_take, h2, hA.size]; omega, fun i j => ?_⟩⟩
    dsimp only
    have hp := rep_idx i.2 j.2
    rw [List.getElem?_take, if_pos hp]
    have hent := hA.ent ⟨i.1, Nat.lt_of_lt_of_le i.2 hn⟩ j
    by_cases hj : j.1 = 0
    · rw [h4 _ (by show _ < n * (0 + 1); rw [hj]; have := i.2; omega), ← hent, hj]; simp
    · have h6 : n * 1 ≤ n * j.1 := Nat.mul_le_mul_left _ (by omega)
      rw [h5 _ (by show n * (0 + 1) ≤ _; omega) (by show _ < n * (c - 1 + 1); rw [show c - 1 + 1 = c by omega]; exact hp),
        Nat.add_mul_mod_self_left, Nat.mod_eq_of_lt i.2, Nat.add_mul_div_left _ _ (by omega), Nat.div_eq_of_lt i.2, Nat.zero_add]
      exact hent

/-- No rows, or no columns, leaves the empty matrix. -/
theorem C60_expandRows_empty [Zero R] (m : Mat R) (s : Int) (h : (m.nrow : Int) + s < 1 ∨ m.ncol = 0) : m.expandRows s false = some ⟨0, 0, []⟩ := by
  unfold expandRows
  simp only [Bool.false_eq_true, if_false]
  rw [if_pos (by omega)]

/-- The loop over the new rows never ends when the matrix has no rows and at least two columns: the row counter is unsigned and never falls below zero. -/
theorem C60_expandRows_endless [Zero R] (m : Mat R) (h0 : m.nrow = 0) (hc : 2 ≤ m.ncol) (s : Int) (hs : 0 < s) : m.expandRows s false = none := by
  unfold expandRows
  simp only [Bool.false_eq_true, if_false]
  rw [if_neg (by omega), if_neg (by omega), if_pos (by omega), if_pos ⟨h0, hc⟩]

end IFEM.Props
