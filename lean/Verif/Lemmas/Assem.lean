import Verif.Model.Assem
import Verif.Lemmas.Arrays
import Verif.Lemmas.Sums
/-! Lemmas about the assembly loops. -/
namespace IFEM
variable {R : Type} [CommRing R]

attribute [-simp] Fin.getElem_fin

/-! ### Effect of a list of additions on a dense matrix / vector -/

/-- Contribution of an addition to matrix entry `(r,c)`. -/
def Upd.matAt (r c : Int) : Option (Upd R) → R
  | some (.mat r' c' v) => if r' = r ∧ c' = c then v else 0
  | _ => 0

/-- Contribution of an addition to vector entry `r`. -/
def Upd.vecAt (r : Int) : Option (Upd R) → R
  | some (.vec r' v) => if r' = r then v else 0
  | _ => 0

/-- The addition addresses an `n`-by-`m` matrix and a vector of length `k`. -/
def Upd.InB (n m k : Nat) : Option (Upd R) → Prop
  | none => False
  | some (.mat r c _) => 1 ≤ r ∧ r ≤ n ∧ 1 ≤ c ∧ c ≤ m
  | some (.vec r _) => 1 ≤ r ∧ r ≤ k

theorem add1?_spec (b : List R) (r : Int) (v : R) (h1 : 1 ≤ r) (h2 : r ≤ b.length) :
    ∃ b', add1? b r v = some b' ∧ b'.length = b.length ∧
      ∀ r', vval b' r' = vval b r' + if r = r' then v else 0 := by
  have hlt : (r-1).toNat < b.length := by omega
  obtain ⟨x, hx, hx'⟩ := at0?_some_of_bounds (a := b) (i := r-1) (by omega) (by omega)
  refine ⟨b.set (r-1).toNat (x+v), by simp [add1?, add0?, hx], by simp, ?_⟩
  intro r'
  unfold vval at1? at0?
  by_cases hr : r = r'
  · subst hr
    rw [if_pos (by omega), if_pos (by omega), List.getElem?_set_self hlt, hx']; simp
  · rw [if_neg hr]
    split
    · rw [List.getElem?_set_ne (by omega)]; simp
    · simp

omit [CommRing R] in
theorem Mat.idx_lt {m : Mat R} (hwf : m.WF) {r c : Int} (h : 1 ≤ r ∧ r ≤ m.nrow ∧ 1 ≤ c ∧ c ≤ m.ncol) :
    (r-1).toNat + m.nrow * (c-1).toNat < m.elem.length := by
  rw [hwf]
  have h1 : (r-1).toNat < m.nrow := by omega
  have h2 : (c-1).toNat + 1 ≤ m.ncol := by omega
  calc (r-1).toNat + m.nrow * (c-1).toNat < m.nrow + m.nrow * (c-1).toNat := by omega
    _ = m.nrow * ((c-1).toNat + 1) := by ring
    _ ≤ m.nrow * m.ncol := Nat.mul_le_mul_left _ h2

theorem Mat.get?_some {m : Mat R} (hwf : m.WF) {r c : Int} (h : 1 ≤ r ∧ r ≤ m.nrow ∧ 1 ≤ c ∧ c ≤ m.ncol) :
    m.get? r c = some (m.val r c) := by
  unfold Mat.val Mat.get?
  rw [if_pos h, List.getElem?_eq_getElem (Mat.idx_lt hwf h)]; rfl

theorem Mat.idx_inj {n : Nat} {a b c d : Nat} (ha : a < n) (hc : c < n) (h : a + n * b = c + n * d) :
    a = c ∧ b = d := by
  have hn : 0 < n := by omega
  have h1 : (a + n * b) % n = (c + n * d) % n := by rw [h]
  rw [Nat.add_mul_mod_self_left, Nat.add_mul_mod_self_left, Nat.mod_eq_of_lt ha, Nat.mod_eq_of_lt hc] at h1
  refine ⟨h1, ?_⟩
  subst h1
  have : n * b = n * d := by omega
  exact Nat.eq_of_mul_eq_mul_left hn this

theorem Mat.addAt?_spec (m : Mat R) (hwf : m.WF) (r c : Int) (v : R)
    (h : 1 ≤ r ∧ r ≤ m.nrow ∧ 1 ≤ c ∧ c ≤ m.ncol) :
    ∃ m', m.addAt? r c v = some m' ∧ m'.WF ∧ m'.nrow = m.nrow ∧ m'.ncol = m.ncol ∧
      ∀ r' c', m'.val r' c' = m.val r' c' + if r = r' ∧ c = c' then v else 0 := by
  have hi := Mat.idx_lt hwf h
  refine ⟨{ m with elem := m.elem.set ((r-1).toNat + m.nrow * (c-1).toNat) (m.elem[(r-1).toNat + m.nrow * (c-1).toNat] + v) }, ?_, ?_, rfl, rfl, ?_⟩
  · unfold Mat.addAt?
    rw [if_pos h, List.getElem?_eq_getElem hi]
  · simpa [Mat.WF] using hwf
  · intro r' c'
    unfold Mat.val Mat.get?
    by_cases hb : 1 ≤ r' ∧ r' ≤ m.nrow ∧ 1 ≤ c' ∧ c' ≤ m.ncol
    · simp only [if_pos hb]
      by_cases he : r = r' ∧ c = c'
      · obtain ⟨rfl, rfl⟩ := he
        rw [List.getElem?_set_self hi, List.getElem?_eq_getElem hi]; simp
      · rw [if_neg he, List.getElem?_set_ne]; · simp
        intro heq
        apply he
        have := Mat.idx_inj (n := m.nrow) (by omega) (by omega) heq
        omega
    · simp only [if_neg hb]
      have : ¬ (r = r' ∧ c = c') := by rintro ⟨rfl, rfl⟩; exact hb h
      simp [this]

theorem applyDense_list (us : List (Option (Upd R))) (K : Mat R) (B : List R) (hwf : K.WF)
    (hb : ∀ u ∈ us, Upd.InB K.nrow K.ncol B.length u) :
    ∃ K' B', us.foldlM Sam.applyDense (K, B) = some (K', B') ∧ K'.WF ∧ K'.nrow = K.nrow ∧
      K'.ncol = K.ncol ∧ B'.length = B.length ∧
      (∀ r c, K'.val r c = K.val r c + (us.map (Upd.matAt r c)).sum) ∧
      (∀ r, vval B' r = vval B r + (us.map (Upd.vecAt r)).sum) := by
  induction us generalizing K B with
  | nil => exact ⟨K, B, rfl, hwf, rfl, rfl, rfl, by simp, by simp⟩
  | cons u us ih =>
    have hu := hb u List.mem_cons_self
    match u, hu with
    | some (.mat r c v), hu =>
      obtain ⟨K1, h1, h2, h3, h4, h5⟩ := Mat.addAt?_spec K hwf r c v hu
      obtain ⟨K', B', g1, g2, g3, g4, g5, g6, g7⟩ := ih K1 B h2 (by
        intro u hu; rw [h3, h4]; exact hb u (List.mem_cons_of_mem _ hu))
      refine ⟨K', B', ?_, g2, by omega, by omega, g5, ?_, ?_⟩
      · simp [Sam.applyDense, h1, g1]
      · intro r' c'
        rw [g6, h5]; simp [Upd.matAt]; ring
      · intro r'
        rw [g7]; simp [Upd.vecAt]
    | some (.vec r v), hu =>
      obtain ⟨B1, h1, h2, h5⟩ := add1?_spec B r v hu.1 hu.2
      obtain ⟨K', B', g1, g2, g3, g4, g5, g6, g7⟩ := ih K B1 hwf (by
        intro u hu; rw [h2]; exact hb u (List.mem_cons_of_mem _ hu))
      refine ⟨K', B', ?_, g2, by omega, by omega, by omega, ?_, ?_⟩
      · simp [Sam.applyDense, h1, g1]
      · intro r' c'
        rw [g6]; simp [Upd.matAt]
      · intro r'
        rw [g7, h5]; simp [Upd.vecAt]; ring

/-! ### The sum of all additions -/

/-- Transformation coefficient of an equation code. -/
def tcoef (tm : Int → List (Int × R)) (code r : Int) : R :=
  if code > 0 then (if code = r then 1 else 0)
  else if -code > 0 then ((tm code).map fun t => if t.1 = r then t.2 else 0).sum
  else 0

theorem matAt_mat (r c r' c' : Int) (v : R) : Upd.matAt r c (some (Upd.mat r' c' v)) =
    (if r' = r then 1 else 0) * v * (if c' = c then 1 else 0) := by
  unfold Upd.matAt
  by_cases h1 : r' = r <;> by_cases h2 : c' = c <;> simp [h1, h2]

theorem vecAt_vec (r r' : Int) (v : R) : Upd.vecAt r (some (Upd.vec r' v)) =
    (if r' = r then 1 else 0) * v := by
  unfold Upd.vecAt
  by_cases h1 : r' = r <;> simp [h1]

theorem ite_mul1 (p : Prop) [Decidable p] (v : R) : (if p then v else 0) = (if p then 1 else 0) * v := by
  split <;> simp

/-- A list entry at a valid position is a member. -/
theorem fmem (l : List Int) (i : Fin l.length) : l[i] ∈ l := List.getElem_mem i.2

namespace Sam
variable {s : Sam R} {eM : Mat R} {meen : List Int} {tm : Int → List (Int × R)} {g : Int → R}
  {M : Nat → Nat → R}

theorem assemFree_mat (hM : ∀ i j : Fin meen.length, eM.elm? i j = some (M i j)) (r c : Int) :
    ((assemFree eM meen).map (Upd.matAt r c)).sum =
      ∑ i : Fin meen.length, ∑ j : Fin meen.length,
        if meen[i] > 0 ∧ meen[j] > 0 then tcoef tm meen[i] r * M i j * tcoef tm meen[j] c else 0 := by
  unfold assemFree
  rw [sum_map_flatMap, sum_finRange, ← tri_sum]
  apply Finset.sum_congr rfl
  intro j _
  by_cases hj : meen[j] < 1
  · have hj' : ¬ meen[j] > 0 := by omega
    simp [hj, hj']
  · have hj' : meen[j] > 0 := by omega
    simp only [if_neg hj, List.map_cons, List.sum_cons, hM, Option.map_some]
    congr 1
    · simp only [Upd.matAt, tcoef, hj', and_self, if_true]
      by_cases h1 : meen[j] = r <;> by_cases h2 : meen[j] = c <;> simp [h1, h2]
    · rw [sum_map_flatMap, sum_map_filter, sum_finRange]
      apply Finset.sum_congr rfl
      intro i _
      by_cases hij : i < j
      · simp only [hij, decide_true, if_true]
        by_cases hi : meen[i] < 1
        · have hi' : ¬ meen[i] > 0 := by omega
          simp [hi, hi']
        · have hi' : meen[i] > 0 := by omega
          simp only [if_neg hi, hM, Option.map_some, List.map_cons, List.map_nil, List.sum_cons,
            List.sum_nil, add_zero, matAt_mat, tcoef, hi', hj', and_self, if_true]
      · simp [hij]

theorem assemFree_vec (r : Int) : ((assemFree eM meen).map (Upd.vecAt r)).sum = 0 := by
  apply List.sum_eq_zero
  intro x hx
  obtain ⟨u, hu, rfl⟩ := List.mem_map.1 hx
  unfold assemFree at hu
  rw [List.mem_flatMap] at hu
  obtain ⟨j, _, hu⟩ := hu
  by_cases hj : meen[j] < 1
  · simp [hj] at hu
  · simp only [if_neg hj, List.mem_cons, List.mem_flatMap] at hu
    rcases hu with rfl | ⟨i, _, hu⟩
    · cases eM.elm? j j <;> simp [Upd.vecAt]
    · by_cases hi : meen[i] < 1
      · simp [hi] at hu
      · simp only [if_neg hi, List.mem_cons, List.not_mem_nil, or_false] at hu
        rcases hu with rfl | rfl
        · cases eM.elm? i j <;> simp [Upd.vecAt]
        · cases eM.elm? j i <;> simp [Upd.vecAt]

theorem assemSlaveRHS_vec (hM : ∀ i j : Fin meen.length, eM.elm? i j = some (M i j))
    (hmt : ∀ e ∈ meen, e < 0 → s.masterTerms (-e) = (tm e).map some)
    (j : Fin meen.length) (c0 : R) (r : Int) :
    ((s.assemSlaveRHS eM meen j c0).map (Upd.vecAt r)).sum =
      ∑ i : Fin meen.length, -(tcoef tm meen[i] r * M i j * c0) := by
  unfold assemSlaveRHS
  rw [sum_map_flatMap, sum_finRange]
  apply Finset.sum_congr rfl
  intro i _
  rw [hM]
  by_cases hi : meen[i] > 0
  · simp only [if_pos hi, Option.map_some, List.map_cons, List.map_nil, List.sum_cons, List.sum_nil,
      add_zero, Upd.vecAt, tcoef]
    by_cases h : meen[i] = r <;> simp [h]; ring
  · by_cases hi2 : -meen[i] > 0
    · simp only [if_neg hi, if_pos hi2, tcoef]
      rw [hmt meen[i] (fmem meen i) (by omega), List.map_map, List.map_map]
      induction tm meen[i] with
      | nil => simp
      | cons t ts ih =>
        simp only [List.map_cons, List.sum_cons, ih]
        simp only [Function.comp, Option.bind_some, Option.map_some, Upd.vecAt]
        split <;> ring
    · simp only [if_neg hi, if_neg hi2, tcoef]; simp

theorem assemSlaveRHS_mat (j : Fin meen.length) (c0 : R) (r c : Int) :
    ((s.assemSlaveRHS eM meen j c0).map (Upd.matAt r c)).sum = 0 := by
  apply List.sum_eq_zero
  intro x hx
  obtain ⟨u, hu, rfl⟩ := List.mem_map.1 hx
  unfold assemSlaveRHS at hu
  rw [List.mem_flatMap] at hu
  obtain ⟨i, _, hu⟩ := hu
  by_cases hi : meen[i] > 0
  · simp only [if_pos hi, List.mem_cons, List.not_mem_nil, or_false] at hu
    subst hu; cases eM.elm? i j <;> simp [Upd.matAt]
  · by_cases hi2 : -meen[i] > 0
    · simp only [if_neg hi, if_pos hi2, List.mem_map] at hu
      obtain ⟨t, _, rfl⟩ := hu
      cases t <;> cases eM.elm? i j <;> simp [Upd.matAt]
    · simp only [if_neg hi, if_neg hi2] at hu; simp at hu

theorem assemSlaveMat_mat (hM : ∀ i j : Fin meen.length, eM.elm? i j = some (M i j))
    (hmt : ∀ e ∈ meen, e < 0 → s.masterTerms (-e) = (tm e).map some)
    (j : Fin meen.length) (hj : -meen[j] > 0) (r c : Int) :
    ((s.assemSlaveMat eM meen j).map (Upd.matAt r c)).sum =
      ∑ i : Fin meen.length,
        (tcoef tm meen[i] r * M i j * tcoef tm meen[j] c +
         if meen[i] > 0 then tcoef tm meen[j] r * M j i * tcoef tm meen[i] c else 0) := by
  have hjn : ¬ meen[j] > 0 := by omega
  have htj : ∀ x, tcoef tm meen[j] x = ((tm meen[j]).map fun t => if t.1 = x then t.2 else 0).sum := by
    intro x; simp only [tcoef, if_neg hjn, if_pos hj]
  unfold assemSlaveMat
  rw [hmt meen[j] (fmem meen j) (by omega), sum_map_flatMap, List.map_map, htj, htj]
  induction tm meen[j] with
  | nil => simp
  | cons t ts ih =>
    simp only [List.map_cons, List.sum_cons, ih]
    simp only [Function.comp]
    rw [sum_map_flatMap, sum_finRange, ← Finset.sum_add_distrib]
    apply Finset.sum_congr rfl
    intro i _
    rw [hM, hM]
    by_cases hi : meen[i] > 0
    · simp only [if_pos hi, Option.map_some, List.map_cons, List.map_nil, List.sum_cons, List.sum_nil,
        add_zero, matAt_mat, tcoef]
      rw [ite_mul1 (t.1 = r) t.2, ite_mul1 (t.1 = c) t.2]
      ring
    · by_cases hi2 : -meen[i] > 0
      · simp only [if_neg hi, if_pos hi2, tcoef]
        rw [hmt meen[i] (fmem meen i) (by omega), List.map_map, List.map_map]
        have : (List.map ((Upd.matAt r c ∘ fun ti : Option (Int × R) =>
                ti.bind fun ti => (some (M i j)).map fun v => Upd.mat ti.1 t.1 (ti.2 * t.2 * v)) ∘ some) (tm meen[i])).sum
            = (List.map (fun t : Int × R => if t.1 = r then t.2 else 0) (tm meen[i])).sum * M i j * (if t.1 = c then t.2 else 0) := by
          induction tm meen[i] with
          | nil => simp
          | cons u us ih2 =>
            simp only [List.map_cons, List.sum_cons, ih2]
            simp only [Function.comp, Option.bind_some, Option.map_some, Upd.matAt]
            by_cases h1 : u.1 = r <;> by_cases h2 : t.1 = c <;> simp [h1, h2] <;> ring
        rw [this]; ring
      · simp only [if_neg hi, if_neg hi2, tcoef]; simp

theorem assemSlaveMat_vec (j : Fin meen.length) (r : Int) :
    ((s.assemSlaveMat eM meen j).map (Upd.vecAt r)).sum = 0 := by
  apply List.sum_eq_zero
  intro x hx
  obtain ⟨u, hu, rfl⟩ := List.mem_map.1 hx
  unfold assemSlaveMat at hu
  rw [List.mem_flatMap] at hu
  obtain ⟨t, _, hu⟩ := hu
  cases t with
  | none => simp at hu; subst hu; simp [Upd.vecAt]
  | some t =>
    simp only [List.mem_flatMap] at hu
    obtain ⟨i, _, hu⟩ := hu
    by_cases hi : meen[i] > 0
    · simp only [if_pos hi, List.mem_cons, List.not_mem_nil, or_false] at hu
      rcases hu with rfl | rfl
      · cases eM.elm? i j <;> simp [Upd.vecAt]
      · cases eM.elm? j i <;> simp [Upd.vecAt]
    · by_cases hi2 : -meen[i] > 0
      · simp only [if_neg hi, if_pos hi2, List.mem_map] at hu
        obtain ⟨t, _, rfl⟩ := hu
        cases t <;> cases eM.elm? i j <;> simp [Upd.vecAt]
      · simp only [if_neg hi, if_neg hi2] at hu; simp at hu

/-- **Core identity, matrix**: all additions to entry `(r,c)` sum up to `(Tᵀ M T)(r,c)`. -/
theorem assemUpd_mat (hM : ∀ i j : Fin meen.length, eM.elm? i j = some (M i j))
    (hmt : ∀ e ∈ meen, e < 0 → s.masterTerms (-e) = (tm e).map some)
    (hoff : ∀ e ∈ meen, e < 0 → s.offset? (-e) = some (g e)) (sv : Bool) (r c : Int) :
    ((s.assemUpd eM meen sv).map (Upd.matAt r c)).sum =
      ∑ i : Fin meen.length, ∑ j : Fin meen.length,
        tcoef tm meen[i] r * M i j * tcoef tm meen[j] c := by
  unfold assemUpd assemSlaves
  rw [List.map_append, List.sum_append, assemFree_mat (tm := tm) hM, sum_map_flatMap, sum_finRange]
  have h1 : ∀ j : Fin meen.length,
      ((s.assemSlave eM meen sv j).map (Upd.matAt r c)).sum =
      ∑ i : Fin meen.length, ((if meen[j] < 0 then tcoef tm meen[i] r * M i j * tcoef tm meen[j] c else 0) +
         if meen[i] > 0 ∧ meen[j] < 0 then tcoef tm meen[j] r * M j i * tcoef tm meen[i] c else 0) := by
    intro j
    unfold assemSlave
    by_cases hj : -meen[j] < 1
    · have hj' : ¬ meen[j] < 0 := by omega
      simp [hj, hj']
    · have hj' : meen[j] < 0 := by omega
      rw [if_neg hj, hoff meen[j] (fmem meen j) (by omega)]
      simp only [List.map_append, List.sum_append]
      rw [assemSlaveMat_mat hM hmt j (by omega)]
      have : (List.map (Upd.matAt r c) (if sv = true then s.assemSlaveRHS eM meen j (g meen[j]) else [])).sum = 0 := by
        cases sv
        · simp
        · simpa using assemSlaveRHS_mat (s := s) (eM := eM) j (g meen[j]) r c
      rw [this, zero_add]
      apply Finset.sum_congr rfl
      intro i _
      simp [hj']
  rw [Finset.sum_congr rfl (fun j _ => h1 j)]
  simp only [Finset.sum_add_distrib]
  rw [Finset.sum_comm (f := fun (j i : Fin meen.length) => if meen[j] < 0 then tcoef tm meen[i] r * M i j * tcoef tm meen[j] c else 0)]
  rw [← Finset.sum_add_distrib, ← Finset.sum_add_distrib]
  apply Finset.sum_congr rfl
  intro i _
  rw [← Finset.sum_add_distrib, ← Finset.sum_add_distrib]
  apply Finset.sum_congr rfl
  intro j _
  have hz : ∀ x, ∀ k : Fin meen.length, ¬ meen[k] > 0 → ¬ meen[k] < 0 → tcoef tm meen[k] x = 0 := by
    intro x k h1 h2
    unfold tcoef
    rw [if_neg h1, if_neg (by omega)]
  by_cases hi : meen[i] > 0 <;> by_cases hj : meen[j] > 0 <;>
    by_cases hi2 : meen[i] < 0 <;> by_cases hj2 : meen[j] < 0 <;>
    first
      | (exfalso; omega)
      | (simp [hi, hj, hi2, hj2]; done)
      | (rw [hz _ i hi hi2]; simp [hi, hi2])
      | (rw [hz _ j hj hj2]; simp [hj, hj2])

/-- **Core identity, right-hand side**: the additions to entry `r` sum up to `-(Tᵀ M g)(r)`. -/
theorem assemUpd_vec (hM : ∀ i j : Fin meen.length, eM.elm? i j = some (M i j))
    (hmt : ∀ e ∈ meen, e < 0 → s.masterTerms (-e) = (tm e).map some)
    (hoff : ∀ e ∈ meen, e < 0 → s.offset? (-e) = some (g e)) (r : Int) :
    ((s.assemUpd eM meen true).map (Upd.vecAt r)).sum =
      - ∑ i : Fin meen.length, ∑ j : Fin meen.length,
        tcoef tm meen[i] r * M i j * (if meen[j] < 0 then g meen[j] else 0) := by
  unfold assemUpd assemSlaves
  rw [List.map_append, List.sum_append, assemFree_vec, zero_add, sum_map_flatMap, sum_finRange,
    Finset.sum_comm, ← Finset.sum_neg_distrib]
  apply Finset.sum_congr rfl
  intro j _
  unfold assemSlave
  by_cases hj : -meen[j] < 1
  · have hj' : ¬ meen[j] < 0 := by omega
    simp [hj, hj']
  · have hj' : meen[j] < 0 := by omega
    rw [if_neg hj, hoff meen[j] (fmem meen j) (by omega)]
    simp only [List.map_append, List.sum_append, if_true]
    rw [assemSlaveMat_vec, add_zero, assemSlaveRHS_vec hM hmt, ← Finset.sum_neg_distrib]
    simp [hj']

theorem assemUpd_vec_none (hoff : ∀ e ∈ meen, e < 0 → s.offset? (-e) = some (g e)) (r : Int) :
    ((s.assemUpd eM meen false).map (Upd.vecAt r)).sum = 0 := by
  unfold assemUpd assemSlaves
  rw [List.map_append, List.sum_append, assemFree_vec, zero_add, sum_map_flatMap, sum_finRange]
  apply Finset.sum_eq_zero
  intro j _
  unfold assemSlave
  by_cases hj : -meen[j] < 1
  · simp [hj]
  · rw [if_neg hj, hoff meen[j] (fmem meen j) (by omega)]
    simp [assemSlaveMat_vec]

/-- All additions stay inside an `n`-by-`m` matrix when all equation numbers do. -/
theorem assemUpd_inB {n m k : Nat} (hM : ∀ i j : Fin meen.length, eM.elm? i j = some (M i j))
    (hmt : ∀ e ∈ meen, e < 0 → s.masterTerms (-e) = (tm e).map some)
    (hoff : ∀ e ∈ meen, e < 0 → s.offset? (-e) = some (g e))
    (hpos : ∀ e ∈ meen, e ≤ n ∧ e ≤ m ∧ e ≤ k)
    (htm : ∀ e ∈ meen, e < 0 → ∀ t ∈ tm e, 1 ≤ t.1 ∧ t.1 ≤ n ∧ t.1 ≤ m ∧ t.1 ≤ k) (sv : Bool)
    : ∀ u ∈ s.assemUpd eM meen sv, Upd.InB n m (if sv then k else 0) u := by
  intro u hu
  unfold assemUpd at hu
  rcases List.mem_append.1 hu with hu | hu
  · unfold assemFree at hu
    rw [List.mem_flatMap] at hu
    obtain ⟨j, _, hu⟩ := hu
    have pj := hpos _ (List.getElem_mem (l := meen) (n := j) j.2)
    by_cases hj : meen[j] < 1
    · simp [hj] at hu
    · simp only [if_neg hj, List.mem_cons, List.mem_flatMap, hM, Option.map_some] at hu
      rcases hu with rfl | ⟨i, _, hu⟩
      · simp only [Upd.InB, Fin.getElem_fin] at *; omega
      · have pi := hpos _ (List.getElem_mem (l := meen) (n := i) i.2)
        by_cases hi : meen[i] < 1
        · simp [hi] at hu
        · simp only [if_neg hi, List.mem_cons, List.not_mem_nil, or_false] at hu
          rcases hu with rfl | rfl <;> (simp only [Upd.InB, Fin.getElem_fin] at *; omega)
  · unfold assemSlaves at hu
    rw [List.mem_flatMap] at hu
    obtain ⟨j, _, hu⟩ := hu
    unfold assemSlave at hu
    by_cases hj : -meen[j] < 1
    · simp [hj] at hu
    · rw [if_neg hj, hoff meen[j] (fmem meen j) (by omega)] at hu
      simp only [List.mem_append] at hu
      rcases hu with hu | hu
      · cases sv
        · simp at hu
        · simp only [if_true] at hu
          unfold assemSlaveRHS at hu
          rw [List.mem_flatMap] at hu
          obtain ⟨i, _, hu⟩ := hu
          have pi := hpos _ (List.getElem_mem (l := meen) (n := i) i.2)
          rw [hM] at hu
          by_cases hi : meen[i] > 0
          · simp only [if_pos hi, List.mem_cons, List.not_mem_nil, or_false, Option.map_some] at hu
            subst hu; simp only [Upd.InB, Fin.getElem_fin, if_true] at *; omega
          · by_cases hi2 : -meen[i] > 0
            · simp only [if_neg hi, if_pos hi2] at hu
              rw [hmt meen[i] (fmem meen i) (by omega)] at hu
              simp only [List.map_map, List.mem_map, Function.comp, Option.bind_some, Option.map_some] at hu
              obtain ⟨t, ht, rfl⟩ := hu
              have := htm _ (List.getElem_mem (l := meen) (n := i) i.2) (by simp only [Fin.getElem_fin] at *; omega) t ht
              simp only [Upd.InB, if_true]; omega
            · simp only [if_neg hi, if_neg hi2] at hu; simp at hu
      · unfold assemSlaveMat at hu
        rw [hmt meen[j] (fmem meen j) (by omega), List.mem_flatMap] at hu
        obtain ⟨t, ht, hu⟩ := hu
        obtain ⟨t, ht', rfl⟩ := List.mem_map.1 ht
        have pt := htm _ (List.getElem_mem (l := meen) (n := j) j.2) (by simp only [Fin.getElem_fin] at *; omega) t ht'
        simp only [List.mem_flatMap] at hu
        obtain ⟨i, _, hu⟩ := hu
        have pi := hpos _ (List.getElem_mem (l := meen) (n := i) i.2)
        rw [hM, hM] at hu
        by_cases hi : meen[i] > 0
        · simp only [if_pos hi, List.mem_cons, List.not_mem_nil, or_false, Option.map_some] at hu
          rcases hu with rfl | rfl <;> (simp only [Upd.InB, Fin.getElem_fin] at *; omega)
        · by_cases hi2 : -meen[i] > 0
          · simp only [if_neg hi, if_pos hi2] at hu
            rw [hmt meen[i] (fmem meen i) (by omega)] at hu
            simp only [List.map_map, List.mem_map, Function.comp, Option.bind_some, Option.map_some] at hu
            obtain ⟨u, hu', rfl⟩ := hu
            have := htm _ (List.getElem_mem (l := meen) (n := i) i.2) (by simp only [Fin.getElem_fin] at *; omega) u hu'
            simp only [Upd.InB]; omega
          · simp only [if_neg hi, if_neg hi2] at hu; simp at hu

end Sam
end IFEM
