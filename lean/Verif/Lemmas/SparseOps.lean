import Verif.Lemmas.SparseConv
import Verif.Lemmas.Assem
import Mathlib.Algebra.BigOperators.Intervals
import Mathlib.Algebra.BigOperators.Ring.Finset
/-! Operations on sparse matrices in terms of the entries held. -/
namespace IFEM
open Sparse
variable {R : Type}

theorem mapM_some' {α β : Type _} {f : α → Option β} {g : α → β} : ∀ (l : List α), (∀ x ∈ l, f x = some (g x)) →
    l.mapM f = some (l.map g)
  | [], _ => rfl
  | x :: l, h => by
    rw [List.mapM_cons, h x List.mem_cons_self, mapM_some' l fun y hy => h y (List.mem_cons_of_mem _ hy)]
    rfl

theorem intRange_append {a b c : Int} (h1 : a ≤ b) (h2 : b ≤ c) : intRange a b ++ intRange b c = intRange a c := by
  apply List.ext_getElem
  · simp [intRange]; omega
  · intro i h3 h4
    rw [List.getElem_append]
    simp only [intRange, List.length_map, List.length_range, List.getElem_map, List.getElem_range] at *
    split
    · rfl
    · omega

theorem flatMap_segments (c : Nat → Nat) (h0 : c 0 = 0) (hm : ∀ j, c j ≤ c (j+1)) (n : Nat) :
    ((List.range' 1 n).flatMap fun j => intRange (c (j-1)) (c j)) = intRange 0 (c n) := by
  induction n with
  | zero => simp [h0, intRange]
  | succ n ih =>
    rw [List.range'_concat, List.flatMap_append, ih]
    simp only [List.flatMap_cons, List.flatMap_nil, List.append_nil, one_mul]
    have e : 1 + n - 1 = n := by omega
    have e2 : 1 + n = n + 1 := by omega
    rw [e, e2]
    exact intRange_append (by omega) (by have := hm n; omega)

/-- An entry as it is visited by `add`, `multiply` and `Linfnorm`. -/
def trip (p : (Nat × Nat) × R) : Int × Int × R := ((p.1.1 : Int), (p.1.2 : Int), p.2)

theorem majorOf_le {M : Sparse R} {T : VMap R} (h : Holds M T) (col : Bool) :
    ∀ p ∈ T, majorOf col p ≤ if col then M.ncol else M.nrow := by
  intro p hp
  have := h.range p hp
  unfold majorOf; split <;> omega

/-- The loops over all stored entries visit exactly the entries held. -/
theorem triplets_spec [Zero R] {M : Sparse R} {T : VMap R} (h : Holds M T) (col : Bool)
    (hc : M.editable = .locked → col = M.colFormat) : M.triplets col = some (T.map trip) := by
  unfold triplets
  by_cases he : M.editable = .locked
  · rw [if_neg (by simpa using he)]
    obtain ⟨hs, hJA, hA, hIA⟩ := h.lock he
    have hcol := hc he
    have hpos := majorOf_pos h M.colFormat
    have hle := majorOf_le h M.colFormat
    rw [← hcol] at hs hJA hIA hpos hle
    set cc : Nat → Nat := fun j => T.countP fun p => majorOf col p ≤ j with hcc
    have h0 : cc 0 = 0 := by
      rw [hcc]; simp only
      rw [List.countP_eq_zero]; intro p hp; have := hpos p hp; simp; omega
    have hmono : ∀ j, cc j ≤ cc (j+1) := by
      intro j
      apply List.countP_mono_left
      intro p _ hp
      simp only [decide_eq_true_eq] at hp ⊢; omega
    have hlen : ∀ j, cc j ≤ T.length := fun j => List.countP_le_length
    have hN : cc (if col then M.ncol else M.nrow) = T.length := by
      rw [hcc]; simp only
      rw [List.countP_eq_length]; intro p hp; simpa using hle p hp
    have hseg : ∀ j, 1 ≤ j → ∀ i ∈ intRange (cc (j-1)) (cc j), ∃ (q : Nat) (hq : q < T.length), i = q ∧
        majorOf col T[q] = j := by
      intro j hj i hi
      rw [mem_intRange] at hi
      have hq : i.toNat < T.length := by have := hlen j; omega
      refine ⟨i.toNat, hq, by omega, ?_⟩
      have h1 := lt_countP_le (majorOf col) T hs j i.toNat hq
      have h2 := lt_countP_le (majorOf col) T hs (j-1) i.toNat hq
      have a1 := h1.1 (by show i.toNat < cc j; omega)
      have a2 : ¬ (majorOf col T[i.toNat] ≤ j-1) := fun h => by have : i.toNat < cc (j-1) := h2.2 h; omega
      omega
    -- value visited at position i
    let g : Int → Int × Int × R := fun i => ((T.map trip)[i.toNat]?).getD (0, 0, 0)
    have hg : ∀ (q : Nat) (hq : q < T.length), g q = trip T[q] := by
      intro q hq; simp [g, hq]
    have hall : (intRange 0 (T.length : Int)).map g = T.map trip := by
      apply List.ext_getElem
      · simp [intRange]
      · intro i h1 h2
        have hi : i < T.length := by simpa using h2
        simp only [intRange, List.getElem_map, List.getElem_range]
        rw [zero_add, hg i hi]
    have hptr : ∀ j, j ≤ (if col then M.ncol else M.nrow) →
        at0? M.IA (j : Int) = some ((if col then 0 else 1 : Int) + cc j) := by
      intro j hj
      rw [hIA]
      exact at0?_tab (fun j => ((if col then 0 else 1 : Int) + cc j)) (by omega)
    have hja : ∀ (q : Nat) (hq : q < T.length), at0? M.JA (q : Int) = some (minorOf col T[q]) := by
      intro q hq; rw [hJA]; simp [hq]
    have ha : ∀ (q : Nat) (hq : q < T.length), at0? M.A (q : Int) = some T[q].2 := by
      intro q hq; rw [hA]; simp [hq]
    cases col with
    | true =>
      simp only [if_true] at hptr hN ⊢
      rw [mapM_some' (g := fun j => (intRange (cc (j-1)) (cc j)).map g)]
      · simp only [Option.bind_eq_bind, Option.bind_some]
        rw [← List.flatMap_def, ← List.map_flatMap, flatMap_segments cc h0 hmono, hN, hall]
        rfl
      · intro j hj
        rw [List.mem_range'_1] at hj
        rw [show ((j : Int) - 1) = ((j-1 : Nat) : Int) by omega, hptr (j-1) (by omega), hptr j (by omega)]
        simp only [Option.bind_eq_bind, Option.bind_some, zero_add]
        apply mapM_some'
        intro i hi
        obtain ⟨q, hq, rfl, hmaj⟩ := hseg j (by omega) i hi
        rw [hja q hq, ha q hq, hg q hq]
        simp only [Option.bind_some]
        unfold trip
        simp only [majorOf, if_true] at hmaj
        simp only [minorOf, if_true]
        rw [← hmaj]
        simp
    | false =>
      simp only [Bool.false_eq_true, if_false] at hptr hN ⊢
      rw [mapM_some' (g := fun j => (intRange (cc (j-1)) (cc j)).map g)]
      · simp only [Option.bind_eq_bind, Option.bind_some]
        rw [← List.flatMap_def, ← List.map_flatMap, flatMap_segments cc h0 hmono, hN, hall]
        rfl
      · intro j hj
        rw [List.mem_range'_1] at hj
        rw [show ((j : Int) - 1) = ((j-1 : Nat) : Int) by omega, hptr (j-1) (by omega), hptr j (by omega)]
        simp only [Option.bind_eq_bind, Option.bind_some]
        have hshift : intRange (1 + (cc (j-1) : Int)) (1 + (cc j : Int)) =
            (intRange (cc (j-1)) (cc j)).map fun i => 1 + i := by
          unfold intRange
          rw [List.map_map]
          have : (1 + (cc j : Int) - (1 + (cc (j-1) : Int))).toNat = ((cc j : Int) - cc (j-1)).toNat := by omega
          rw [this]
          apply List.map_congr_left
          intro k _
          simp only [Function.comp]; omega
        rw [hshift, List.mapM_map]
        apply mapM_some'
        intro i hi
        obtain ⟨q, hq, rfl, hmaj⟩ := hseg j (by omega) i hi
        simp only [Function.comp, add_sub_cancel_left]
        rw [hja q hq, ha q hq, hg q hq]
        simp only [Option.bind_some]
        unfold trip
        simp only [majorOf, Bool.false_eq_true, if_false] at hmaj
        simp only [minorOf, Bool.false_eq_true, if_false]
        rw [← hmaj]
        rfl
  · rw [if_pos he, (h.edit he).1]; rfl

/-! ## Products -/

variable [CommRing R]

/-- Row sums over the stored entries are row sums over all columns. -/
theorem sum_entries {T : VMap R} (hn : (T.map Prod.fst).Nodup) {n : Nat} (hr : ∀ p ∈ T, 1 ≤ p.1.2 ∧ p.1.2 ≤ n)
    (i : Nat) (x : Nat → R) :
    (T.map fun p => if p.1.1 = i then p.2 * x p.1.2 else 0).sum =
      ∑ c ∈ Finset.Icc 1 n, (VMap.find? T (i, c)).getD 0 * x c := by
  induction T with
  | nil => simp
  | cons p T ih =>
    rw [List.map_cons, List.nodup_cons] at hn
    rw [List.map_cons, List.sum_cons, ih hn.2 fun q hq => hr q (List.mem_cons_of_mem _ hq)]
    have hp := hr p List.mem_cons_self
    have hnone : VMap.find? T p.1 = none := by
      apply VMap.find?_eq_none
      intro q hq he
      exact hn.1 (List.mem_map.2 ⟨q, hq, he⟩)
    have : ∀ c, (VMap.find? (p :: T) (i, c)).getD 0 * x c =
        (if c = p.1.2 then (if p.1.1 = i then p.2 * x c else 0) else 0) + (VMap.find? T (i, c)).getD 0 * x c := by
      intro c
      rw [VMap.find?_cons]
      by_cases h1 : p.1 = (i, c)
      · rw [if_pos h1, ← h1, hnone]
        have h2 : p.1.1 = i := by rw [h1]
        have h3 : c = p.1.2 := by rw [h1]
        rw [if_pos h3, if_pos h2]
        simp
      · rw [if_neg h1]
        by_cases h2 : c = p.1.2
        · rw [if_pos h2, if_neg]
          · simp
          · intro h3; exact h1 (Prod.ext h3 h2.symm)
        · rw [if_neg h2]; simp
    simp only [this]
    rw [Finset.sum_add_distrib, Finset.sum_ite_eq', if_pos (Finset.mem_Icc.2 hp)]

theorem vval_at1? {b : List R} {i : Int} (h1 : 1 ≤ i) (h2 : i ≤ b.length) : at1? b i = some (vval b i) := by
  obtain ⟨x, hx⟩ := Option.isSome_iff_exists.1 (at1?_isSome_iff.2 ⟨h1, h2⟩)
  rw [hx]
  unfold vval
  rw [hx]; rfl

theorem mulLoop_spec (x : List R) (ts : VMap R) : ∀ (y : List R),
    (∀ p ∈ ts, 1 ≤ p.1.1 ∧ p.1.1 ≤ y.length ∧ 1 ≤ p.1.2 ∧ p.1.2 ≤ x.length) →
    ∃ y', (ts.map trip).foldlM (fun (y : List R) t => do
        let xv ← at1? x t.2.1
        add1? y t.1 (t.2.2 * xv)) y = some y' ∧ y'.length = y.length ∧
      ∀ i, vval y' i = vval y i + (ts.map fun p => if (p.1.1 : Int) = i then p.2 * vval x (p.1.2 : Int) else 0).sum := by
  induction ts with
  | nil => intro y _; exact ⟨y, rfl, rfl, by simp⟩
  | cons p ts ih =>
    intro y hr
    have hp := hr p List.mem_cons_self
    obtain ⟨y1, h1, h2, h3⟩ := add1?_spec y (p.1.1 : Int) (p.2 * vval x (p.1.2 : Int)) (by omega) (by omega)
    obtain ⟨y2, g1, g2, g3⟩ := ih y1 (by rw [h2]; exact fun q hq => hr q (List.mem_cons_of_mem _ hq))
    refine ⟨y2, ?_, by omega, ?_⟩
    · rw [List.map_cons, List.foldlM_cons]
      simp only [trip]
      rw [vval_at1? (by omega) (by omega)]
      simp only [Option.bind_eq_bind, Option.bind_some]
      rw [h1]
      exact g1
    · intro i
      rw [g3, h3, List.map_cons, List.sum_cons]
      ring

theorem multiply_spec {M : Sparse R} {T : VMap R} (h : Holds M T) (hu : M.editable = .locked → M.solver ≠ .umfpack)
    (x : List R) (hx : M.ncol ≤ x.length) :
    ∃ y, M.multiply x = some y ∧ y.length = M.nrow ∧
      ∀ i : Nat, vval y i = ∑ c ∈ Finset.Icc 1 M.ncol, SpVal M i c * vval x (c : Int) := by
  have htr : M.triplets (M.solver == .superlu) = some (T.map trip) := by
    apply triplets_spec h
    intro hl
    have := hu hl
    unfold colFormat
    cases hs : M.solver <;> simp_all
  obtain ⟨y, h1, h2, h3⟩ := mulLoop_spec x T (List.replicate M.nrow 0) (by
    intro p hp
    have := h.range p hp
    simp only [List.length_replicate]; omega)
  refine ⟨y, ?_, by simpa using h2, ?_⟩
  · unfold multiply
    rw [if_neg (by omega), htr]
    exact h1
  · intro i
    rw [h3]
    have : vval (List.replicate M.nrow (0 : R)) (i : Int) = 0 := by
      unfold vval at1? at0?
      split
      · rw [List.getElem?_replicate]; split <;> rfl
      · rfl
    rw [this, zero_add]
    have e : (T.map fun p => if (p.1.1 : Int) = (i : Int) then p.2 * vval x (p.1.2 : Int) else 0) =
        T.map fun p => if p.1.1 = i then p.2 * (fun c : Nat => vval x (c : Int)) p.1.2 else 0 := by
      apply List.map_congr_left; intro p _; simp only [Int.natCast_inj]
    rw [e, sum_entries h.nodup (fun p hp => (h.range p hp).2.2) i (fun c : Nat => vval x (c : Int))]
    apply Finset.sum_congr rfl
    intro c _
    rw [spVal_spec h]


/-! ## Addition, scaling, resizing -/

theorem find?_map_val {T : VMap R} (f : R → R) (k : Nat × Nat) :
    VMap.find? (T.map fun p => (p.1, f p.2)) k = (VMap.find? T k).map f := by
  induction T with
  | nil => rfl
  | cons p T ih =>
    rw [List.map_cons, VMap.find?_cons, VMap.find?_cons, ih]
    split <;> rfl

/-- A map of the values keeps the storage consistent. -/
theorem holds_map {M : Sparse R} {T : VMap R} (h : Holds M T) (f : R → R) (el : VMap R) (a : List R)
    (hel : M.editable ≠ .locked → el = M.elem.map fun p => (p.1, f p.2)) (ha : a = M.A.map f) :
    Holds { M with elem := el, A := a } (T.map fun p => (p.1, f p.2)) := by
  have hmaj : ∀ col (p : (Nat × Nat) × R), majorOf col (p.1, f p.2) = majorOf col p := fun _ _ => rfl
  have hmin : ∀ col (p : (Nat × Nat) × R), minorOf col (p.1, f p.2) = minorOf col p := fun _ _ => rfl
  refine ⟨?_, ?_, ?_, ?_⟩
  · rw [List.map_map]; exact h.nodup
  · intro p hp
    obtain ⟨q, hq, rfl⟩ := List.mem_map.1 hp
    exact h.range q hq
  · intro he
    obtain ⟨h1, h2, h3, h4, h5⟩ := h.edit he
    refine ⟨?_, ?_, h3, h4, ?_⟩
    · rw [hel he, h1]
    · rw [List.pairwise_map]; exact h2
    · rw [ha, h5]; rfl
  · intro he
    obtain ⟨h1, h2, h3, h4⟩ := h.lock he
    have hcf : ({ M with elem := el, A := a } : Sparse R).colFormat = M.colFormat := rfl
    rw [hcf]
    refine ⟨?_, ?_, ?_, ?_⟩
    · rw [List.pairwise_map]; exact h1
    · rw [List.map_map]; exact h2
    · rw [ha, h3, List.map_map, List.map_map]; rfl
    · simp only [List.countP_map]
      exact h4

theorem mult_spec {M : Sparse R} {T : VMap R} (h : Holds M T) (alpha : R) :
    ∃ T', Holds (M.mult alpha) T' ∧ ∀ r c, SpVal (M.mult alpha) r c = SpVal M r c * alpha := by
  have key : Holds (M.mult alpha) (T.map fun p => (p.1, p.2 * alpha)) := by
    unfold mult
    by_cases he : M.editable = .locked
    · rw [if_pos he]
      have := holds_map h (· * alpha) M.elem (M.A.map (· * alpha)) (fun h => absurd he h) rfl
      exact this
    · rw [if_neg he]
      have hA := (h.edit he).2.2.2.2
      have := holds_map h (· * alpha) (M.elem.map fun p => (p.1, p.2 * alpha)) M.A (fun _ => rfl) (by rw [hA]; rfl)
      exact this
  refine ⟨_, key, ?_⟩
  intro r c
  rw [spVal_spec key, spVal_spec h, find?_map_val (· * alpha)]
  cases VMap.find? T (r, c) <;> simp

theorem holds_empty (r c : Nat) (sv : SparseSolver) : Holds ({ nrow := r, ncol := c, solver := sv } : Sparse R) [] := by
  refine ⟨by simp, by simp, fun _ => ⟨rfl, by simp, rfl, rfl, rfl⟩, fun h => ?_⟩
  cases h

theorem resize_spec {M : Sparse R} {T : VMap R} (h : Holds M T) (r c : Nat) (fe : Bool) :
    ∃ T', Holds (M.resize r c fe) T' ∧ (∀ i j, SpVal (M.resize r c fe) i j = 0) ∧
      (M.resize r c fe).nrow = r ∧ (M.resize r c fe).ncol = (if c = 0 then r else c) ∧
      (M.resize r c fe).solver = M.solver := by
  unfold resize
  dsimp only
  generalize (if c = 0 then r else c) = c'
  split
  · rename_i hc
    have := holds_map h (fun _ => 0) (M.elem.map fun p => (p.1, 0)) (M.A.map fun _ => 0) (fun _ => rfl) rfl
    refine ⟨_, this, fun r c => ?_, hc.1.symm, hc.2.1.symm, rfl⟩
    rw [spVal_spec this, find?_map_val (fun _ => 0)]
    cases VMap.find? T (r, c) <;> simp
  · have := holds_empty (R := R) r c' M.solver
    refine ⟨_, this, fun r c => ?_, rfl, rfl, rfl⟩
    rw [spVal_spec this]; rfl

theorem init_spec {M : Sparse R} {T : VMap R} (h : Holds M T) :
    ∃ T', Holds M.init T' ∧ ∀ r c, SpVal M.init r c = 0 := by
  obtain ⟨T', h1, h2, -⟩ := resize_spec h M.nrow M.ncol false
  exact ⟨T', h1, h2⟩

/-- Adding a list of entries to an editable map. -/
theorem addLoop_spec (alpha : R) (ts : VMap R) : ∀ (m : VMap R), VMap.Sorted m → ∀ (nr nc : Nat),
    (∀ p ∈ m, 1 ≤ p.1.1 ∧ p.1.1 ≤ nr ∧ 1 ≤ p.1.2 ∧ p.1.2 ≤ nc) →
    (∀ p ∈ ts, 1 ≤ p.1.1 ∧ p.1.1 ≤ nr ∧ 1 ≤ p.1.2 ∧ p.1.2 ≤ nc) → ∃ m',
    (ts.map trip).foldl (fun m t => VMap.modify (· + alpha * t.2.2) (t.1.toNat, t.2.1.toNat) m) m = m' ∧
    VMap.Sorted m' ∧ (∀ p ∈ m', 1 ≤ p.1.1 ∧ p.1.1 ≤ nr ∧ 1 ≤ p.1.2 ∧ p.1.2 ≤ nc) ∧
    ∀ k, (VMap.find? m' k).getD 0 = (VMap.find? m k).getD 0 + (ts.map fun p => if p.1 = k then alpha * p.2 else 0).sum := by
  induction ts with
  | nil => intro m hs nr nc hm _; exact ⟨m, rfl, hs, hm, by simp⟩
  | cons p ts ih =>
    intro m hs nr nc hm ht
    have hs' := VMap.sorted_modify (fun x : R => x + alpha * p.2) p.1 hs
    obtain ⟨m', h1, h2, h3, h4⟩ := ih (VMap.modify (· + alpha * p.2) p.1 m) hs' nr nc (by
      intro q hq
      have : q.1 ∈ (VMap.modify (· + alpha * p.2) p.1 m).map Prod.fst := List.mem_map.2 ⟨q, hq, rfl⟩
      rw [VMap.mem_keys_modify] at this
      rcases this with he | hin
      · rw [he]; exact ht p List.mem_cons_self
      · obtain ⟨q', hq', he⟩ := List.mem_map.1 hin
        rw [← he]; exact hm q' hq') (fun q hq => ht q (List.mem_cons_of_mem _ hq))
    refine ⟨m', ?_, h2, h3, ?_⟩
    · rw [List.map_cons, List.foldl_cons]
      exact h1
    · intro k
      rw [h4, VMap.find?_modify _ _ hs, List.map_cons, List.sum_cons]
      by_cases hk : k = p.1
      · subst hk; simp; ring
      · rw [if_neg hk, if_neg (Ne.symm hk)]; ring

theorem sum_find {T : VMap R} (hn : (T.map Prod.fst).Nodup) (k : Nat × Nat) (alpha : R) :
    (T.map fun p => if p.1 = k then alpha * p.2 else 0).sum = alpha * (VMap.find? T k).getD 0 := by
  induction T with
  | nil => simp
  | cons p T ih =>
    rw [List.map_cons, List.nodup_cons] at hn
    rw [List.map_cons, List.sum_cons, ih hn.2, VMap.find?_cons]
    by_cases h : p.1 = k
    · subst h
      rw [if_pos rfl, if_pos rfl]
      rw [VMap.find?_eq_none (fun q hq he => hn.1 (List.mem_map.2 ⟨q, hq, he⟩))]
      simp
    · rw [if_neg h, if_neg h, zero_add]

theorem add_spec_pattern {M B : Sparse R} {T TB : VMap R} (h : Holds M T) (hB : Holds B TB)
    (he : M.editable = .pattern) (hf : B.editable = .locked → B.colFormat = M.colFormat)
    (hr : B.nrow ≤ M.nrow) (hc : B.ncol ≤ M.ncol) (alpha : R) :
    ∃ M' T', M.add B alpha false = some M' ∧ Holds M' T' ∧ M'.nrow = M.nrow ∧ M'.ncol = M.ncol ∧
      M'.editable = M.editable ∧ M'.solver = M.solver ∧ ∀ r c, SpVal M' r c = SpVal M r c + alpha * SpVal B r c := by
  have hne : M.editable ≠ .locked := by rw [he]; decide
  obtain ⟨hel, hsort, hIA, hJA, hA⟩ := h.edit hne
  have htr : B.triplets M.colFormat = some (TB.map trip) := triplets_spec hB _ fun hl => (hf hl).symm
  obtain ⟨m', h1, h2, h3, h4⟩ := addLoop_spec alpha TB T hsort M.nrow M.ncol h.range (by
    intro p hp; have := hB.range p hp; omega)
  have key : Holds { M with elem := m' } m' :=
    ⟨h2.nodup, h3, fun _ => ⟨rfl, h2, hIA, hJA, hA⟩, fun hl => absurd hl hne⟩
  refine ⟨{ M with elem := m' }, m', ?_, key, rfl, rfl, rfl, rfl, ?_⟩
  · unfold add
    rw [if_neg (by decide), if_neg (by omega), if_pos he, htr]
    simp only [Option.bind_eq_bind, Option.bind_some]
    rw [hel, h1]; rfl
  · intro r c
    rw [spVal_spec key, spVal_spec h, spVal_spec hB, h4, sum_find hB.nodup]

/-- The position of entries is determined by the index arrays. -/
theorem keys_eq_of_arrays {M B : Sparse R} {T TB : VMap R} (h : Holds M T) (hB : Holds B TB)
    (he : M.editable = .locked) (heB : B.editable = .locked) (hcf : B.colFormat = M.colFormat)
    (hIA : M.IA = B.IA) (hJA : M.JA = B.JA) : T.map Prod.fst = TB.map Prod.fst := by
  obtain ⟨s1, j1, a1, i1⟩ := h.lock he
  obtain ⟨s2, j2, a2, i2⟩ := hB.lock heB
  rw [hcf] at s2 j2 i2
  have hlen : T.length = TB.length := by
    have := congrArg List.length hJA
    rw [j1, j2] at this; simpa using this
  have hN : (if M.colFormat then M.ncol else M.nrow) = if M.colFormat then B.ncol else B.nrow := by
    have := congrArg List.length hIA
    rw [i1, i2] at this; simpa using this
  have hcnt : ∀ j, (T.countP fun p => decide (majorOf M.colFormat p ≤ j)) =
      TB.countP fun p => decide (majorOf M.colFormat p ≤ j) := by
    intro j
    by_cases hj : j ≤ (if M.colFormat then M.ncol else M.nrow)
    · have h1 : at0? M.IA (j : Int) = at0? B.IA (j : Int) := by rw [hIA]
      rw [i1, i2, ← hN] at h1
      have e1 := at0?_tab (n := (if M.colFormat then M.ncol else M.nrow) + 1)
        (fun j => ((if M.colFormat then 0 else 1 : Int) + (T.countP fun p => majorOf M.colFormat p ≤ j : Nat))) (i := j) (by omega)
      have e2 := at0?_tab (n := (if M.colFormat then M.ncol else M.nrow) + 1)
        (fun j => ((if M.colFormat then 0 else 1 : Int) + (TB.countP fun p => majorOf M.colFormat p ≤ j : Nat))) (i := j) (by omega)
      unfold tab at e1 e2
      rw [e1, e2] at h1
      have := Option.some.inj h1
      omega
    · rw [List.countP_eq_length.2, List.countP_eq_length.2, hlen]
      · intro p hp
        have := majorOf_le hB M.colFormat p hp
        rw [← hN] at this
        simp; omega
      · intro p hp
        have := majorOf_le h M.colFormat p hp
        simp; omega
  apply List.ext_getElem
  · simpa using hlen
  · intro q hq1 hq2
    simp only [List.getElem_map]
    have hq : q < T.length := by simpa using hq1
    have hq' : q < TB.length := by simpa using hq2
    have hmaj : majorOf M.colFormat T[q] = majorOf M.colFormat TB[q] := by
      apply le_antisymm
      · rw [← lt_countP_le (majorOf M.colFormat) T s1 _ q hq, hcnt]
        rw [lt_countP_le (majorOf M.colFormat) TB s2 _ q hq']
      · rw [← lt_countP_le (majorOf M.colFormat) TB s2 _ q hq', ← hcnt]
        rw [lt_countP_le (majorOf M.colFormat) T s1 _ q hq]
    have hmin : minorOf M.colFormat T[q] = minorOf M.colFormat TB[q] := by
      rw [j1, j2] at hJA
      have := congrArg (fun l => l[q]?) hJA
      simpa [hq, hq'] using this
    unfold majorOf at hmaj
    unfold minorOf at hmin
    cases hcc : M.colFormat <;> simp only [hcc, Bool.false_eq_true, if_false, if_true] at hmaj hmin
    · exact Prod.ext hmaj (by omega)
    · exact Prod.ext (by omega) hmaj

theorem find?_zip {T TB : VMap R} (hk : T.map Prod.fst = TB.map Prod.fst) (alpha : R) (k : Nat × Nat) :
    (VMap.find? (List.zipWith (fun a b => (a.1, a.2 + alpha * b.2)) T TB) k).getD 0 =
      (VMap.find? T k).getD 0 + alpha * (VMap.find? TB k).getD 0 := by
  induction T generalizing TB with
  | nil =>
    cases TB with
    | nil => simp [VMap.find?]
    | cons q TB => simp at hk
  | cons p T ih =>
    cases TB with
    | nil => simp at hk
    | cons q TB =>
      simp only [List.map_cons, List.cons.injEq] at hk
      rw [List.zipWith_cons_cons, VMap.find?_cons, VMap.find?_cons, VMap.find?_cons, ← hk.1]
      by_cases h : p.1 = k
      · simp [h]
      · simp only [if_neg h]; exact ih hk.2

theorem add_spec_locked {M B : Sparse R} {T TB : VMap R} (h : Holds M T) (hB : Holds B TB)
    (he : M.editable = .locked) (heB : B.editable = .locked) (hcf : B.colFormat = M.colFormat)
    (hr : B.nrow ≤ M.nrow) (hc : B.ncol ≤ M.ncol) (alpha : R) {M' : Sparse R} (hadd : M.add B alpha false = some M') :
    ∃ T', Holds M' T' ∧ M'.nrow = M.nrow ∧ M'.ncol = M.ncol ∧
      M'.editable = M.editable ∧ M'.solver = M.solver ∧ ∀ r c, SpVal M' r c = SpVal M r c + alpha * SpVal B r c := by
  unfold add at hadd
  rw [if_neg (by decide), if_neg (by omega), if_neg (by rw [he]; decide), if_pos ⟨he, heB⟩] at hadd
  by_cases hp : M.A.length = B.A.length ∧ M.IA = B.IA ∧ M.JA = B.JA
  · rw [if_pos hp] at hadd
    have hk := keys_eq_of_arrays h hB he heB hcf hp.2.1 hp.2.2
    have hlen : T.length = TB.length := by simpa using congrArg List.length hk
    obtain ⟨s1, j1, a1, i1⟩ := h.lock he
    obtain ⟨s2, j2, a2, i2⟩ := hB.lock heB
    cases hadd
    have hcf' : ∀ a, ({ M with A := a } : Sparse R).colFormat = M.colFormat := fun _ => rfl
    have hfst : (List.zipWith (fun a b => (a.1, a.2 + alpha * b.2)) T TB).map Prod.fst = T.map Prod.fst := by
      rw [List.map_zipWith]
      apply List.ext_getElem
      · simp [hlen]
      · intro i _ _; simp
    have hlift : ∀ {β : Type} (g : Nat × Nat → β), (List.zipWith (fun a b => (a.1, a.2 + alpha * b.2)) T TB).map
        (fun p => g p.1) = T.map fun p => g p.1 := by
      intro β g
      have := congrArg (List.map g) hfst
      rw [List.map_map, List.map_map] at this
      exact this
    have key : Holds { M with A := List.zipWith (fun a b => a + alpha * b) M.A B.A }
        (List.zipWith (fun a b => (a.1, a.2 + alpha * b.2)) T TB) := by
      refine ⟨?_, ?_, fun hne => absurd he hne, fun _ => ?_⟩
      · rw [hfst]; exact h.nodup
      · intro p hp
        have : p.1 ∈ T.map Prod.fst := by rw [← hfst]; exact List.mem_map.2 ⟨p, hp, rfl⟩
        obtain ⟨q, hq, e⟩ := List.mem_map.1 this
        rw [← e]; exact h.range q hq
      · rw [hcf']
        refine ⟨?_, ?_, ?_, ?_⟩
        · have hmj : (List.zipWith (fun a b => (a.1, a.2 + alpha * b.2)) T TB).map (majorOf M.colFormat) =
              T.map (majorOf M.colFormat) := hlift (fun k => if M.colFormat then k.2 else k.1)
          have h1 : (T.map (majorOf M.colFormat)).Pairwise (· ≤ ·) := by rw [List.pairwise_map]; exact s1
          rw [← hmj, List.pairwise_map] at h1
          exact h1
        · rw [j1]
          exact (hlift (fun k => if M.colFormat then (k.1 : Int) - 1 else (k.2 : Int))).symm
        · simp only
          rw [a1, a2, List.map_zipWith, List.zipWith_map]
        · rw [i1]
          apply List.map_congr_left
          intro j _
          have hmj : (List.zipWith (fun a b => (a.1, a.2 + alpha * b.2)) T TB).map (majorOf M.colFormat) =
              T.map (majorOf M.colFormat) := hlift (fun k => if M.colFormat then k.2 else k.1)
          have h2 : ∀ L : VMap R, (L.countP fun p => decide (majorOf M.colFormat p ≤ j)) =
              (L.map (majorOf M.colFormat)).countP fun n => decide (n ≤ j) := by
            intro L; rw [List.countP_map]; rfl
          rw [h2, h2, hmj]
    refine ⟨_, key, rfl, rfl, rfl, rfl, ?_⟩
    intro r c
    rw [spVal_spec key, spVal_spec h, spVal_spec hB, find?_zip hk]
  · rw [if_neg hp] at hadd; cases hadd

/-! ## Assembly -/

/-- The addition fits into the storage: in range, and stored if the pattern is fixed. -/
def FitsSp (M : Sparse R) (T : VMap R) (k : Nat) : Option (Upd R) → Prop
  | none => False
  | some (.mat r c _) => (1 ≤ r ∧ r ≤ M.nrow ∧ 1 ≤ c ∧ c ≤ M.ncol) ∧
      (M.editable = .pattern ∨ (r.toNat, c.toNat) ∈ T.map Prod.fst)
  | some (.vec r _) => 1 ≤ r ∧ r ≤ k

theorem applyUpd_list (us : List (Option (Upd R))) : ∀ (M : Sparse R) (T : VMap R) (B : List R), Holds M T →
    (∀ u ∈ us, FitsSp M T B.length u) →
    ∃ M' B' T', us.foldlM applyUpd (M, B) = some (M', B') ∧ Holds M' T' ∧ M'.nrow = M.nrow ∧ M'.ncol = M.ncol ∧
      M'.editable = M.editable ∧ M'.solver = M.solver ∧ B'.length = B.length ∧
      (∀ k, k ∈ T.map Prod.fst → k ∈ T'.map Prod.fst) ∧
      (∀ r c : Nat, SpVal M' r c = SpVal M r c + (us.map (Upd.matAt (r : Int) (c : Int))).sum) ∧
      (∀ r, vval B' r = vval B r + (us.map (Upd.vecAt r)).sum) := by
  induction us with
  | nil => intro M T B h _; exact ⟨M, B, T, rfl, h, rfl, rfl, rfl, rfl, rfl, fun _ h => h, by simp, by simp⟩
  | cons u us ih =>
    intro M T B h hus
    have hu := hus u List.mem_cons_self
    match u, hu with
    | some (.mat r c v), hu =>
      have hu1 : 1 ≤ r ∧ r ≤ M.nrow ∧ 1 ≤ c ∧ c ≤ M.ncol := hu.1
      obtain ⟨M1, T1, m1, m2, m3, m4, m5, m6, m7, m8⟩ := modify?_spec h (· + v) r.toNat c.toNat (by omega) hu.2
      obtain ⟨M', B', T', g1, g2, g3, g4, g5, g6, g7, g8, g9, g10⟩ := ih M1 T1 B m2 (by
        intro w hw
        have hfw := hus w (List.mem_cons_of_mem _ hw)
        match w, hfw with
        | some (.mat r' c' v'), hfw =>
          refine ⟨by rw [m3, m4]; exact hfw.1, ?_⟩
          rw [m5]
          rcases hfw.2 with hp | hp
          · exact Or.inl hp
          · exact Or.inr ((m8 _).2 (Or.inr hp))
        | some (.vec r' v'), hfw => exact hfw)
      refine ⟨M', B', T', ?_, g2, by omega, by omega, by rw [g5, m5], by rw [g6, m6], g7,
        fun k hk => g8 k ((m8 k).2 (Or.inr hk)), ?_, ?_⟩
      · rw [List.foldlM_cons]
        unfold applyUpd addAt?
        simp only
        rw [if_neg (by omega), m1]
        exact g1
      · intro r' c'
        rw [g9, spVal_spec m2, spVal_spec h, m7, List.map_cons, List.sum_cons, Upd.matAt]
        by_cases hk : (r', c') = (r.toNat, c.toNat)
        · have e1 : r' = r.toNat := congrArg Prod.fst hk
          have e2 : c' = c.toNat := congrArg Prod.snd hk
          rw [if_pos hk, if_pos ⟨by omega, by omega⟩, e1, e2]
          simp; ring
        · rw [if_neg hk, if_neg]
          · ring
          · rintro ⟨e1, e2⟩; exact hk (Prod.ext (by simp; omega) (by simp; omega))
      · intro r'
        rw [g10, List.map_cons, List.sum_cons, Upd.vecAt]
        · ring
        · intro a b hh; cases hh
    | some (.vec r v), hu =>
      obtain ⟨B1, b1, b2, b3⟩ := add1?_spec B r v hu.1 hu.2
      obtain ⟨M', B', T', g1, g2, g3, g4, g5, g6, g7, g8, g9, g10⟩ := ih M T B1 h (by
        intro w hw
        have := hus w (List.mem_cons_of_mem _ hw)
        rw [b2]; exact this)
      refine ⟨M', B', T', ?_, g2, g3, g4, g5, g6, by omega, g8, ?_, ?_⟩
      · rw [List.foldlM_cons]
        unfold applyUpd
        simp only
        rw [b1]
        exact g1
      · intro r' c'
        rw [g9, List.map_cons, List.sum_cons, Upd.matAt]
        · ring
        · intro a b d hh; cases hh
      · intro r'
        rw [g10, b3, List.map_cons, List.sum_cons, Upd.vecAt]; ring

end IFEM
