import Verif.Lemmas.SparseRepr
/-! Compression to column-oriented format: a counting sort. -/
namespace IFEM
open Sparse
variable {R : Type}

/-- Number of triplets in column `j`. -/
def cnt (ts : List (Nat × Nat × R)) (j : Nat) : Nat := ts.countP fun t => t.2.1 = j

/-- Number of triplets in columns `≤ j`. -/
def cntLe (ts : List (Nat × Nat × R)) (j : Nat) : Nat := ts.countP fun t => t.2.1 ≤ j

theorem cntLe_succ (ts : List (Nat × Nat × R)) (j : Nat) : cntLe ts (j+1) = cntLe ts j + cnt ts (j+1) := by
  unfold cntLe cnt
  induction ts with
  | nil => rfl
  | cons t ts ih =>
    simp only [List.countP_cons, ih]
    have : (decide (t.2.1 ≤ j+1)) = true ↔ (decide (t.2.1 ≤ j) = true ∨ decide (t.2.1 = j+1) = true) := by simp; omega
    by_cases h1 : t.2.1 ≤ j
    · have h2 : t.2.1 ≠ j+1 := by omega
      have h3 : t.2.1 ≤ j+1 := by omega
      simp [h1, h2, h3]; omega
    · by_cases h2 : t.2.1 = j+1
      · simp [h2]; omega
      · have h3 : ¬ t.2.1 ≤ j+1 := by omega
        simp [h1, h2, h3]

theorem countCols_spec {ncol : Nat} (ts : List (Nat × Nat × R)) (hc : ∀ t ∈ ts, 1 ≤ t.2.1 ∧ t.2.1 ≤ ncol) (F : Nat → Int) :
    countCols ncol (ts.map fun t => t.2.1) (tab (ncol+1) F) =
      some (tab (ncol+1) fun j => F j + cnt ts (j+1)) := by
  induction ts generalizing F with
  | nil => simp [countCols, cnt]
  | cons t ts ih =>
    obtain ⟨h1, h2⟩ := hc t List.mem_cons_self
    rw [List.map_cons, countCols, if_pos h2]
    have hk : ((t.2.1 : Int) - 1) = ((t.2.1 - 1 : Nat) : Int) := by omega
    rw [hk, at0?_tab F (by omega)]
    simp only [Option.bind_eq_bind, Option.bind_some]
    rw [set0?_tab F (by omega)]
    simp only [Option.bind_some]
    rw [ih (fun t ht => hc t (List.mem_cons_of_mem _ ht))]
    congr 1
    apply tab_congr
    intro j _
    unfold cnt
    rw [List.countP_cons, Function.update_apply]
    by_cases hj : j = t.2.1 - 1
    · have : t.2.1 = j+1 := by omega
      rw [if_pos hj, if_pos (by simpa using this), ← hj]
      push_cast; ring
    · have : ¬ t.2.1 = j+1 := by omega
      rw [if_neg hj, if_neg (by simpa using this)]
      push_cast; ring

theorem intRange_cons {a b : Int} (h : a < b) : intRange a b = a :: intRange (a+1) b := by
  unfold intRange
  have : (b-a).toNat = (b-(a+1)).toNat + 1 := by omega
  rw [this, List.range_succ_eq_map]
  simp only [List.map_cons, List.map_map]
  congr 1
  · simp
  · apply List.map_congr_left
    intro k _
    simp; ring

theorem intRange_nil {a b : Int} (h : b ≤ a) : intRange a b = [] := by
  unfold intRange
  have : (b-a).toNat = 0 := by omega
  rw [this]; rfl

theorem prefixLoop_spec {n : Nat} (C : Nat → Int) : ∀ (m j : Nat) (F : Nat → Int) (k sz : Int), j + m = n →
    (∀ i, j ≤ i → i < n → F i = C i) →
    prefixLoop (intRange j n) (tab (n+1) F) k sz =
      some (tab (n+1) fun i => if i < j ∨ n ≤ i then F i else k + sz + ((List.range' j (i-j)).map C).sum)
  | 0, j, F, k, sz, hj, _ => by
    rw [intRange_nil (by omega), prefixLoop]
    congr 1
    apply tab_congr
    intro i _
    rw [if_pos (by omega)]
  | m+1, j, F, k, sz, hj, hF => by
    rw [intRange_cons (by omega), prefixLoop, at0?_tab F (by omega)]
    simp only [Option.bind_eq_bind, Option.bind_some]
    rw [set0?_tab F (by omega)]
    simp only [Option.bind_some]
    have hcast : ((j : Int) + 1) = ((j+1 : Nat) : Int) := by omega
    rw [hcast, prefixLoop_spec C m (j+1) _ _ _ (by omega) (by
      intro i h1 h2
      rw [Function.update_apply, if_neg (by omega)]
      exact hF i (by omega) h2)]
    congr 1
    apply tab_congr
    intro i _
    rw [Function.update_apply]
    by_cases h1 : i = j
    · subst h1
      rw [if_pos (by omega), if_pos rfl, if_neg (by omega)]
      simp
    · by_cases h2 : i < j ∨ n ≤ i
      · rw [if_pos (by omega), if_neg h1, if_pos h2]
      · rw [if_neg (by omega), if_neg h2]
        have : i - j = (i - (j+1)) + 1 := by omega
        rw [this, List.range'_succ, List.map_cons, List.sum_cons, hF j le_rfl (by omega)]
        ring

theorem sum_cnt (ts : List (Nat × Nat × R)) (i j : Nat) :
    (((List.range' j i).map fun i => (cnt ts (i+1) : Int)).sum : Int) = (cntLe ts (j+i) : Int) - cntLe ts j := by
  induction i generalizing j with
  | zero => simp
  | succ i ih =>
    rw [List.range'_succ, List.map_cons, List.sum_cons, ih]
    have h1 := cntLe_succ ts j
    have e : j + 1 + i = j + (i+1) := by omega
    rw [e]
    omega

theorem cntLe_zero (ts : List (Nat × Nat × R)) (h : ∀ t ∈ ts, 1 ≤ t.2.1) : cntLe ts 0 = 0 := by
  unfold cntLe
  rw [List.countP_eq_zero]
  intro t ht
  have := h t ht
  simp; omega

/-- Column starts. -/
theorem colStarts_spec {ncol : Nat} (ts : List (Nat × Nat × R)) (hc : ∀ t ∈ ts, 1 ≤ t.2.1 ∧ t.2.1 ≤ ncol) :
    colStarts ncol (tab (ncol+1) fun j => (cnt ts (j+1) : Int)) =
      some (tab (ncol+1) fun j => if j < ncol then (cntLe ts j : Int) else (if ncol = 0 then 0 else cnt ts (ncol+1))) := by
  have h0 := cntLe_zero ts (fun t ht => (hc t ht).1)
  unfold colStarts
  have e0 : at0? (tab (ncol+1) fun j => (cnt ts (j+1) : Int)) 0 = some (cnt ts 1 : Int) :=
    at0?_tab (fun j => (cnt ts (j+1) : Int)) (i := 0) (by omega)
  have s0 : set0? (tab (ncol+1) fun j => (cnt ts (j+1) : Int)) 0 0 =
      some (tab (ncol+1) (Function.update (fun j => (cnt ts (j+1) : Int)) 0 0)) :=
    set0?_tab (fun j => (cnt ts (j+1) : Int)) (i := 0) (by omega) 0
  rw [e0]
  simp only [Option.bind_eq_bind, Option.bind_some]
  rw [s0]
  simp only [Option.bind_some]
  by_cases hn : ncol = 0
  · subst hn
    rw [intRange_nil (by omega), prefixLoop]
    congr 1
  · have h1 : (1 : Int) = ((1 : Nat) : Int) := rfl
    rw [h1, prefixLoop_spec (n := ncol) (fun i => (cnt ts (i+1) : Int)) (ncol-1) 1 _ _ _ (by omega) (by
      intro i h1 h2
      rw [Function.update_apply, if_neg (by omega)])]
    congr 1
    apply tab_congr
    intro i hi
    rw [Function.update_apply]
    by_cases h2 : i = 0
    · subst h2
      rw [if_pos (by omega), if_pos rfl, if_pos (by omega), h0]; rfl
    · by_cases h3 : i < ncol
      · rw [if_neg (by omega), if_pos h3, sum_cnt]
        have h4 := cntLe_succ ts 0
        have e : 1 + (i-1) = i := by omega
        rw [e]
        simp only [zero_add] at h4
        omega
      · have : i = ncol := by omega
        subst this
        rw [if_pos (by omega), if_neg h2, if_neg h3]
        try rw [if_neg hn]

/-- The array being filled: segments of placed values followed by free slots. -/
def fillArr {β : Type _} (ncol : Nat) (P Q : List (Nat × Nat × R)) (g : Nat × Nat × R → β) (z : β) : List β :=
  (List.range' 1 ncol).flatMap fun j => (P.filter fun t => t.2.1 = j).map g ++ List.replicate (cnt Q j) z

theorem fillArr_split {β : Type _} (m c n : Nat) (hc : 1 ≤ c) (hcn : c ≤ n) (f : Nat → List β) (hm : m = 1) :
    (List.range' m n).flatMap f =
      (List.range' 1 (c-1)).flatMap f ++ (f c ++ (List.range' (c+1) (n-c)).flatMap f) := by
  subst hm
  have : n = (c-1) + (1 + (n-c)) := by omega
  conv_lhs => rw [this, ← List.range'_append_1]
  rw [List.flatMap_append]
  congr 1
  have e : 1 + (c-1) = c := by omega
  rw [e, Nat.add_comm 1 (n-c), List.range'_succ, List.flatMap_cons]

theorem seg_length {β : Type _} (P Q : List (Nat × Nat × R)) (g : Nat × Nat × R → β) (z : β) (j : Nat) :
    ((P.filter fun t => t.2.1 = j).map g ++ List.replicate (cnt Q j) z).length = cnt (P ++ Q) j := by
  simp [cnt, List.countP_eq_length_filter]

theorem pre_length {β : Type _} (P Q : List (Nat × Nat × R)) (h0 : cntLe (P++Q) 0 = 0)
    (g : Nat × Nat × R → β) (z : β) (m : Nat) :
    ((List.range' 1 m).flatMap fun j => (P.filter fun t => t.2.1 = j).map g ++ List.replicate (cnt Q j) z).length =
      cntLe (P ++ Q) m := by
  induction m with
  | zero => simp [h0]
  | succ m ih =>
    rw [List.range'_1_concat, List.flatMap_append, List.length_append, ih, cntLe_succ]
    simp only [List.flatMap_cons, List.flatMap_nil, List.append_nil, seg_length]
    rw [Nat.add_comm 1 m]

theorem set0?_append {β : Type _} (X : List β) (a : List β) (z v : β) (b : List β) (Y : List β) (k : Int)
    (hk : k = X.length + a.length) :
    set0? (X ++ ((a ++ z :: b) ++ Y)) k v = some (X ++ ((a ++ v :: b) ++ Y)) := by
  unfold set0?
  rw [if_pos ⟨by omega, by simp; omega⟩]
  congr 1
  have : k.toNat = X.length + a.length := by omega
  rw [this, List.set_append_right _ _ (by omega), Nat.add_sub_cancel_left]
  congr 1
  rw [List.append_assoc, List.append_assoc, List.set_append_right _ _ (by omega)]
  simp

/-- One placement. -/
theorem fillArr_step {β : Type _} (ncol : Nat) (P Q : List (Nat × Nat × R)) (t : Nat × Nat × R) (g : Nat × Nat × R → β) (z : β)
    (h1 : 1 ≤ t.2.1) (h2 : t.2.1 ≤ ncol) (h0 : cntLe (P ++ t :: Q) 0 = 0) :
    set0? (fillArr ncol P (t :: Q) g z) ((cntLe (P ++ t :: Q) (t.2.1-1) : Int) + cnt P t.2.1) (g t) =
      some (fillArr ncol (P ++ [t]) Q g z) := by
  unfold fillArr
  rw [fillArr_split 1 t.2.1 ncol h1 h2 _ rfl, fillArr_split 1 t.2.1 ncol h1 h2 _ rfl]
  have hX := pre_length P (t :: Q) h0 g z (t.2.1-1)
  have hoth : ∀ j, j ≠ t.2.1 → ((P.filter fun t => t.2.1 = j).map g ++ List.replicate (cnt (t :: Q) j) z) =
      (((P ++ [t]).filter fun t => t.2.1 = j).map g ++ List.replicate (cnt Q j) z) := by
    intro j hj
    have hj' : ¬ t.2.1 = j := fun h => hj h.symm
    simp [cnt, List.countP_cons, hj']
  have hc1 : cnt (t :: Q) t.2.1 = cnt Q t.2.1 + 1 := by simp [cnt, List.countP_cons]
  have hf1 : ((P ++ [t]).filter fun t' => t'.2.1 = t.2.1) = (P.filter fun t' => t'.2.1 = t.2.1) ++ [t] := by
    rw [List.filter_append]; simp
  have e1 : (List.range' 1 (t.2.1-1)).flatMap (fun j => ((P.filter fun t => t.2.1 = j).map g ++ List.replicate (cnt (t :: Q) j) z)) =
      (List.range' 1 (t.2.1-1)).flatMap (fun j => (((P ++ [t]).filter fun t => t.2.1 = j).map g ++ List.replicate (cnt Q j) z)) := by
    rw [List.flatMap_def, List.flatMap_def]
    congr 1
    apply List.map_congr_left
    intro j hj
    exact hoth j (by simp at hj; omega)
  have e2 : (List.range' (t.2.1+1) (ncol - t.2.1)).flatMap (fun j => ((P.filter fun t => t.2.1 = j).map g ++ List.replicate (cnt (t :: Q) j) z)) =
      (List.range' (t.2.1+1) (ncol - t.2.1)).flatMap (fun j => (((P ++ [t]).filter fun t => t.2.1 = j).map g ++ List.replicate (cnt Q j) z)) := by
    rw [List.flatMap_def, List.flatMap_def]
    congr 1
    apply List.map_congr_left
    intro j hj
    exact hoth j (by simp at hj; omega)
  rw [← e1, ← e2, hc1, hf1, List.replicate_succ, List.map_append]
  rw [set0?_append]
  · simp
  · rw [hX]
    simp [cnt, List.countP_eq_length_filter]

/-- The placement loop. -/
theorem place_spec {ncol : Nat} [Zero R] (Q : List (Nat × Nat × R)) : ∀ (P : List (Nat × Nat × R)),
    (∀ t ∈ P ++ Q, 1 ≤ t.2.1 ∧ t.2.1 ≤ ncol) → ∀ F : Nat → Int,
    (∀ j, j < ncol → F j = (cntLe (P ++ Q) j : Int) + cnt P (j+1)) →
    ∃ G : Nat → Int, place Q (tab (ncol+1) F) (fillArr ncol P Q (fun t => (t.1 : Int) - 1) 0) (fillArr ncol P Q (fun t => t.2.2) 0) =
      some (tab (ncol+1) G, fillArr ncol (P ++ Q) [] (fun t => (t.1 : Int) - 1) 0, fillArr ncol (P ++ Q) [] (fun t => t.2.2) 0) ∧
      ∀ j, j < ncol → G j = (cntLe (P ++ Q) j : Int) + cnt (P ++ Q) (j+1) := by
  induction Q with
  | nil =>
    intro P _ F hF
    exact ⟨F, by simp [place], by simpa using hF⟩
  | cons t Q ih =>
    intro P hc F hF
    obtain ⟨r, c, v⟩ := t
    have ht := hc (r, c, v) (by simp)
    have h0 := cntLe_zero _ (fun t ht => (hc t ht).1)
    simp only at ht
    have hk : ((c : Int) - 1) = ((c - 1 : Nat) : Int) := by omega
    have hFc := hF (c-1) (by omega)
    have hc1 : c - 1 + 1 = c := by omega
    rw [hc1] at hFc
    rw [place, hk, at0?_tab F (by omega)]
    simp only [Option.bind_eq_bind, Option.bind_some]
    rw [set0?_tab F (by omega), hFc]
    simp only [Option.bind_some]
    have s1 := fillArr_step ncol P Q (r, c, v) (fun t => (t.1 : Int) - 1) 0 ht.1 ht.2 h0
    have s2 := fillArr_step ncol P Q (r, c, v) (fun t => t.2.2) 0 ht.1 ht.2 h0
    simp only at s1 s2
    rw [s1]
    simp only [Option.bind_some]
    rw [s2]
    simp only [Option.bind_some]
    have happ : P ++ (r, c, v) :: Q = (P ++ [(r, c, v)]) ++ Q := by simp
    rw [happ]
    apply ih (P ++ [(r, c, v)])
    · rw [← happ]; exact hc
    · intro j hj
      rw [Function.update_apply, ← happ]
      have hcp : cnt (P ++ [(r, c, v)]) (j+1) = cnt P (j+1) + if c = j+1 then 1 else 0 := by
        simp [cnt, List.countP_append, List.countP_cons]
      by_cases hjc : j = c-1
      · subst hjc
        rw [if_pos rfl, hcp, hc1, if_pos rfl]
        push_cast; ring
      · rw [if_neg hjc, hF j hj, hcp, if_neg (by omega)]
        simp

theorem intRange_snoc {a b : Int} (h : a ≤ b) : intRange a (b+1) = intRange a b ++ [b] := by
  unfold intRange
  have : (b+1-a).toNat = (b-a).toNat + 1 := by omega
  rw [this, List.range_succ, List.map_append]
  congr 1
  simp; omega

theorem shiftLoop_spec {N : Nat} : ∀ (n : Nat) (F : Nat → Int), n ≤ N →
    (intRange 1 ((n : Int)+1)).reverse.foldlM (fun (IA : List Int) j => do
      let x ← at0? IA (j-1)
      set0? IA j x) (tab (N+1) F) = some (tab (N+1) fun j => if 1 ≤ j ∧ j ≤ n then F (j-1) else F j)
  | 0, F, _ => by
    rw [intRange_nil (by omega)]
    simp only [List.reverse_nil, List.foldlM_nil]
    congr 1
    apply tab_congr
    intro i _
    rw [if_neg (by omega)]
  | n+1, F, hn => by
    rw [intRange_snoc (by omega), List.reverse_append]
    simp only [List.reverse_cons, List.reverse_nil, List.nil_append, List.singleton_append, List.foldlM_cons]
    have e : (((n+1 : Nat) : Int) - 1) = (n : Int) := by omega
    rw [e, at0?_tab F (by omega)]
    simp only [Option.bind_eq_bind, Option.bind_some]
    rw [set0?_tab F (i := n+1) (by omega)]
    simp only [Option.bind_some]
    have e2 : ((n+1 : Nat) : Int) = (n : Int) + 1 := by omega
    rw [e2]
    have := shiftLoop_spec (N := N) n (Function.update F (n+1) (F n)) (by omega)
    simp only [Option.bind_eq_bind] at this
    rw [this]
    congr 1
    apply tab_congr
    intro j _
    rw [Function.update_apply, Function.update_apply]
    by_cases h1 : 1 ≤ j ∧ j ≤ n
    · rw [if_pos h1, if_neg (by omega), if_pos (by omega)]
    · rw [if_neg h1]
      by_cases h2 : j = n+1
      · subst h2; simp
      · rw [if_neg h2, if_neg (by omega)]

theorem shiftStarts_spec {ncol : Nat} (F : Nat → Int) :
    shiftStarts ncol (tab (ncol+1) F) = some (tab (ncol+1) fun j => if j = 0 then 0 else F (j-1)) := by
  unfold shiftStarts
  rw [shiftLoop_spec ncol F le_rfl]
  simp only [Option.bind_eq_bind, Option.bind_some]
  have : (0 : Int) = ((0 : Nat) : Int) := rfl
  conv_lhs => rw [this]
  rw [set0?_tab _ (by omega)]
  congr 1
  apply tab_congr
  intro j hj
  rw [Function.update_apply]
  by_cases h : j = 0
  · simp [h]
  · rw [if_neg h, if_pos (by omega), if_neg h]

/-- Sorting by columns. -/
def byCols (ncol : Nat) (ts : List (Nat × Nat × R)) : List (Nat × Nat × R) :=
  (List.range' 1 ncol).flatMap fun j => ts.filter fun t => t.2.1 = j

theorem fillArr_done {β : Type _} (ncol : Nat) (ts : List (Nat × Nat × R)) (g : Nat × Nat × R → β) (z : β) :
    fillArr ncol ts [] g z = (byCols ncol ts).map g := by
  unfold fillArr byCols
  rw [List.map_flatMap]
  simp [cnt]

theorem fillArr_start {β : Type _} (ncol : Nat) (ts : List (Nat × Nat × R)) (hc : ∀ t ∈ ts, 1 ≤ t.2.1 ∧ t.2.1 ≤ ncol)
    (g : Nat × Nat × R → β) (z : β) : fillArr ncol [] ts g z = List.replicate ts.length z := by
  rw [List.eq_replicate_iff]
  constructor
  · have := pre_length [] ts (cntLe_zero _ (fun t ht => (hc t ht).1)) g z ncol
    unfold fillArr
    rw [this]
    simp only [List.nil_append, cntLe]
    rw [List.countP_eq_length]
    intro t ht
    simpa using (hc t ht).2
  · intro b hb
    unfold fillArr at hb
    obtain ⟨j, -, hb⟩ := List.mem_flatMap.1 hb
    simp only [List.filter_nil, List.map_nil, List.nil_append] at hb
    exact List.eq_of_mem_replicate hb

/-- Compression puts the triplets in column order, with the column pointers. -/
theorem compressCols_spec [Zero R] {ncol : Nat} (ts : List (Nat × Nat × R)) (hc : ∀ t ∈ ts, 1 ≤ t.2.1 ∧ t.2.1 ≤ ncol) :
    compressCols ncol [] ts = some (tab (ncol+1) (fun j => (cntLe ts j : Int)),
      (byCols ncol ts).map (fun t => (t.1 : Int) - 1), (byCols ncol ts).map fun t => t.2.2) := by
  unfold compressCols
  rw [resizeTo_nil, countCols_spec ts hc]
  simp only [Option.bind_eq_bind, Option.bind_some, zero_add]
  rw [colStarts_spec ts hc]
  simp only [Option.bind_some]
  obtain ⟨G, h1, h2⟩ := place_spec (ncol := ncol) ts [] (by simpa using hc)
    (fun j => if j < ncol then (cntLe ts j : Int) else (if ncol = 0 then 0 else cnt ts (ncol+1)))
    (by intro j hj; rw [if_pos hj]; simp [cnt])
  rw [fillArr_start ncol ts hc, fillArr_start ncol ts hc] at h1
  rw [h1]
  simp only [List.nil_append, Option.bind_some] at h2 ⊢
  rw [shiftStarts_spec]
  simp only [Option.bind_some]
  rw [fillArr_done, fillArr_done]
  congr 2
  apply tab_congr
  intro j hj
  by_cases h : j = 0
  · subst h
    rw [if_pos rfl, cntLe_zero ts (fun t ht => (hc t ht).1)]; rfl
  · rw [if_neg h, h2 (j-1) (by omega)]
    have := cntLe_succ ts (j-1)
    have e : j - 1 + 1 = j := by omega
    rw [e] at this
    rw [e, this]; push_cast; rfl

theorem byCols_perm (ncol : Nat) (ts : List (Nat × Nat × R)) (hc : ∀ t ∈ ts, 1 ≤ t.2.1 ∧ t.2.1 ≤ ncol) :
    (byCols ncol ts).Perm ts := by
  have key : ∀ n, (byCols n ts).Perm (ts.filter fun t => decide (1 ≤ t.2.1) && decide (t.2.1 ≤ n)) := by
    intro n
    induction n with
    | zero =>
      simp only [byCols, List.range'_zero, List.flatMap_nil]
      have : (ts.filter fun t => decide (1 ≤ t.2.1) && decide (t.2.1 ≤ 0)) = [] := by
        rw [List.filter_eq_nil_iff]; intro t _; simp; omega
      rw [this]
    | succ n ih =>
      unfold byCols at ih ⊢
      rw [List.range'_1_concat, List.flatMap_append]
      simp only [List.flatMap_cons, List.flatMap_nil, List.append_nil]
      refine (List.Perm.append_right _ ih).trans ?_
      clear ih hc
      induction ts with
      | nil => simp
      | cons t ts ih =>
        simp only [List.filter_cons]
        by_cases h1 : 1 ≤ t.2.1 ∧ t.2.1 ≤ n
        · have a : (decide (1 ≤ t.2.1) && decide (t.2.1 ≤ n)) = true := by simpa using h1
          have b : ¬ (decide (t.2.1 = 1 + n) = true) := by simp; omega
          have c : (decide (1 ≤ t.2.1) && decide (t.2.1 ≤ n+1)) = true := by simp; omega
          rw [if_pos a, if_neg b, if_pos c, List.cons_append]
          exact ih.cons t
        · by_cases h2 : t.2.1 = 1 + n
          · have a : ¬ (decide (1 ≤ t.2.1) && decide (t.2.1 ≤ n)) = true := by simpa using h1
            have b : (decide (t.2.1 = 1 + n) = true) := by simpa using h2
            have c : (decide (1 ≤ t.2.1) && decide (t.2.1 ≤ n+1)) = true := by simp; omega
            rw [if_neg a, if_pos b, if_pos c]
            exact List.perm_middle.trans (ih.cons t)
          · have a : ¬ (decide (1 ≤ t.2.1) && decide (t.2.1 ≤ n)) = true := by simpa using h1
            have b : ¬ (decide (t.2.1 = 1 + n) = true) := by simpa using h2
            have c : ¬ (decide (1 ≤ t.2.1) && decide (t.2.1 ≤ n+1)) = true := by simp; omega
            rw [if_neg a, if_neg b, if_neg c]
            exact ih
  refine (key ncol).trans ?_
  rw [List.filter_eq_self.2]
  intro t ht
  simpa using hc t ht

theorem byCols_sorted (ncol : Nat) (ts : List (Nat × Nat × R)) :
    (byCols ncol ts).Pairwise fun a b => a.2.1 ≤ b.2.1 := by
  unfold byCols
  rw [List.pairwise_flatMap]
  constructor
  · intro j _
    rw [List.pairwise_iff_forall_sublist]
    intro a b hab
    have ha : a ∈ (ts.filter fun t => t.2.1 = j) := hab.subset (by simp)
    have hb : b ∈ (ts.filter fun t => t.2.1 = j) := hab.subset (by simp)
    simp at ha hb
    omega
  · have : (List.range' 1 ncol).Pairwise (· < ·) := List.pairwise_lt_range'
    refine this.imp ?_
    intro a b hab x hx y hy
    simp at hx hy
    omega

end IFEM
