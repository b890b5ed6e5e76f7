import Verif.Lemmas.SparseCols
import Verif.Lemmas.SparseRepr
import Mathlib.Data.List.Perm.Basic
/-! Conversions between the sparse storage formats keep all entries. -/
namespace IFEM
open Sparse
variable {R : Type}

/-- An entry as triplet. -/
def toT (p : (Nat × Nat) × R) : Nat × Nat × R := (p.1.1, p.1.2, p.2)

/-- A triplet as entry. -/
def ofT (t : Nat × Nat × R) : (Nat × Nat) × R := ((t.1, t.2.1), t.2.2)

@[simp] theorem ofT_toT (p : (Nat × Nat) × R) : ofT (toT p) = p := rfl
@[simp] theorem toT_ofT (t : Nat × Nat × R) : toT (ofT t) = t := rfl

theorem cntLe_ofT (ts : List (Nat × Nat × R)) (j : Nat) :
    ((ts.map ofT).countP fun p => decide (majorOf true p ≤ j)) = cntLe ts j := by
  unfold cntLe
  rw [List.countP_map]
  rfl

/-- A storage in column format built from the triplets `ts`. -/
theorem holds_cols [Zero R] {M : Sparse R} (hcf : M.colFormat = true) (ts : List (Nat × Nat × R))
    (hn : ((ts.map ofT).map Prod.fst).Nodup)
    (hr : ∀ t ∈ ts, 1 ≤ t.1 ∧ t.1 ≤ M.nrow ∧ 1 ≤ t.2.1 ∧ t.2.1 ≤ M.ncol) (el : VMap R) :
    Holds (Sparse.mk M.nrow M.ncol .locked M.solver el (tab (M.ncol+1) (fun j => (cntLe ts j : Int)))
      ((byCols M.ncol ts).map (fun t => (t.1 : Int) - 1)) ((byCols M.ncol ts).map fun t => t.2.2))
      ((byCols M.ncol ts).map ofT) := by
  have hperm := byCols_perm M.ncol ts (fun t ht => (hr t ht).2.2)
  have hp2 : ((byCols M.ncol ts).map ofT).Perm (ts.map ofT) := hperm.map _
  have hcf' : (Sparse.mk M.nrow M.ncol .locked M.solver el (tab (M.ncol+1) (fun j => (cntLe ts j : Int)))
      ((byCols M.ncol ts).map (fun t => (t.1 : Int) - 1)) ((byCols M.ncol ts).map fun t => t.2.2)).colFormat = true := hcf
  refine ⟨?_, ?_, ?_, ?_⟩
  · exact (hp2.map Prod.fst).nodup_iff.2 hn
  · intro p hp
    obtain ⟨t, ht, rfl⟩ := List.mem_map.1 hp
    exact hr t (hperm.mem_iff.1 ht)
  · intro h; exact absurd rfl h
  · intro _
    rw [hcf']
    refine ⟨?_, ?_, ?_, ?_⟩
    · rw [List.pairwise_map]
      exact byCols_sorted M.ncol ts
    · simp only [List.map_map]; rfl
    · simp only [List.map_map]; rfl
    · unfold tab
      simp only [if_true]
      apply List.map_congr_left
      intro j _
      rw [hp2.countP_eq, cntLe_ofT]; simp

theorem optimiseCols_spec [Zero R] {M : Sparse R} {T : VMap R} (h : Holds M T) (he : M.editable ≠ .locked)
    (hcf : M.colFormat = true) :
    ∃ M' T', M.optimiseCols = some M' ∧ Holds M' T' ∧ T'.Perm T ∧ M'.editable = .locked ∧
      M'.nrow = M.nrow ∧ M'.ncol = M.ncol ∧ M'.solver = M.solver := by
  obtain ⟨hel, hsort, hIA, hJA, hA⟩ := h.edit he
  have hmap : (T.map toT).map ofT = T := by rw [List.map_map]; exact List.map_id _
  have hr : ∀ t ∈ T.map toT, 1 ≤ t.1 ∧ t.1 ≤ M.nrow ∧ 1 ≤ t.2.1 ∧ t.2.1 ≤ M.ncol := by
    intro t ht
    obtain ⟨p, hp, rfl⟩ := List.mem_map.1 ht
    exact h.range p hp
  have := holds_cols (M := M) hcf (T.map toT) (by rw [hmap]; exact h.nodup) hr []
  refine ⟨_, _, ?_, this, ?_, rfl, rfl, rfl, rfl⟩
  · unfold optimiseCols
    rw [if_neg he, hel, if_neg]
    · rw [hIA]
      have e := compressCols_spec (ncol := M.ncol) (T.map toT) (fun t ht => (hr t ht).2.2)
      rw [show (T.map fun p => (p.1.1, p.1.2, p.2)) = T.map toT from rfl, e]
      rfl
    · simp only [List.any_eq_true, not_exists, not_and, decide_eq_true_eq]
      intro p hp
      have := h.range p hp
      omega
  · have hperm := (byCols_perm M.ncol (T.map toT) (fun t ht => (hr t ht).2.2)).map ofT
    rw [hmap] at hperm
    exact hperm

/-- The entries of a prescribed sparsity pattern: one list of (1-based) columns per row. -/
def patEntries [Zero R] (dofc : List (List Int)) : VMap R :=
  (List.zipIdx dofc).flatMap fun p => p.1.map fun k => ((p.2 + 1, k.toNat), 0)

theorem mem_patEntries [Zero R] {dofc : List (List Int)} {r c : Nat} {v : R} :
    ((r, c), v) ∈ patEntries (R := R) dofc ↔ v = 0 ∧ 1 ≤ r ∧ ∃ l, dofc[r-1]? = some l ∧ ∃ k ∈ l, k.toNat = c := by
  unfold patEntries
  simp only [List.mem_flatMap, List.mem_map, Prod.mk.injEq]
  constructor
  · rintro ⟨⟨l, i⟩, hm, k, hk, ⟨rfl, rfl⟩, rfl⟩
    rw [List.mem_zipIdx_iff_getElem?] at hm
    exact ⟨rfl, by omega, l, by simpa using hm, k, hk, rfl⟩
  · rintro ⟨rfl, hr, l, hl, k, hk, rfl⟩
    refine ⟨(l, r-1), ?_, k, hk, ⟨by simp; omega, rfl⟩, rfl⟩
    rw [List.mem_zipIdx_iff_getElem?]
    exact hl

theorem patEntries_nodup [Zero R] (dofc : List (List Int)) (hnd : ∀ l ∈ dofc, l.Nodup)
    (hpos : ∀ l ∈ dofc, ∀ k ∈ l, 1 ≤ k) : ((patEntries (R := R) dofc).map Prod.fst).Nodup := by
  unfold patEntries
  rw [List.map_flatMap, List.nodup_flatMap]
  constructor
  · rintro ⟨l, i⟩ hm
    have hl : l ∈ dofc := by
      rw [List.mem_zipIdx_iff_getElem?] at hm
      exact List.mem_of_getElem? hm
    rw [List.map_map]
    apply List.Nodup.map_on _ (hnd l hl)
    intro x hx y hy hxy
    have h1 := hpos l hl x hx
    have h2 := hpos l hl y hy
    simp at hxy
    omega
  · have : (List.zipIdx dofc).Pairwise (fun a b => a.2 ≠ b.2) := by
      have h := List.nodup_range' (s := 0) (n := dofc.length) (step := 1)
      have e : (List.zipIdx dofc).map Prod.snd = List.range' 0 dofc.length := by
        rw [List.zipIdx_eq_zip_range', List.map_snd_zip (by simp)]
      rw [← e] at h
      unfold List.Nodup at h
      rwa [List.pairwise_map] at h
    refine this.imp ?_
    rintro ⟨l, i⟩ ⟨l', i'⟩ hne
    simp only [Function.onFun, List.disjoint_left, List.mem_map]
    rintro x ⟨y, ⟨k, _, rfl⟩, rfl⟩ ⟨z, ⟨k', _, rfl⟩, hz⟩
    simp at hz
    exact hne (by simpa using hz.1.symm)

/-- Column compression of a prescribed pattern. -/
theorem optimiseColsPat_spec [Zero R] {M : Sparse R} {T : VMap R} (h : Holds M T) (he : M.editable ≠ .locked)
    (hcf : M.colFormat = true) (dofc : List (List Int)) (hlen : dofc.length ≤ M.nrow)
    (hnd : ∀ l ∈ dofc, l.Nodup) (hk : ∀ l ∈ dofc, ∀ k ∈ l, 1 ≤ k ∧ k ≤ M.ncol) :
    ∃ M' T', M.optimiseColsPat dofc = some M' ∧ Holds M' T' ∧ T'.Perm (patEntries dofc) ∧ M'.editable = .locked ∧
      M'.nrow = M.nrow ∧ M'.ncol = M.ncol ∧ M'.solver = M.solver := by
  obtain ⟨hel, hsort, hIA, hJA, hA⟩ := h.edit he
  have hts : ((List.zipIdx dofc).flatMap fun p => p.1.map fun k => (p.2 + 1, k.toNat, (0 : R))) =
      (patEntries dofc).map toT := by
    unfold patEntries
    rw [List.map_flatMap]
    congr 1
    funext p
    rw [List.map_map]
    rfl
  have hmap : ((patEntries (R := R) dofc).map toT).map ofT = patEntries dofc := by rw [List.map_map]; exact List.map_id _
  have hr : ∀ t ∈ (patEntries (R := R) dofc).map toT, 1 ≤ t.1 ∧ t.1 ≤ M.nrow ∧ 1 ≤ t.2.1 ∧ t.2.1 ≤ M.ncol := by
    intro t ht
    obtain ⟨⟨⟨r, c⟩, v⟩, hp, rfl⟩ := List.mem_map.1 ht
    obtain ⟨_, h1, l, hl, k, hkl, rfl⟩ := mem_patEntries.1 hp
    have hlt : r - 1 < dofc.length := (List.getElem?_eq_some_iff.1 hl).1
    have := hk l (List.mem_of_getElem? hl) k hkl
    simp only [toT]
    omega
  have := holds_cols (M := M) hcf ((patEntries dofc).map toT)
    (by rw [hmap]; exact patEntries_nodup dofc hnd fun l hl k hk' => (hk l hl k hk').1) hr M.elem
  refine ⟨_, _, ?_, this, ?_, rfl, rfl, rfl, rfl⟩
  · unfold optimiseColsPat
    rw [if_neg he, if_neg (by rintro ⟨h1, _⟩; omega)]
    simp only [hts]
    rw [if_neg, hIA, compressCols_spec (ncol := M.ncol) _ (fun t ht => (hr t ht).2.2)]
    · rfl
    · simp only [List.any_eq_true, not_exists, not_and, decide_eq_true_eq]
      intro l hl k hkl
      have := hk l hl k hkl
      omega
  · have hperm := (byCols_perm M.ncol _ (fun t ht => (hr t ht).2.2)).map (ofT (R := R))
    rw [hmap] at hperm
    exact hperm

/-! ## Row format -/

theorem fillIA_spec {N : Nat} (v : Int) : ∀ (m cur : Nat) (F : Nat → Int), cur + m ≤ N →
    fillIA (tab N F) cur (cur+m) v = some (tab N fun j => if cur ≤ j ∧ j < cur + m then v else F j)
  | 0, cur, F, _ => by
    unfold fillIA
    rw [intRange_nil (by omega)]
    simp only [List.foldlM_nil]
    congr 1
    apply tab_congr
    intro j _
    rw [if_neg (by omega)]
  | m+1, cur, F, h => by
    have ih := fillIA_spec (N := N) v m (cur+1) (Function.update F cur v) (by omega)
    unfold fillIA at ih ⊢
    rw [intRange_cons (by omega), List.foldlM_cons, set0?_tab F (by omega)]
    simp only [Option.bind_eq_bind, Option.bind_some]
    have e1 : ((cur : Int) + 1) = ((cur+1 : Nat) : Int) := by omega
    have e2 : cur + (m+1) = cur + 1 + m := by omega
    rw [e1, e2, ih]
    congr 1
    apply tab_congr
    intro j _
    rw [Function.update_apply]
    by_cases h1 : cur + 1 ≤ j ∧ j < cur + 1 + m
    · rw [if_pos h1, if_pos (by omega)]
    · rw [if_neg h1]
      by_cases h2 : j = cur
      · rw [if_pos h2, if_pos (by omega)]
      · rw [if_neg h2, if_neg (by omega)]

theorem rowPtrs_spec {N : Nat} : ∀ (ps : VMap R) (cur ix : Nat) (F : Nat → Int),
    ps.Pairwise (fun a b => a.1.1 ≤ b.1.1) → (∀ p ∈ ps, cur ≤ p.1.1 ∧ p.1.1 ≤ N) →
    (∀ j, cur ≤ j → F j = (ix : Int) + ps.length + 1) →
    rowPtrs ps (tab (N+1) F) cur ix =
      some (tab (N+1) fun j => if j < cur then F j else (ix : Int) + 1 + (ps.countP fun p => p.1.1 ≤ j : Nat))
  | [], cur, ix, F, _, _, hF => by
    rw [rowPtrs]
    congr 1
    apply tab_congr
    intro j _
    by_cases h : j < cur
    · rw [if_pos h]
    · rw [if_neg h, hF j (by omega)]; simp
  | p :: ps, cur, ix, F, hs, hr, hF => by
    rw [List.pairwise_cons] at hs
    have hp := hr p List.mem_cons_self
    rw [rowPtrs]
    have e : p.1.1 = cur + (p.1.1 - cur) := by omega
    have hfill := fillIA_spec (N := N+1) ((ix : Int)+1) (p.1.1 - cur) cur F (by omega)
    rw [← e] at hfill
    rw [show fillIA (tab (N+1) F) cur p.1.1 ((ix : Int)+1) = _ from by
      rw [hfill]]
    simp only [Option.bind_eq_bind, Option.bind_some]
    have hmax : max cur p.1.1 = p.1.1 := by omega
    rw [hmax, rowPtrs_spec ps p.1.1 (ix+1) _ hs.2]
    · congr 1
      apply tab_congr
      intro j _
      by_cases h1 : j < p.1.1
      · rw [if_pos h1]
        by_cases h2 : j < cur
        · rw [if_neg (by omega), if_pos h2]
        · rw [if_pos (by omega), if_neg h2]
          rw [List.countP_eq_zero.2]
          · simp
          · intro q hq
            simp only [decide_eq_true_eq]
            rcases List.mem_cons.1 hq with rfl | hq
            · omega
            · have := hs.1 q hq; omega
      · rw [if_neg h1, if_neg (by omega), List.countP_cons, if_pos (by simp; omega)]
        push_cast; ring
    · intro q hq
      exact ⟨hs.1 q hq, (hr q (List.mem_cons_of_mem _ hq)).2⟩
    · intro j hj
      rw [if_neg (by omega), hF j (by omega)]
      simp only [List.length_cons]; push_cast; ring

/-- Exchange of two list elements. -/
def swapL {α : Type _} (l : List α) (i j : Nat) : List α :=
  match l[i]?, l[j]? with
  | some x, some y => (l.set i y).set j x
  | _, _ => l

theorem swapL_eq {α : Type _} (l : List α) {i j : Nat} (hi : i < l.length) (hj : j < l.length) :
    swapL l i j = (l.set i l[j]).set j l[i] := by
  unfold swapL
  rw [List.getElem?_eq_getElem hi, List.getElem?_eq_getElem hj]

theorem swap?_eq {α : Type} (l : List α) {i j : Nat} (hi : i < l.length) (hj : j < l.length) :
    swap? l (i : Int) (j : Int) = some (swapL l i j) := by
  unfold swap?
  rw [swapL_eq l hi hj]
  simp [hi, hj, set0?]

theorem swapL_map {α β : Type _} (g : α → β) (l : List α) {i j : Nat} (hi : i < l.length) (hj : j < l.length) :
    swapL (l.map g) i j = (swapL l i j).map g := by
  rw [swapL_eq l hi hj, swapL_eq (l.map g) (by simpa using hi) (by simpa using hj)]
  simp [List.map_set]

theorem swapL_perm {α : Type _} (l : List α) {i j : Nat} (hi : i < l.length) (hj : j < l.length) :
    (swapL l i j).Perm l := by
  rw [swapL_eq l hi hj]
  exact List.set_set_perm hi hj

theorem swapL_map_eq {α β : Type _} (g : α → β) (l : List α) {i j : Nat} (hi : i < l.length) (hj : j < l.length)
    (h : g l[i] = g l[j]) : (swapL l i j).map g = l.map g := by
  rw [swapL_eq l hi hj]
  rw [List.map_set, List.map_set]
  apply List.ext_getElem
  · simp
  · intro k h1 h2
    simp only [List.getElem_set, List.getElem_map]
    by_cases hjk : j = k
    · subst hjk; simp [h]
    · rw [if_neg hjk]
      by_cases hik : i = k
      · subst hik; simp [h]
      · rw [if_neg hik]

/-- State of the loop moving diagonal terms first: the arrays hold the entries `T'`, a permutation of `T` with the
same sequence of rows. -/
structure RowState (T : VMap R) (T' : VMap R) (st : List Int × List R) : Prop where
  perm : T'.Perm T
  rows : T'.map (fun p => p.1.1) = T.map fun p => p.1.1
  arr  : st = (T'.map (fun p => (p.1.2 : Int)), T'.map Prod.snd)

theorem minorOf_false : minorOf (R := R) false = fun p => (p.1.2 : Int) := by funext p; rfl

theorem diagFirst_spec {N : Nat} (T : VMap R) (hn : (T.map Prod.fst).Nodup)
    (hs : T.Pairwise fun a b => a.1.1 ≤ b.1.1) (hpos : ∀ p ∈ T, 1 ≤ p.1.1)
    (r : Nat) (hr : r < N) (T' : VMap R) (st : List Int × List R) (h : RowState T T' st) :
    ∃ T'' st', diagFirst st (tab (N+1) fun j => (1 : Int) + (T.countP fun p => p.1.1 ≤ j : Nat)) r = some st' ∧
      RowState T T'' st' := by
  have hn' : (T'.map Prod.fst).Nodup := (h.perm.map Prod.fst).nodup_iff.2 hn
  have hs' : T'.Pairwise fun a b => majorOf false a ≤ majorOf false b := by
    have h1 : (T.map fun p => p.1.1).Pairwise (· ≤ ·) := by rw [List.pairwise_map]; exact hs
    rw [← h.rows, List.pairwise_map] at h1
    exact h1
  have hpos' : ∀ p ∈ T', 1 ≤ majorOf false p := fun p hp => hpos p (h.perm.mem_iff.1 hp)
  have hcnt : ∀ j, (T.countP fun p => decide (p.1.1 ≤ j)) = T'.countP fun p => decide (majorOf false p ≤ j) := by
    intro j; rw [← h.perm.countP_eq]; rfl
  unfold diagFirst
  rw [at0?_tab _ (by omega), show ((r : Int) + 1) = ((r+1 : Nat) : Int) by omega, at0?_tab _ (by omega)]
  simp only [Option.bind_eq_bind, Option.bind_some, add_sub_cancel_left, hcnt]
  rw [h.arr]
  obtain ⟨hf, hnf⟩ := find_segment false T' hn' hs' hpos' (r+1) (by omega) ((r+1 : Nat) : Int)
  rw [minorOf_false, Nat.add_sub_cancel] at hf hnf
  by_cases hex : ∃ p ∈ T', majorOf false p = r+1 ∧ minorOf false p = ((r+1 : Nat) : Int)
  · obtain ⟨p, hp, hp1, hp2⟩ := hex
    obtain ⟨q, hq, rfl⟩ := List.getElem_of_mem hp
    rw [hf q hq hp1 hp2]
    simp only [Option.bind_some]
    have hqr := lt_countP_le (majorOf false) T' hs' r q hq
    by_cases hgt : (q : Int) > ((T'.countP fun p => decide (majorOf false p ≤ r) : Nat) : Int)
    · rw [if_pos hgt]
      have hb : (T'.countP fun p => decide (majorOf false p ≤ r)) < T'.length := by omega
      rw [swap?_eq _ (by simpa using hb) (by simpa using hq)]
      simp only [Option.bind_some]
      rw [swap?_eq _ (by simpa using hb) (by simpa using hq)]
      simp only [Option.bind_some]
      refine ⟨swapL T' (T'.countP fun p => decide (majorOf false p ≤ r)) q, _, rfl, ?_⟩
      refine ⟨(swapL_perm T' hb hq).trans h.perm, ?_, ?_⟩
      · rw [swapL_map_eq _ T' hb hq, h.rows]
        have b1 := lt_countP_le (majorOf false) T' hs' r _ hb
        have b2 : majorOf false T'[T'.countP fun p => decide (majorOf false p ≤ r)] ≤ majorOf false T'[q] :=
          List.pairwise_iff_getElem.1 hs' _ _ hb hq (by omega)
        have b3 : ¬ (majorOf false T'[T'.countP fun p => decide (majorOf false p ≤ r)] ≤ r) := fun hle => by
          have := b1.2 hle; omega
        have b4 : majorOf false T'[T'.countP fun p => decide (majorOf false p ≤ r)] = majorOf false T'[q] := by omega
        exact b4
      · rw [swapL_map _ T' hb hq, swapL_map _ T' hb hq]
    · rw [if_neg hgt]
      exact ⟨T', _, rfl, ⟨h.perm, h.rows, rfl⟩⟩
  · rw [hnf (by intro p hp hc; exact hex ⟨p, hp, hc⟩)]
    simp only [Option.bind_some]
    exact ⟨T', _, rfl, ⟨h.perm, h.rows, rfl⟩⟩

theorem diagLoop_spec {N : Nat} (T : VMap R) (hn : (T.map Prod.fst).Nodup)
    (hs : T.Pairwise fun a b => a.1.1 ≤ b.1.1) (hpos : ∀ p ∈ T, 1 ≤ p.1.1) :
    ∀ (rs : List Nat), (∀ r ∈ rs, r < N) → ∀ (T' : VMap R) (st : List Int × List R), RowState T T' st →
    ∃ T'' st', rs.foldlM (fun st r =>
        diagFirst st (tab (N+1) fun j => (1 : Int) + (T.countP fun p => p.1.1 ≤ j : Nat)) r) st = some st' ∧
      RowState T T'' st'
  | [], _, T', st, h => ⟨T', st, rfl, h⟩
  | r :: rs, hr, T', st, h => by
    obtain ⟨T1, st1, h1, h1'⟩ := diagFirst_spec T hn hs hpos r (hr r List.mem_cons_self) T' st h
    obtain ⟨T2, st2, h2, h2'⟩ := diagLoop_spec T hn hs hpos rs (fun r' h' => hr r' (List.mem_cons_of_mem _ h')) T1 st1 h1'
    refine ⟨T2, st2, ?_, h2'⟩
    rw [List.foldlM_cons, h1]
    exact h2

theorem optimiseRows_spec [Zero R] {M : Sparse R} {T : VMap R} (h : Holds M T) (he : M.editable ≠ .locked)
    (hcf : M.colFormat = false) :
    ∃ M' T', M.optimiseRows = some M' ∧ Holds M' T' ∧ T'.Perm T ∧ M'.editable = .locked ∧
      M'.nrow = M.nrow ∧ M'.ncol = M.ncol ∧ M'.solver = M.solver := by
  obtain ⟨hel, hsort, hIA, hJA, hA⟩ := h.edit he
  have hrows : T.Pairwise fun a b => a.1.1 ≤ b.1.1 := by
    refine hsort.imp ?_
    intro a b hab
    rw [VMap.keyLt_iff] at hab
    omega
  have hpos : ∀ p ∈ T, 1 ≤ p.1.1 := fun p hp => (h.range p hp).1
  have h0 : (T.countP fun p => decide (p.1.1 ≤ 0)) = 0 := by
    rw [List.countP_eq_zero]; intro p hp
    have := hpos p hp
    simp; omega
  have hptr := rowPtrs_spec (N := M.nrow) T 1 0 (Function.update (fun _ => (T.length : Int) + 1) 0 1) hrows
    (fun p hp => ⟨hpos p hp, (h.range p hp).2.1⟩)
    (by intro j hj; rw [Function.update_apply, if_neg (by omega)]; simp)
  obtain ⟨T', st, hd, hst⟩ := diagLoop_spec (N := M.nrow) T h.nodup hrows hpos (List.range M.nrow)
    (fun r hr => by simpa using hr) T (T.map (fun p => (p.1.2 : Int)), T.map Prod.snd) ⟨List.Perm.refl _, rfl, rfl⟩
  refine ⟨Sparse.mk M.nrow M.ncol .locked M.solver []
      (tab (M.nrow+1) fun j => (1 : Int) + (T.countP fun p => p.1.1 ≤ j : Nat))
      (T'.map (fun p => (p.1.2 : Int))) (T'.map Prod.snd), T', ?_, ?_, hst.perm, rfl, rfl, rfl, rfl⟩
  · unfold optimiseRows
    rw [if_neg he, hel, hIA]
    dsimp only
    rw [resizeTo_nil, show (0 : Int) = ((0 : Nat) : Int) from rfl, set0?_tab _ (by omega)]
    simp only [Option.bind_eq_bind, Option.bind_some]
    rw [hptr]
    simp only [Option.bind_some]
    have e : (tab (M.nrow+1) fun j => if j < 1 then Function.update (fun _ => (T.length : Int) + 1) 0 1 j
        else ((0 : Nat) : Int) + 1 + (T.countP fun p => decide (p.1.1 ≤ j) : Nat)) =
        tab (M.nrow+1) fun j => (1 : Int) + (T.countP fun p => decide (p.1.1 ≤ j) : Nat) := by
      apply tab_congr
      intro j _
      by_cases hj : j < 1
      · have : j = 0 := by omega
        subst this
        rw [if_pos hj, h0]; simp
      · rw [if_neg hj]; simp
    rw [e, hd, hst.arr]
    rfl
  · have hcf' : ∀ el ia ja a, (Sparse.mk M.nrow M.ncol .locked M.solver el ia ja a : Sparse R).colFormat = false :=
      fun _ _ _ _ => hcf
    refine ⟨(hst.perm.map Prod.fst).nodup_iff.2 h.nodup, fun p hp => h.range p (hst.perm.mem_iff.1 hp),
      fun hne => absurd rfl hne, fun _ => ?_⟩
    rw [hcf']
    refine ⟨?_, ?_, rfl, ?_⟩
    · have h1 : (T.map fun p => p.1.1).Pairwise (· ≤ ·) := by rw [List.pairwise_map]; exact hrows
      rw [← hst.rows, List.pairwise_map] at h1
      exact h1
    · rw [minorOf_false]
    · unfold tab
      simp only [Bool.false_eq_true, if_false]
      apply List.map_congr_left
      intro j _
      rw [← hst.perm.countP_eq]
      rfl

end IFEM
