import Verif.Lemmas.Colouring
import Mathlib.Data.List.Pairwise
/-!
# Lemmas on the node-to-element connectivity used in colouring
-/
namespace IFEM.Threads
open IFEM.Spec

theorem mem_sInsert {s : List Nat} {x y : Nat} : y ∈ sInsert s x ↔ y ∈ s ∨ y = x := by
  unfold sInsert
  split_ifs with h
  · exact ⟨Or.inl, fun hh => hh.elim id (fun e => e ▸ h)⟩
  · simp

theorem mem_sUnion : ∀ {t s : List Nat} {y : Nat}, y ∈ sUnion s t ↔ y ∈ s ∨ y ∈ t
  | [], s, y => by simp [sUnion]
  | x :: t, s, y => by
    have := mem_sUnion (t := t) (s := sInsert s x) (y := y)
    unfold sUnion at this ⊢
    rw [List.foldl_cons, this, mem_sInsert, List.mem_cons, or_assoc]

theorem getD_set_nat {rows : List (List Nat)} {k : Nat} {r : List Nat} {n : Nat} (h : k < rows.length) :
    (rows.set k r).getD n [] = if n = k then r else rows.getD n [] := by
  by_cases hn : n = k
  · subst hn; simp [h]
  · have hn' : k ≠ n := fun h => hn h.symm
    simp [hn, List.getElem?_set, hn']

theorem rowInsert_spec {rows : List (List Nat)} {k x : Nat} (h : k < rows.length) : ∃ rows', rowInsert rows k x = some rows' ∧ rows'.length = rows.length ∧
    ∀ n y, y ∈ rows'.getD n [] ↔ y ∈ rows.getD n [] ∨ (n = k ∧ y = x) := by
  unfold rowInsert
  rw [List.getElem?_eq_getElem h]
  refine ⟨_, rfl, by simp, fun n y => ?_⟩
  rw [getD_set_nat h]
  by_cases hn : n = k
  · subst hn
    rw [if_pos rfl, mem_sInsert]
    simp [h]
  · simp [hn]

/-- Constraint `c` ties node `s` (patch index) to node `m` (patch index). -/
def Tied (MLGN : List Nat) (mpcs : List NodeCpl) (m s : Nat) : Prop :=
  ∃ c ∈ mpcs, MLGN.idxOf? c.slave = some s ∧ ∃ g ∈ c.masters, MLGN.idxOf? g = some m

theorem idxOf?_lt {l : List Nat} {g i : Nat} (h : l.idxOf? g = some i) : i < l.length ∧ l[i]? = some g := by
  rw [List.idxOf?] at h
  rw [List.findIdx?_eq_some_iff_getElem] at h
  obtain ⟨hi, h1, _⟩ := h
  refine ⟨hi, ?_⟩
  rw [List.getElem?_eq_getElem hi]
  simpa using h1

theorem masters_spec (MLGN : List Nat) {s : Nat} : ∀ (ms : List Nat) (S : List Nat × List (List Nat)), S.2.length = MLGN.length →
    ∃ S', ms.foldlM (cplMaster MLGN s) S = some S' ∧ S'.2.length = MLGN.length ∧
      (∀ x, x ∈ S'.1 ↔ x ∈ S.1 ∨ (x = s ∧ ∃ g ∈ ms, ∃ m, MLGN.idxOf? g = some m)) ∧
      ∀ m x, x ∈ S'.2.getD m [] ↔ x ∈ S.2.getD m [] ∨ (x = s ∧ ∃ g ∈ ms, MLGN.idxOf? g = some m)
  | [], S, h => ⟨S, rfl, h, by simp, by simp⟩
  | g :: ms, S, h => by
    have hstep : ∃ S1, cplMaster MLGN s S g = some S1 ∧ S1.2.length = MLGN.length ∧
        (∀ x, x ∈ S1.1 ↔ x ∈ S.1 ∨ (x = s ∧ ∃ m, MLGN.idxOf? g = some m)) ∧
        ∀ m x, x ∈ S1.2.getD m [] ↔ x ∈ S.2.getD m [] ∨ (x = s ∧ MLGN.idxOf? g = some m) := by
      unfold cplMaster
      rcases hi : MLGN.idxOf? g with _ | im
      · exact ⟨S, rfl, h, by simp, by simp⟩
      · obtain ⟨rows, e, hl, hr⟩ := rowInsert_spec (rows := S.2) (k := im) (x := s) (by rw [h]; exact (idxOf?_lt hi).1)
        refine ⟨(sInsert S.1 s, rows), by simp only [e, Option.map_some], hl.trans h, fun x => ?_, fun m x => ?_⟩
        · rw [mem_sInsert]; simp
        · rw [hr]
          simp only [Option.some.injEq]
          constructor
          · rintro (hh | ⟨rfl, rfl⟩)
            · exact Or.inl hh
            · exact Or.inr ⟨rfl, rfl⟩
          · rintro (hh | ⟨rfl, rfl⟩)
            · exact Or.inl hh
            · exact Or.inr ⟨rfl, rfl⟩
    obtain ⟨S1, e1, l1, a1, b1⟩ := hstep
    obtain ⟨S2, e2, l2, a2, b2⟩ := masters_spec MLGN ms S1 l1
    refine ⟨S2, by rw [List.foldlM_cons, e1]; exact e2, l2, fun x => ?_, fun m x => ?_⟩
    · rw [a2, a1]
      simp only [List.mem_cons, exists_eq_or_imp]
      tauto
    · rw [b2, b1]
      simp only [List.mem_cons, exists_eq_or_imp]
      tauto

theorem cpl_spec (MLGN : List Nat) : ∀ (mpcs : List NodeCpl) (S : List Nat × List (List Nat)), S.2.length = MLGN.length →
    ∃ S', mpcs.foldlM (cplOne MLGN) S = some S' ∧ S'.2.length = MLGN.length ∧
      (∀ x, x ∈ S'.1 ↔ x ∈ S.1 ∨ ∃ m, Tied MLGN mpcs m x) ∧
      ∀ m x, x ∈ S'.2.getD m [] ↔ x ∈ S.2.getD m [] ∨ Tied MLGN mpcs m x
  | [], S, h => ⟨S, rfl, h, by simp [Tied], by simp [Tied]⟩
  | c :: mpcs, S, h => by
    have hstep : ∃ S1, cplOne MLGN S c = some S1 ∧ S1.2.length = MLGN.length ∧
        (∀ x, x ∈ S1.1 ↔ x ∈ S.1 ∨ ∃ m, (MLGN.idxOf? c.slave = some x ∧ ∃ g ∈ c.masters, MLGN.idxOf? g = some m)) ∧
        ∀ m x, x ∈ S1.2.getD m [] ↔ x ∈ S.2.getD m [] ∨ (MLGN.idxOf? c.slave = some x ∧ ∃ g ∈ c.masters, MLGN.idxOf? g = some m) := by
      unfold cplOne
      rcases hi : MLGN.idxOf? c.slave with _ | is
      · exact ⟨S, rfl, h, by simp, by simp⟩
      · obtain ⟨S', e, l, a, b⟩ := masters_spec MLGN (s := is) c.masters S h
        refine ⟨S', e, l, fun x => ?_, fun m x => ?_⟩
        · rw [a]
          simp only [Option.some.injEq]
          constructor
          · rintro (hh | ⟨rfl, g, hg, m, hm⟩)
            · exact Or.inl hh
            · exact Or.inr ⟨m, rfl, g, hg, hm⟩
          · rintro (hh | ⟨m, rfl, g, hg, hm⟩)
            · exact Or.inl hh
            · exact Or.inr ⟨rfl, g, hg, m, hm⟩
        · rw [b]
          simp only [Option.some.injEq]
          constructor
          · rintro (hh | ⟨rfl, hg⟩)
            · exact Or.inl hh
            · exact Or.inr ⟨rfl, hg⟩
          · rintro (hh | ⟨rfl, hg⟩)
            · exact Or.inl hh
            · exact Or.inr ⟨rfl, hg⟩
    obtain ⟨S1, e1, l1, a1, b1⟩ := hstep
    obtain ⟨S2, e2, l2, a2, b2⟩ := cpl_spec MLGN mpcs S1 l1
    have ht : ∀ m x, Tied MLGN (c :: mpcs) m x ↔ (MLGN.idxOf? c.slave = some x ∧ ∃ g ∈ c.masters, MLGN.idxOf? g = some m) ∨ Tied MLGN mpcs m x := by
      intro m x
      simp only [Tied, List.mem_cons, exists_eq_or_imp]
    refine ⟨S2, by rw [List.foldlM_cons, e1]; exact e2, l2, fun x => ?_, fun m x => ?_⟩
    · rw [a2, a1]
      simp only [ht, exists_or]
      exact or_assoc
    · rw [b2, b1, ht]
      exact or_assoc

/-- Element `i` goes to the separate colour. -/
def Single (MNPC : List (List Nat)) (sep : Bool) (slaves : List Nat) (i : Nat) : Prop :=
  sep = true ∧ ∃ nodes, MNPC[i]? = some nodes ∧ nodes.length = 1 ∧ ¬ ∃ n ∈ nodes, n ∈ slaves

theorem nodes_spec {nnod i : Nat} : ∀ (nodes : List Nat) (rows : List (List Nat)), rows.length = nnod → (∀ n ∈ nodes, n < nnod) →
    ∃ rows', nodes.foldlM (fun rows n => rowInsert rows n i) rows = some rows' ∧ rows'.length = nnod ∧
      ∀ n y, y ∈ rows'.getD n [] ↔ y ∈ rows.getD n [] ∨ (n ∈ nodes ∧ y = i)
  | [], rows, h, _ => ⟨rows, rfl, h, by simp⟩
  | k :: nodes, rows, h, hn => by
    obtain ⟨r1, e1, l1, m1⟩ := rowInsert_spec (rows := rows) (k := k) (x := i) (by rw [h]; exact hn k (by simp))
    obtain ⟨r2, e2, l2, m2⟩ := nodes_spec nodes r1 (l1.trans h) (fun n hh => hn n (by simp [hh]))
    refine ⟨r2, by rw [List.foldlM_cons, e1]; exact e2, l2, fun n y => ?_⟩
    rw [m2, m1, List.mem_cons]
    tauto

/-- The state of the element pass after `k` elements. -/
structure ElmInv (MNPC : List (List Nat)) (nnod : Nat) (sep : Bool) (slaves : List Nat) (k : Nat) (S : (List Int × List Int) × List (List Nat)) : Prop where
  len : S.1.1.length = MNPC.length
  rlen : S.2.length = nnod
  st : ∀ i : Nat, (i < k ∧ Single MNPC sep slaves i → S.1.1.getD i 0 = 1) ∧ (¬ (i < k ∧ Single MNPC sep slaves i) → S.1.1.getD i 0 = 0)
  col : ∀ e : Int, e ∈ S.1.2 ↔ ∃ i : Nat, e = i ∧ i < k ∧ Single MNPC sep slaves i
  nodup : S.1.2.Nodup
  conn : ∀ n y, y ∈ S.2.getD n [] ↔ y < k ∧ ¬ Single MNPC sep slaves y ∧ ∃ nodes, MNPC[y]? = some nodes ∧ n ∈ nodes

theorem elmPass_inv {MNPC : List (List Nat)} {nnod : Nat} {sep : Bool} {slaves : List Nat} {k : Nat} {S} (h : ElmInv MNPC nnod sep slaves k S) {nodes : List Nat}
    (hk : MNPC[k]? = some nodes) (hn : ∀ n ∈ nodes, n < nnod) : ∃ S', elmPass sep slaves S (k, nodes) = some S' ∧ ElmInv MNPC nnod sep slaves (k+1) S' := by
  have hkl : k < MNPC.length := (List.getElem?_eq_some_iff.mp hk).1
  unfold elmPass
  dsimp only
  by_cases hs : sep = true ∧ nodes.length = 1 ∧ ¬ (∃ n ∈ nodes, n ∈ slaves)
  · rw [if_pos hs]
    have hsk : Single MNPC sep slaves k := ⟨hs.1, nodes, hk, hs.2⟩
    refine ⟨_, rfl, ?_⟩
    have hset : ∀ i : Nat, (S.1.1.set k 1).getD i 0 = if i = k then 1 else S.1.1.getD i 0 := by
      intro i
      by_cases hi : i = k
      · subst hi; simp [h.len, hkl]
      · have hi' : k ≠ i := fun h => hi h.symm
        simp [hi, List.getElem?_set, hi']
    constructor
    · simp [h.len]
    · exact h.rlen
    · intro i
      show (_ → (S.1.1.set k 1).getD i 0 = 1) ∧ (_ → (S.1.1.set k 1).getD i 0 = 0)
      rw [hset]
      by_cases hi : i = k
      · subst hi
        exact ⟨fun _ => if_pos rfl, fun hh => absurd ⟨by omega, hsk⟩ hh⟩
      · rw [if_neg hi]
        exact ⟨fun hh => (h.st i).1 ⟨by omega, hh.2⟩, fun hh => (h.st i).2 fun h' => hh ⟨by omega, h'.2⟩⟩
    · intro e
      show e ∈ S.1.2 ++ [(k : Int)] ↔ _
      rw [List.mem_append, List.mem_singleton, h.col]
      constructor
      · rintro (⟨i, q1, q2, q3⟩ | q)
        · exact ⟨i, q1, by omega, q3⟩
        · exact ⟨k, q, by omega, hsk⟩
      · rintro ⟨i, q1, q2, q3⟩
        by_cases hi : i = k
        · exact Or.inr (by rw [q1, hi])
        · exact Or.inl ⟨i, q1, by omega, q3⟩
    · show (S.1.2 ++ [(k : Int)]).Nodup
      rw [List.nodup_append]
      refine ⟨h.nodup, by simp, fun x hx y hy hxy => ?_⟩
      obtain ⟨i, q1, q2, _⟩ := (h.col x).mp hx
      have := List.mem_singleton.mp hy
      omega
    · intro n y
      show y ∈ S.2.getD n [] ↔ _
      rw [h.conn]
      constructor
      · rintro ⟨q1, q2⟩; exact ⟨by omega, q2⟩
      · rintro ⟨q1, q2, q3⟩
        refine ⟨?_, q2, q3⟩
        by_contra hge
        have : y = k := by omega
        exact q2 (this ▸ hsk)
  · rw [if_neg hs]
    have hsk : ¬ Single MNPC sep slaves k := by
      rintro ⟨g1, nd, g2, g3⟩
      rw [hk] at g2
      obtain rfl := Option.some.inj g2
      exact hs ⟨g1, g3⟩
    obtain ⟨rows, e, hl, hr⟩ := nodes_spec (i := k) nodes S.2 h.rlen hn
    refine ⟨(S.1, rows), by rw [e]; rfl, ?_⟩
    constructor
    · exact h.len
    · exact hl
    · intro i
      by_cases hi : i = k
      · subst hi
        exact ⟨fun hh => absurd hh.2 hsk, fun _ => (h.st i).2 fun h' => hsk h'.2⟩
      · exact ⟨fun hh => (h.st i).1 ⟨by omega, hh.2⟩, fun hh => (h.st i).2 fun h' => hh ⟨by omega, h'.2⟩⟩
    · intro e
      rw [h.col]
      constructor
      · rintro ⟨i, q1, q2, q3⟩; exact ⟨i, q1, by omega, q3⟩
      · rintro ⟨i, q1, q2, q3⟩
        have : i ≠ k := fun hh => hsk (hh ▸ q3)
        exact ⟨i, q1, by omega, q3⟩
    · exact h.nodup
    · intro n y
      show y ∈ rows.getD n [] ↔ _
      rw [hr, h.conn]
      constructor
      · rintro (⟨q1, q2⟩ | ⟨q1, rfl⟩)
        · exact ⟨by omega, q2⟩
        · exact ⟨by omega, hsk, nodes, hk, q1⟩
      · rintro ⟨q1, q2, nd, q3, q4⟩
        by_cases hy : y = k
        · subst hy
          rw [hk] at q3
          obtain rfl := Option.some.inj q3
          exact Or.inr ⟨q4, rfl⟩
        · exact Or.inl ⟨by omega, q2, nd, q3, q4⟩

theorem elmPass_fold {MNPC : List (List Nat)} {nnod : Nat} (sep : Bool) (slaves : List Nat) (hn : ∀ nodes ∈ MNPC, ∀ n ∈ nodes, n < nnod) :
    ∃ S, ((List.range MNPC.length).zip MNPC).foldlM (elmPass sep slaves) ((List.replicate MNPC.length 0, []), List.replicate nnod []) = some S ∧
      ElmInv MNPC nnod sep slaves MNPC.length S := by
  have h0 : ElmInv MNPC nnod sep slaves 0 ((List.replicate MNPC.length 0, []), List.replicate nnod []) := by
    refine ⟨by simp, by simp, fun i => ⟨by omega, fun _ => ?_⟩, by simp, by simp, fun n y => ?_⟩
    · simp only [List.getD_eq_getElem?_getD, List.getElem?_replicate]; split_ifs <;> rfl
    · have : (List.replicate nnod ([] : List Nat)).getD n [] = [] := by
        simp only [List.getD_eq_getElem?_getD, List.getElem?_replicate]; split_ifs <;> rfl
      rw [this]; simp
  have key : ∀ (l : List (List Nat)) (k : Nat) (S), (∀ j nodes, l[j]? = some nodes → MNPC[k+j]? = some nodes) → k + l.length = MNPC.length → ElmInv MNPC nnod sep slaves k S →
      ∃ S', ((List.range' k l.length).zip l).foldlM (elmPass sep slaves) S = some S' ∧ ElmInv MNPC nnod sep slaves MNPC.length S' := by
    intro l
    induction l with
    | nil =>
      intro k S _ hk h
      have hk : k = MNPC.length := by simpa using hk
      subst hk
      exact ⟨S, rfl, h⟩
    | cons nodes l ih =>
      intro k S hl hk h
      have h1 := hl 0 nodes rfl
      obtain ⟨S1, e1, i1⟩ := elmPass_inv h h1 (hn nodes (List.mem_of_getElem? h1))
      obtain ⟨S2, e2, i2⟩ := ih (k+1) S1 (fun j nd hj => by rw [show k+1+j = k+(j+1) by omega]; exact hl (j+1) nd (by simpa using hj)) (by simp at hk; omega) i1
      refine ⟨S2, ?_, i2⟩
      rw [List.length_cons, List.range'_succ, List.zip_cons_cons, List.foldlM_cons, e1]
      exact e2
  rw [List.range_eq_range']
  exact key MNPC 0 _ (fun j nodes h => by rw [Nat.zero_add]; exact h) (by omega) h0

/-! ### The coupling pass -/

theorem common_mem {conn : List (List Nat)} : ∀ {slaves : List Nat} {s0 : List Nat} {y : Nat},
    y ∈ slaves.foldl (fun s sl => sUnion s (conn.getD sl [])) s0 ↔ y ∈ s0 ∨ ∃ s ∈ slaves, y ∈ conn.getD s []
  | [], s0, y => by simp
  | s :: slaves, s0, y => by
    rw [List.foldl_cons, common_mem, mem_sUnion]
    simp only [List.mem_cons, exists_eq_or_imp, or_assoc]

theorem setAll_get {common : List Nat} : ∀ (slaves : List Nat) (conn : List (List Nat)), (∀ s ∈ slaves, s < conn.length) →
    (slaves.foldl (fun cn sl => cn.set sl common) conn).length = conn.length ∧
    ∀ n, (slaves.foldl (fun cn sl => cn.set sl common) conn).getD n [] = if n ∈ slaves then common else conn.getD n []
  | [], conn, _ => ⟨rfl, fun n => by simp⟩
  | s :: slaves, conn, h => by
    obtain ⟨l, g⟩ := setAll_get (common := common) slaves (conn.set s common) (fun x hx => by rw [List.length_set]; exact h x (by simp [hx]))
    rw [List.foldl_cons]
    refine ⟨l.trans (by simp), fun n => ?_⟩
    rw [g, getD_set_nat (h s (by simp))]
    by_cases hn : n ∈ slaves
    · simp [hn]
    · by_cases hns : n = s
      · simp [hns]
      · simp [hn, hns]

theorem cplPass_spec {nodeNode conn : List (List Nat)} {m : Nat} (hm : m < conn.length) (hs : ∀ s ∈ nodeNode.getD m [], s < conn.length) :
    (cplPass nodeNode conn m).length = conn.length ∧
    (∀ n y, y ∈ conn.getD n [] → y ∈ (cplPass nodeNode conn m).getD n []) ∧
    (∀ n y, y ∈ (cplPass nodeNode conn m).getD n [] → ∃ n', y ∈ conn.getD n' []) ∧
    (∀ a b y, (a = m ∨ a ∈ nodeNode.getD m []) → (b = m ∨ b ∈ nodeNode.getD m []) → nodeNode.getD m [] ≠ [] →
      y ∈ conn.getD a [] → y ∈ (cplPass nodeNode conn m).getD b []) := by
  unfold cplPass
  dsimp only
  by_cases he : nodeNode.getD m [] = []
  · rw [if_pos he]
    exact ⟨rfl, fun _ _ h => h, fun n y h => ⟨n, h⟩, fun _ _ _ _ _ h => absurd he h⟩
  rw [if_neg he]
  generalize nodeNode.getD m [] = slaves at hs he
  have hc : ∀ y, y ∈ slaves.foldl (fun s sl => sUnion s (conn.getD sl [])) (conn.getD m []) ↔ y ∈ conn.getD m [] ∨ ∃ s ∈ slaves, y ∈ conn.getD s [] := fun y => common_mem
  generalize slaves.foldl (fun s sl => sUnion s (conn.getD sl [])) (conn.getD m []) = common at hc
  obtain ⟨l, g⟩ := setAll_get (common := common) slaves (conn.set m (sUnion (conn.getD m []) common)) (fun x hx => by rw [List.length_set]; exact hs x hx)
  refine ⟨l.trans (by simp), ?_, ?_, ?_⟩
  · intro n y hy
    rw [g, getD_set_nat hm]
    split_ifs with h1 h2
    · exact (hc y).mpr (Or.inr ⟨n, h1, hy⟩)
    · subst h2; exact mem_sUnion.mpr (Or.inl hy)
    · exact hy
  · intro n y hy
    have hcm : y ∈ common → ∃ n', y ∈ conn.getD n' [] := fun h => by
      rcases (hc y).mp h with h | ⟨s, _, h⟩
      · exact ⟨_, h⟩
      · exact ⟨_, h⟩
    rw [g, getD_set_nat hm] at hy
    split_ifs at hy with h1 h2
    · exact hcm hy
    · rcases mem_sUnion.mp hy with hy | hy
      · exact ⟨_, hy⟩
      · exact hcm hy
    · exact ⟨_, hy⟩
  · intro a b y ha hb _ hy
    have hcm : y ∈ common := (hc y).mpr (ha.elim (fun h => Or.inl (h ▸ hy)) (fun h => Or.inr ⟨a, h, hy⟩))
    rw [g, getD_set_nat hm]
    split_ifs with h1 h2
    · exact hcm
    · exact mem_sUnion.mpr (Or.inr hcm)
    · exact absurd hb (by simp [h1, h2])

theorem cplFold_spec {nnod : Nat} {nodeNode : List (List Nat)} (hs : ∀ m, ∀ s ∈ nodeNode.getD m [], s < nnod) : ∀ (ms : List Nat) (conn : List (List Nat)),
    conn.length = nnod → (∀ m ∈ ms, m < nnod) →
    (∀ n y, y ∈ conn.getD n [] → y ∈ (ms.foldl (cplPass nodeNode) conn).getD n []) ∧
    (∀ n y, y ∈ (ms.foldl (cplPass nodeNode) conn).getD n [] → ∃ n', y ∈ conn.getD n' []) ∧
    (∀ m ∈ ms, ∀ a b y, (a = m ∨ a ∈ nodeNode.getD m []) → (b = m ∨ b ∈ nodeNode.getD m []) → nodeNode.getD m [] ≠ [] →
      y ∈ conn.getD a [] → y ∈ (ms.foldl (cplPass nodeNode) conn).getD b [])
  | [], conn, _, _ => ⟨fun _ _ h => h, fun n _ h => ⟨n, h⟩, by simp⟩
  | m :: ms, conn, hl, hm => by
    obtain ⟨q0, q1, q2, q3⟩ := cplPass_spec (nodeNode := nodeNode) (conn := conn) (m := m) (by rw [hl]; exact hm m (by simp)) (fun s h => by rw [hl]; exact hs m s h)
    obtain ⟨r1, r2, r3⟩ := cplFold_spec hs ms (cplPass nodeNode conn m) (q0.trans hl) (fun x hx => hm x (by simp [hx]))
    rw [List.foldl_cons]
    refine ⟨fun n y h => r1 n y (q1 n y h), fun n y h => ?_, ?_⟩
    · obtain ⟨n', h'⟩ := r2 n y h
      exact q2 n' y h'
    · intro x hx a b y ha hb hne hy
      rcases List.mem_cons.mp hx with rfl | hx
      · exact r1 b y (q3 a b y ha hb hne hy)
      · exact r3 x hx a b y ha hb hne (q1 a y hy)

end IFEM.Threads
