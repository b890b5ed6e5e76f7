import Verif.Props.Projection
import Verif.Lemmas.SysMat
import Verif.Props.MatrixBlock
/-!
# C74: the first version of the L2-projection
-/
namespace IFEM.Props
open IFEM IFEM.L2 IFEM.Spec IFEM.Spec.L2 IFEM.Weak IFEM.Lem

section
variable {R : Type} [Field R]

theorem assembleA_adds {n m : Nat} {P : Nat → Nat → Prop} {A : Mat R} {g : Nat → Nat → R} (hA : Rep A (Matrix.of fun i j : Fin m => g i j)) (mnpc : List Nat) (hm : mnpc.length = m)
    (hn : ∀ i ∈ mnpc, i < n) (hP : ∀ r ∈ mnpc, ∀ c ∈ mnpc, P r c) (M : Sparse R) (hM : Open n P M) :
    ∃ M', assembleA A mnpc M = some M' ∧ Open n P M' ∧
      ∀ q : (Nat → R) × (Nat → R), form n M' q.1 q.2 = form n M q.1 q.2 + ∑ i ∈ Finset.range m, ∑ j ∈ Finset.range m, q.1 (mnpc.getD i 0) * g i j * q.2 (mnpc.getD j 0) := by
  subst hm
  obtain ⟨M', a1, a2, a3⟩ := fold_adds (Open n P) (fun M (q : (Nat → R) × (Nat → R)) => form n M q.1 q.2)
    (fun (x : Nat × Nat) q => q.1 (mnpc.getD x.1 0) * g x.1 x.2 * q.2 (mnpc.getD x.2 0)) (fun (M : Sparse R) (q : Nat × Nat) => do
      let inod ← mnpc[q.1]?
      let jnod ← mnpc[q.2]?
      let a ← A.get? ((q.1 : Int) + 1) ((q.2 : Int) + 1)
      M.addAt? (inod + 1) (jnod + 1) a) (Mat.pairs mnpc.length mnpc.length) (fun x hx M hM => by
        obtain ⟨h1, h2⟩ := (mem_pairs _ _ x).1 hx
        have m1 := mem_getD mnpc x.1 0 h1
        have m2 := mem_getD mnpc x.2 0 h2
        obtain ⟨M', b1, b2, b3⟩ := open_add hM _ _ (hn _ m1) (hn _ m2) (hP _ m1 _ m2) (g x.1 x.2)
        refine ⟨M', ?_, b2, fun q => b3 _ _⟩
        rw [list_get mnpc x.1 0 h1, list_get mnpc x.2 0 h2, l2_get hA x.1 x.2 h1 h2]
        exact b1) M hM
  refine ⟨M', ?_, a2, fun q => ?_⟩
  · unfold assembleA
    rw [hA.rows, hA.cols]; exact a1
  · rw [a3, sum_pairs, Finset.sum_range]
    congr 1
    exact Finset.sum_congr rfl fun i _ => (Finset.sum_range fun j => q.1 (mnpc.getD i 0) * g i j * q.2 (mnpc.getD j 0)).symm

theorem assembleB_adds (n nrhs : Nat) (G : Nat → Nat → R) (mnpc : List Nat) (hn : ∀ i ∈ mnpc, i < n) (B : List R) (hB : B.length = n * nrhs) :
    ∃ st, assembleB (Lem.tab nrhs fun j => Lem.tab mnpc.length (G j)) mnpc n B = some st ∧ st.1.length = n * nrhs ∧
      ∀ q : Nat × (Nat → R), rhs n st.1 q.1 q.2 = rhs n B q.1 q.2 + if q.1 < nrhs then ∑ i ∈ Finset.range mnpc.length, q.2 (mnpc.getD i 0) * G q.1 i else 0 := by
  have key : ∀ k, k ≤ nrhs → ∃ B', (Lem.tab k fun j => Lem.tab mnpc.length (G j)).foldlM (fun (st : List R × Nat) (v : List R) => do
      let B ← (List.range v.length).foldlM (fun (B : List R) (i : Nat) => do
        let inod ← mnpc[i]?
        let x ← v[i]?
        add1? B ((st.2 + inod + 1 : Nat) : Int) x) st.1
      some (B, st.2 + n)) (B, 0) = some (B', k * n) ∧ B'.length = n * nrhs ∧
      ∀ q : Nat × (Nat → R), rhs n B' q.1 q.2 = rhs n B q.1 q.2 + if q.1 < k then ∑ i ∈ Finset.range mnpc.length, q.2 (mnpc.getD i 0) * G q.1 i else 0 := by
    intro k
    induction k with
    | zero => intro _; exact ⟨B, by simp [Lem.tab], hB, fun q => by simp⟩
    | succ k ih =>
      intro hk
      obtain ⟨B', a1, a2, a3⟩ := ih (by omega)
      obtain ⟨B2, b1, b2, b3⟩ := fold_adds (fun B : List R => B.length = n * nrhs) (fun B (q : Nat × (Nat → R)) => rhs n B q.1 q.2)
        (fun i q => if q.1 = k then q.2 (mnpc.getD i 0) * G k i else 0) (fun (B : List R) (i : Nat) => do
        let inod ← mnpc[i]?
        let x ← (Lem.tab mnpc.length (G k))[i]?
        add1? B ((k * n + inod + 1 : Nat) : Int) x) (List.range mnpc.length) (fun i hi B hB => by
          have hi := List.mem_range.1 hi
          obtain ⟨B2, c1, c2, c3⟩ := vec_add n nrhs B hB k (mnpc.getD i 0) (by omega) (hn _ (mem_getD mnpc i 0 hi)) (G k i)
          refine ⟨B2, ?_, c2, c3⟩
          rw [list_get mnpc i 0 hi, tab_get hi]
          refine Eq.trans ?_ c1
          show add1? B _ _ = _
          congr 2
          ring) B' a2
      have ht : (Lem.tab (k+1) fun j => Lem.tab mnpc.length (G j)) = (Lem.tab k fun j => Lem.tab mnpc.length (G j)) ++ [Lem.tab mnpc.length (G k)] := by
        unfold Lem.tab; rw [List.range_succ, List.map_append]; rfl
      refine ⟨B2, ?_, b2, fun q => ?_⟩
      · rw [ht, List.foldlM_append, a1]
        simp only [List.foldlM_cons, List.foldlM_nil, Option.bind_eq_bind, Option.bind_some]
        rw [tab_len]
        simp only [Option.bind_eq_bind] at b1
        rw [b1]
        simp only [Option.bind_some]
        rw [Nat.succ_mul]; rfl
      · rw [b3, a3, add_assoc, sum_range_map]
        congr 1
        by_cases e : q.1 = k
        · rw [if_neg (by omega), if_pos (by omega), zero_add, e]
          exact Finset.sum_congr rfl fun _ _ => if_pos rfl
        · rw [Finset.sum_eq_zero fun _ _ => if_neg e, add_zero]
          by_cases h : q.1 < k
          · rw [if_pos h, if_pos (by omega)]
          · rw [if_neg h, if_neg (by omega)]
  obtain ⟨B', a1, a2, a3⟩ := key nrhs (le_refl _)
  exact ⟨_, a1, a2, a3⟩

variable [DecidableEq R]

/-- Leaving out the singular points. -/
def live (pts : List (Pt R)) : List (Pt R) := pts.filter fun p => decide (p.w ≠ 0)

theorem fold_live (pts : List (Pt R)) (st : Mat R × List (List R)) : pts.foldlM evalInt1 st = (live pts).foldlM evalInt st := by
  unfold live
  induction pts generalizing st with
  | nil => rfl
  | cons p pts ih =>
    rw [List.foldlM_cons]
    by_cases h : p.w = 0
    · rw [List.filter_cons_of_neg (by simp [h]), ← ih]
      unfold evalInt1
      rw [if_pos h]; rfl
    · rw [List.filter_cons_of_pos (by simp [h]), List.foldlM_cons]
      have : evalInt1 st p = evalInt st p := by unfold evalInt1; rw [if_neg h]
      rw [this]
      congr 1
      funext st'
      exact ih st'

theorem sum_live (pts : List (Pt R)) (g : Pt R → R) (hg : ∀ p, p.w = 0 → g p = 0) : ((live pts).map g).sum = (pts.map g).sum := by
  unfold live
  induction pts with
  | nil => rfl
  | cons p pts ih =>
    by_cases h : p.w = 0
    · rw [List.filter_cons_of_neg (by simp [h]), ih, List.map_cons, List.sum_cons, hg p h, zero_add]
    · rw [List.filter_cons_of_pos (by simp [h]), List.map_cons, List.sum_cons, ih, List.map_cons, List.sum_cons]

theorem flagNodes_spec (n : Nat) (hn2 : 2 ≤ n) (mnpc : List Nat) (hn : ∀ i ∈ mnpc, i < n) : ∀ (f : List Bool), f.length = n →
    ∃ f', flagNodes mnpc f = some f' ∧ f'.length = n ∧ ∀ r : Nat, SysMat.Flag f' ((r : Int) + 1) ↔ SysMat.Flag f ((r : Int) + 1) ∨ r ∈ mnpc := by
  unfold flagNodes
  induction mnpc with
  | nil => intro f hf; exact ⟨f, rfl, hf, fun r => by simp⟩
  | cons i m ih =>
    intro f hf
    have hi := hn i List.mem_cons_self
    obtain ⟨f1, a1, a2, a3⟩ := SysMat.set1?_flag f ((i : Int) + 1) (by omega) (by omega)
    obtain ⟨f2, b1, b2, b3⟩ := ih (fun i hi => hn i (List.mem_cons_of_mem _ hi)) f1 (a2.trans hf)
    refine ⟨f2, ?_, b2, fun r => ?_⟩
    · rw [List.foldlM_cons]
      have : SysMat.flagEq f ((i : Int) + 1) = some f1 := by
        unfold SysMat.flagEq
        rw [if_neg (by omega), if_neg (by omega), if_neg (by omega), a1]
      rw [this]; exact b1
    · rw [b3, a3, List.mem_cons]
      constructor
      · rintro ((h | h) | h)
        · exact Or.inl h
        · exact Or.inr (Or.inl (by omega))
        · exact Or.inr (Or.inr h)
      · rintro (h | h | h)
        · exact Or.inl (Or.inl h)
        · exact Or.inl (Or.inr (by omega))
        · exact Or.inr h

theorem flagNodes_one (mnpc : List Nat) (f : List Bool) (hf : f.length = 1) : ∃ f', flagNodes mnpc f = some f' ∧ f'.length = 1 := by
  unfold flagNodes
  induction mnpc generalizing f with
  | nil => exact ⟨f, rfl, hf⟩
  | cons i m ih =>
    obtain ⟨f', a1, a2⟩ := ih [true] rfl
    refine ⟨f', ?_, a2⟩
    rw [List.foldlM_cons]
    unfold SysMat.flagEq
    rw [if_pos hf]; exact a1

/-- What is measured in the loop over the elements, version 1. -/
theorem element1_adds (n nrhs : Nat) (P : Nat → Nat → Prop) (e : El R) (he : (∀ i ∈ e.mnpc, i < n) ∧ ∀ p ∈ e.pts, p.w ≠ 0 → p.N.length = e.mnpc.length ∧ ∃ f, p.f = some f ∧ f.length = nrhs)
    (hP : ∀ r ∈ e.mnpc, ∀ c ∈ e.mnpc, P r c) (st : (Sparse R × List Bool) × List R) (hst : L2Ready n nrhs P (st.1.1, st.2)) (hf : ∃ f', flagNodes e.mnpc st.1.2 = some f') :
    ∃ st', element1 n nrhs st e = some st' ∧ L2Ready n nrhs P (st'.1.1, st'.2) ∧ (e.mnpc ≠ [] → flagNodes e.mnpc st.1.2 = some st'.1.2) ∧ (e.mnpc = [] → st' = st) ∧
      ∀ q, l2m n (st'.1.1, st'.2) q = l2m n (st.1.1, st.2) q + ((e.pts.map fun p => p.w * val e.mnpc p q.1 * val e.mnpc p q.2.1).sum,
        if q.2.2 < nrhs then (e.pts.map fun p => p.w * val e.mnpc p q.1 * comp p q.2.2).sum else 0) := by
  by_cases h0 : e.mnpc = []
  · refine ⟨st, ?_, hst, fun h => absurd h0 h, fun _ => rfl, fun q => ?_⟩
    · unfold element1
      rw [if_pos (by simp [h0])]
    · have hz : ∀ p : Pt R, ∀ u, val e.mnpc p u = 0 := fun p u => by rw [h0]; rfl
      simp [hz]
  · obtain ⟨h1, h2⟩ := he
    obtain ⟨A, a1, a2⟩ := elmInt_loop e.mnpc.length nrhs (live e.pts) (fun p hp => by
      obtain ⟨hp1, hp2⟩ := List.mem_filter.1 hp
      exact h2 p hp1 (by simpa using hp2))
    obtain ⟨f', hf'⟩ := hf
    obtain ⟨M', b1, b2, b3⟩ := assembleA_adds (P := P) a2 e.mnpc rfl h1 hP st.1.1 hst.1
    obtain ⟨B', c1, c2, c3⟩ := assembleB_adds n nrhs (elB (live e.pts)) e.mnpc h1 st.2 hst.2
    refine ⟨((M', f'), B'.1), ?_, ⟨b2, c2⟩, fun _ => hf', fun h => absurd h h0, fun q => ?_⟩
    · unfold element1
      rw [if_neg (by simp [h0]), fold_live, a1]
      simp only [Option.bind_eq_bind, Option.bind_some]
      rw [hf', Option.bind_some, b1, Option.bind_some, c1]; rfl
    · refine Prod.ext ?_ ?_
      · refine (b3 (q.1, q.2.1)).trans ?_
        rw [elA_form, sum_live _ _ fun p hp => by rw [hp, zero_mul, zero_mul]]; rfl
      · refine (c3 (q.2.2, q.1)).trans ?_
        rw [elB_load, sum_live _ _ fun p hp => by rw [hp, zero_mul, zero_mul]]; rfl

/-- The loop over the elements, version 1. -/
theorem elements1_adds (n nrhs : Nat) (P : Nat → Nat → Prop) (FI : List Bool → Prop) (es : List (El R))
    (hes : Fits1 n nrhs es)
    (hP : ∀ e ∈ es, ∀ r ∈ e.mnpc, ∀ c ∈ e.mnpc, P r c) (hFI : ∀ e ∈ es, ∀ f, FI f → ∃ f', flagNodes e.mnpc f = some f' ∧ FI f')
    (st : (Sparse R × List Bool) × List R) (hst : L2Ready n nrhs P (st.1.1, st.2)) (hf : FI st.1.2) :
    ∃ st', es.foldlM (element1 n nrhs) st = some st' ∧ L2Ready n nrhs P (st'.1.1, st'.2) ∧ FI st'.1.2 ∧ (es.filter fun e => decide (e.mnpc ≠ [])).foldlM (fun f e => flagNodes e.mnpc f) st.1.2 = some st'.1.2 ∧
      ∀ q, l2m n (st'.1.1, st'.2) q = l2m n (st.1.1, st.2) q + (inner es q.1 q.2.1, if q.2.2 < nrhs then load es q.2.2 q.1 else 0) := by
  induction es generalizing st with
  | nil => exact ⟨st, rfl, hst, hf, rfl, fun q => by simp [inner, load, total]⟩
  | cons e es ih =>
    obtain ⟨f', g1, g2⟩ := hFI e List.mem_cons_self st.1.2 hf
    obtain ⟨st1, a1, a2, a3, a4, a5⟩ := element1_adds n nrhs P e (hes e List.mem_cons_self) (hP e List.mem_cons_self) st hst ⟨f', g1⟩
    have hf1 : FI st1.1.2 := by
      by_cases h0 : e.mnpc = []
      · rw [a4 h0]; exact hf
      · have := a3 h0
        rw [g1] at this
        rw [← Option.some.inj this]; exact g2
    obtain ⟨st2, b1, b2, b3, b4, b5⟩ := ih (fun e he => hes e (List.mem_cons_of_mem _ he)) (fun e he => hP e (List.mem_cons_of_mem _ he)) (fun e he => hFI e (List.mem_cons_of_mem _ he)) st1 a2 hf1
    refine ⟨st2, ?_, b2, b3, ?_, fun q => ?_⟩
    · rw [List.foldlM_cons, a1]; exact b1
    · by_cases h0 : e.mnpc = []
      · rw [List.filter_cons_of_neg (by simp [h0]), ← a4 h0]; exact b4
      · rw [List.filter_cons_of_pos (by simp [h0]), List.foldlM_cons, a3 h0]; exact b4
    · rw [b5, a5, add_assoc]
      congr 1
      unfold inner load total
      simp only [List.map_cons, List.sum_cons]
      refine Prod.ext rfl ?_
      show (if _ then _ else (0 : R)) + (if _ then _ else 0) = if _ then _ else 0
      by_cases h : q.2.2 < nrhs
      · rw [if_pos h, if_pos h, if_pos h]
      · rw [if_neg h, if_neg h, if_neg h, add_zero]

theorem flags_loop (n : Nat) (hn2 : 2 ≤ n) (es : List (El R)) (hes : ∀ e ∈ es, ∀ i ∈ e.mnpc, i < n) : ∀ (f f' : List Bool), f.length = n →
    (es.filter fun e => decide (e.mnpc ≠ [])).foldlM (fun f e => flagNodes e.mnpc f) f = some f' →
    f'.length = n ∧ ∀ r : Nat, SysMat.Flag f' ((r : Int) + 1) ↔ SysMat.Flag f ((r : Int) + 1) ∨ ∃ e ∈ es, r ∈ e.mnpc := by
  induction es with
  | nil => intro f f' hf h; cases h; exact ⟨hf, fun r => by simp⟩
  | cons e es ih =>
    intro f f' hf h
    by_cases h0 : e.mnpc = []
    · rw [List.filter_cons_of_neg (by simp [h0])] at h
      obtain ⟨a1, a2⟩ := ih (fun e he => hes e (List.mem_cons_of_mem _ he)) f f' hf h
      refine ⟨a1, fun r => ?_⟩
      rw [a2]; simp [h0]
    · rw [List.filter_cons_of_pos (by simp [h0]), List.foldlM_cons] at h
      obtain ⟨f1, b1, b2, b3⟩ := flagNodes_spec n hn2 e.mnpc (hes e List.mem_cons_self) f hf
      rw [b1] at h
      obtain ⟨a1, a2⟩ := ih (fun e he => hes e (List.mem_cons_of_mem _ he)) f1 f' b2 h
      refine ⟨a1, fun r => ?_⟩
      rw [a2, b3]; simp [or_assoc]

theorem get_zero (M : Sparse R) (r c : Nat) (h : r = 0 ∨ c = 0) : M.get? r c = some 0 := by
  unfold Sparse.get?
  rw [if_pos]
  unfold Sparse.inRange
  rcases h with rfl | rfl <;> simp

theorem end_flags (n : Nat) (hn : 2 ≤ n) (P : Nat → Nat → Prop) (hP : ∀ i < n, P i i) (M : Sparse R) (hM : Open n P M) (f : List Bool) (hf : f.length = n) :
    ∃ M' f', SysMat.endAssembly (fun M : Sparse R => M.nrow) Sparse.addDiag (M, f) = some (M', f') ∧ ∀ i k, i < n → k < n →
      (((∃ r, SysMat.Flag f r) ∧ i = k ∧ ¬ SysMat.Flag f ((i : Int) + 1)) → (M'.get? (i+1) (k+1)).getD 0 = (M.get? (i+1) (k+1)).getD 0 + 10 ^ 9) ∧
      (¬ ((∃ r, SysMat.Flag f r) ∧ i = k ∧ ¬ SysMat.Flag f ((i : Int) + 1)) → (M'.get? (i+1) (k+1)).getD 0 = (M.get? (i+1) (k+1)).getD 0) := by
  have hrow : ∀ M : Sparse R, Open n P M → M.nrow = n := fun M ⟨S, h1, h2, _⟩ => h1.nrow.trans h2
  obtain ⟨a1, a2⟩ := SysMat.end_spec (fun M : Sparse R => M.nrow) Sparse.addDiag (Open n P) (fun M r c => (M.get? r c).getD 0) M f (by omega) (by rw [hrow M hM]; omega) hM
    (fun i h1 h2 _ M hM => by
      obtain ⟨i, rfl⟩ : ∃ a, i = a + 1 := ⟨i - 1, by omega⟩
      obtain ⟨M', b1, b2, b3⟩ := open_modify hM (· + (10 ^ 9 : R)) i i (by omega) (by omega) (hP i (by omega))
      refine ⟨M', ?_, b2, fun r c => ?_⟩
      · unfold Sparse.addDiag
        rw [hrow M hM, if_neg (by omega), if_pos (by omega)]
        exact b1
      · by_cases h0 : r = 0 ∨ c = 0
        · rw [get_zero _ r c h0, get_zero _ r c h0, if_neg (by omega), add_zero]
        · obtain ⟨r, rfl⟩ : ∃ a, r = a + 1 := ⟨r - 1, by omega⟩
          obtain ⟨c, rfl⟩ : ∃ a, c = a + 1 := ⟨c - 1, by omega⟩
          rw [b3]
          obtain ⟨y, hy⟩ := open_get hM (r+1) (c+1)
          rw [hy]
          by_cases e : r = i ∧ c = i
          · rw [if_pos e, if_pos (by omega)]; rfl
          · rw [if_neg e, if_neg (by omega), add_zero])
  by_cases h : ∃ r, SysMat.Flag f r
  · obtain ⟨M', f', b1, -, -, -, b5⟩ := a2 h
    refine ⟨M', f', b1, fun i k hi hk => ⟨fun h => ?_, fun h' => ?_⟩⟩
    · rw [b5, if_pos]
      refine ⟨by omega, by omega, by omega, ?_⟩
      have := h.2.2
      push_cast
      exact this
    · rw [b5, if_neg, add_zero]
      rintro ⟨c1, -, -, c4⟩
      refine h' ⟨h, by omega, ?_⟩
      push_cast at c4
      exact c4
  · exact ⟨M, f, a1 h, fun i k _ _ => ⟨fun h' => absurd h'.1 h, fun _ => rfl⟩⟩

/-- The state after the loop over the elements of version 1. -/
theorem integrated1 (active threads : Bool) (n nrhs : Nat) (gmnpc : List (List Nat)) (es : List (El R)) (hn : active = true → 2 ≤ n)
    (hes : Fits1 n nrhs es) (hc : Covered threads n gmnpc gmnpc.length es) :
    ∃ M0 st, preAssemble threads ({ nrow := n, ncol := n, solver := .superlu } : Sparse R) gmnpc gmnpc.length = some M0 ∧
      es.foldlM (element1 n nrhs) ((M0, if active then SysMat.initFlags n else SysMat.newFlags), List.replicate (n * nrhs) 0) = some st ∧
      Open n (Used n es) st.1.1 ∧ st.2.length = n * nrhs ∧ (active = false → st.1.2.length = 1) ∧
      (active = true → st.1.2.length = n ∧ ∀ r : Nat, SysMat.Flag st.1.2 ((r : Int) + 1) ↔ ∃ e ∈ es, r ∈ e.mnpc) ∧
      (∀ v u, form n st.1.1 v u = inner es v u) ∧ ∀ j < nrhs, ∀ v, rhs n st.2 j v = load es j v := by
  obtain ⟨M0, a1, a2, a3, -⟩ := preAssemble_open threads n gmnpc gmnpc.length es (fun e he => (hes e he).1) hc
  have main : ∀ st : (Sparse R × List Bool) × List R, (∀ q, l2m n (st.1.1, st.2) q = l2m n (M0, List.replicate (n * nrhs) 0) q + (inner es q.1 q.2.1, if q.2.2 < nrhs then load es q.2.2 q.1 else 0)) →
      (∀ v u, form n st.1.1 v u = inner es v u) ∧ ∀ j < nrhs, ∀ v, rhs n st.2 j v = load es j v := by
    intro st b3
    refine ⟨fun v u => ?_, fun j hj v => ?_⟩
    · have := congrArg Prod.fst (b3 (v, u, 0))
      refine this.trans ?_
      show form n M0 v u + inner es v u = _
      rw [form_zero n M0 a3, zero_add]
    · have := congrArg Prod.snd (b3 (v, v, j))
      refine this.trans ?_
      show rhs n (List.replicate _ _) j v + (if j < nrhs then _ else _) = _
      rw [rhs_zero, zero_add, if_pos hj]
  have hP : ∀ e ∈ es, ∀ r ∈ e.mnpc, ∀ c ∈ e.mnpc, Used n es r c := fun e he r hr c hc => Or.inr ⟨e, he, hr, hc⟩
  cases active with
  | false =>
    obtain ⟨st, b1, b2, b3, -, b5⟩ := elements1_adds n nrhs (Used n es) (fun f => f.length = 1) es hes hP (fun e _ f hf => flagNodes_one e.mnpc f hf)
      ((M0, SysMat.newFlags), List.replicate (n * nrhs) 0) ⟨a2, by simp⟩ rfl
    exact ⟨M0, st, a1, b1, b2.1, b2.2, fun _ => b3, fun h => by simp at h, main st b5⟩
  | true =>
    have hn := hn rfl
    obtain ⟨st, b1, b2, b3, b4, b5⟩ := elements1_adds n nrhs (Used n es) (fun f => f.length = n) es hes hP (fun e he f hf => by
      obtain ⟨f', h1, h2, -⟩ := flagNodes_spec n hn e.mnpc (hes e he).1 f hf
      exact ⟨f', h1, h2⟩)
      ((M0, SysMat.initFlags n), List.replicate (n * nrhs) 0) ⟨a2, by simp⟩ (by simp [SysMat.initFlags])
    refine ⟨M0, st, a1, b1, b2.1, b2.2, fun h => by simp at h, fun _ => ⟨b3, fun r => ?_⟩, main st b5⟩
    rw [(flags_loop n hn es (fun e he => (hes e he).1) _ _ (by simp [SysMat.initFlags]) b4).2 r]
    simp [SysMat.initFlags_flag]

open Classical in
/-- The system of the first version: the same scalar products, completed by a large number for the nodes in no active element
if the patch has element activation. -/
theorem C74_system_first (active threads : Bool) (n nrhs : Nat) (gmnpc : List (List Nat)) (es : List (El R)) (hn : active = true → 2 ≤ n)
    (hes : Fits1 n nrhs es) (hc : Covered threads n gmnpc gmnpc.length es) :
    ∃ M B, system1 active threads n nrhs gmnpc es = some (M, B) ∧ B.length = n * nrhs ∧
      (∀ i k, i < n → k < n → (M.get? (i+1) (k+1)).getD 0 = inner es (single i) (single k) +
        if i = k ∧ active = true ∧ (∀ e ∈ es, i ∉ e.mnpc) ∧ (∃ e ∈ es, e.mnpc ≠ []) then 10 ^ 9 else 0) ∧
      (∀ i j, i < n → j < nrhs → B.getD (j * n + i) 0 = load es j (single i)) := by
  obtain ⟨M0, st, a1, a2, a3, a4, a5, a6, a7, a8⟩ := integrated1 active threads n nrhs gmnpc es hn hes hc
  have hval : ∀ i k, i < n → k < n → (st.1.1.get? (i+1) (k+1)).getD 0 = inner es (single i) (single k) := fun i k hi hk => by
    rw [← a7, form_single n _ i k hi hk]
  have hload : ∀ i j, i < n → j < nrhs → st.2.getD (j * n + i) 0 = load es j (single i) := fun i j hi hj => by
    rw [← a8 j hj, rhs_single n _ j i hi]
  cases active with
  | false =>
    refine ⟨st.1.1, st.2, ?_, a4, fun i k hi hk => ?_, hload⟩
    · unfold system1
      rw [a1]
      simp only [Option.bind_eq_bind, Option.bind_some]
      rw [a2, Option.bind_some]
      unfold SysMat.endAssembly
      rw [if_neg (by rw [a5 rfl]; omega)]; rfl
    · rw [hval i k hi hk, if_neg (by simp), add_zero]
  | true =>
    obtain ⟨c1, c2⟩ := a6 rfl
    obtain ⟨M', f', d1, d2⟩ := end_flags n (hn rfl) (Used n es) (fun i hi => Or.inl ⟨rfl, hi⟩) st.1.1 a3 st.1.2 c1
    refine ⟨M', st.2, ?_, a4, fun i k hi hk => ?_, hload⟩
    · unfold system1
      rw [a1]
      show (es.foldlM (element1 n nrhs) ((M0, if true = true then _ else _), _)).bind _ = _
      rw [a2, Option.bind_some]
      rw [show st.1 = (st.1.1, st.1.2) from rfl, d1]; rfl
    · have hflag : (∃ r, SysMat.Flag st.1.2 r) ↔ ∃ e ∈ es, e.mnpc ≠ [] := by
        constructor
        · rintro ⟨r, hr⟩
          have hpos : 1 ≤ r := by
            by_contra h
            unfold SysMat.Flag at1? at0? at hr
            rw [if_neg (by omega)] at hr
            simp at hr
          obtain ⟨a, rfl⟩ : ∃ a : Nat, r = (a : Int) + 1 := ⟨(r - 1).toNat, by omega⟩
          obtain ⟨e, he, h⟩ := (c2 a).1 hr
          exact ⟨e, he, List.ne_nil_of_mem h⟩
        · rintro ⟨e, he, h⟩
          obtain ⟨a, ha⟩ := List.exists_mem_of_ne_nil _ h
          exact ⟨_, (c2 a).2 ⟨e, he, ha⟩⟩
      rw [hflag] at d2
      obtain ⟨g1, g2⟩ := d2 i k hi hk
      rw [c2 i] at g1 g2
      by_cases h : i = k ∧ true = true ∧ (∀ e ∈ es, i ∉ e.mnpc) ∧ (∃ e ∈ es, e.mnpc ≠ [])
      · rw [if_pos h, g1 ⟨h.2.2.2, h.1, fun ⟨e, he, hi⟩ => h.2.2.1 e he hi⟩, hval i k hi hk]
      · rw [if_neg h, g2 (fun h' => h ⟨h'.2.1, rfl, fun e he hi => h'.2.2 ⟨e, he, hi⟩, h'.1⟩), hval i k hi hk, add_zero]

end

section
variable {R : Type} [Field R] [LinearOrder R] [IsStrictOrderedRing R]

/-- The solution of a system completed at nodes without contributions. -/
theorem completed_solution_at (n : Nat) (es : List (El R)) (hw : ∀ e ∈ es, ∀ p ∈ e.pts, 0 ≤ p.w) (j : Nat) (x : Nat → R) (κ : R) (hκ : κ ≠ 0) (Z : Nat → Prop) [DecidablePred Z]
    (hZ : ∀ i < n, Z i → inner es (single i) (single i) = 0)
    (h : ∀ i < n, ∑ k ∈ Finset.range n, (inner es (single i) (single k) + if i = k ∧ Z i then κ else 0) * x k = load es j (single i)) :
    (∀ i < n, Z i → x i = 0) ∧ ∀ i < n, ∑ k ∈ Finset.range n, inner es (single i) (single k) * x k = load es j (single i) := by
  have h1 : ∀ i < n, Z i → x i = 0 := by
    intro i hi h0
    obtain ⟨n1, n2⟩ := null_field es hw (single i) (hZ i hi h0)
    have := h i hi
    rw [n2 j, Finset.sum_eq_single i] at this
    · rw [if_pos ⟨rfl, h0⟩, n1, zero_add] at this
      exact (mul_eq_zero.1 this).resolve_left hκ
    · intro k _ hk
      rw [if_neg fun h => hk h.1.symm, n1, zero_add, zero_mul]
    · intro h; exact absurd (Finset.mem_range.2 hi) h
  refine ⟨h1, fun i hi => ?_⟩
  rw [← h i hi]
  refine Finset.sum_congr rfl fun k _ => ?_
  by_cases e : i = k ∧ Z i
  · rw [if_pos e]
    obtain ⟨rfl, e⟩ := e
    rw [h1 i hi e, mul_zero, mul_zero]
  · rw [if_neg e, add_zero]

omit [LinearOrder R] [IsStrictOrderedRing R] in
theorem untouched_inner (es : List (El R)) (i : Nat) (h : ∀ e ∈ es, i ∉ e.mnpc) (v : Nat → R) : inner es (single i) v = 0 := by
  unfold inner total
  refine List.sum_eq_zero fun x hx => ?_
  obtain ⟨e, he, rfl⟩ := List.mem_map.1 hx
  refine List.sum_eq_zero fun y hy => ?_
  obtain ⟨p, hp, rfl⟩ := List.mem_map.1 hy
  have : val e.mnpc p (single i) = 0 := by
    unfold val single
    refine Finset.sum_eq_zero fun a ha => ?_
    rw [if_neg, mul_zero]
    intro h'
    exact h e he (h' ▸ mem_getD e.mnpc a 0 (Finset.mem_range.1 ha))
  dsimp only
  rw [this, mul_zero, zero_mul]

/-- Replacing corner values changes the columns of the corners and nothing else; of equal corners the last one counts. -/
theorem enforceEnds_spec {r n m : Nat} (X : Mat R) (A : Matrix (Fin r) (Fin n) R) (hX : Rep X A) (S : Mat R) (C : Matrix (Fin r) (Fin m) R) (hS : Rep S C)
    (corners : List Nat) (hm : corners.length = m) (hc : ∀ c ∈ corners, 1 ≤ c ∧ c ≤ n) :
    ∃ X', enforceEnds X S corners = some X' ∧ ∃ A' : Matrix (Fin r) (Fin n) R, Rep X' A' ∧
      ∀ (i : Fin r) (k : Fin n), ((k.1 + 1) ∉ corners → A' i k = A i k) ∧
        ∀ a : Fin m, corners.getD a 0 = k.1 + 1 → (∀ b : Fin m, a < b → corners.getD b 0 ≠ k.1 + 1) → A' i k = C i a := by
  subst hm
  unfold enforceEnds
  have key : ∀ t, t ≤ corners.length → ∃ X', (List.range t).foldlM (fun (X : Mat R) (i : Nat) => do
      let c ← corners[i]?
      let v ← S.getColumn (i + 1)
      X.fillColumn c v) X = some X' ∧ ∃ A' : Matrix (Fin r) (Fin n) R, Rep X' A' ∧
      ∀ (i : Fin r) (k : Fin n), ((∀ b < t, corners.getD b 0 ≠ k.1 + 1) → A' i k = A i k) ∧
        ∀ a : Fin corners.length, a.1 < t → corners.getD a 0 = k.1 + 1 → (∀ b : Nat, a.1 < b → b < t → corners.getD b 0 ≠ k.1 + 1) → A' i k = C i a := by
    intro t
    induction t with
    | zero => intro _; exact ⟨X, rfl, A, hX, fun i k => ⟨fun _ => rfl, fun a ha => absurd ha (by omega)⟩⟩
    | succ t ih =>
      intro ht
      obtain ⟨X1, a1, A1, a2, a3⟩ := ih (by omega)
      obtain ⟨c1, c2⟩ := hc _ (mem_getD corners t 0 (by omega))
      obtain ⟨X2, b1, b2⟩ := C60_fillColumn a2 ⟨corners.getD t 0 - 1, by omega⟩ (List.ofFn fun i => C i ⟨t, by omega⟩)
      refine ⟨X2, ?_, _, b2, fun i k => ⟨fun h => ?_, fun a ha hak hlast => ?_⟩⟩
      · rw [List.range_succ, List.foldlM_append, a1]
        simp only [List.foldlM_cons, List.foldlM_nil, Option.bind_eq_bind, Option.bind_some]
        rw [list_get corners t 0 (by omega), Option.bind_some]
        have hg := C60_getColumn hS ⟨t, by omega⟩
        rw [hg, Option.bind_some]
        have e : corners.getD t 0 - 1 + 1 = corners.getD t 0 := by omega
        dsimp only at b1
        rw [e] at b1
        rw [b1]; rfl
      · have hk : k ≠ ⟨corners.getD t 0 - 1, by omega⟩ := fun e => h t (by omega) (by have := congrArg Fin.val e; dsimp only at this; omega)
        refine (if_neg hk).trans ?_
        exact (a3 i k).1 fun b hb => h b (by omega)
      · by_cases e : k = ⟨corners.getD t 0 - 1, by omega⟩
        · refine (if_pos e).trans ?_
          have hat : a.1 = t := by
            by_contra hne
            refine hlast t (by omega) (by omega) ?_
            have := congrArg Fin.val e; dsimp only at this; omega
          rw [List.getD_eq_getElem?_getD, List.getElem?_ofFn, dif_pos i.2]
          show C i _ = C i a
          congr 1
          exact Fin.ext hat.symm
        · refine (if_neg e).trans ?_
          have hat : a.1 ≠ t := fun h => e (Fin.ext (by
            show k.1 = corners.getD t 0 - 1
            rw [h] at hak; omega))
          exact (a3 i k).2 a (by omega) hak fun b hb hb' => hlast b hb (by omega)
  obtain ⟨X', a1, A', a2, a3⟩ := key corners.length (le_refl _)
  refine ⟨X', a1, A', a2, fun i k => ⟨fun h => (a3 i k).1 fun b hb e => h (e ▸ mem_getD corners b 0 hb), fun a ha hl => (a3 i k).2 a a.2 ha fun b hb hb' => hl ⟨b, hb'⟩ hb⟩⟩

/-- **C74** The first version gives the same nearest field; nodes in no active element get zero. -/
theorem C74_projection_first (solver : Sparse R → List R → Option (List R)) (active threads : Bool) (n nrhs : Nat) (gmnpc : List (List Nat)) (es : List (El R))
    (hn : 0 < n) (hn2 : active = true → 2 ≤ n) (hsol : Solver n solver) (hes : Fits1 n nrhs es) (hw : ∀ e ∈ es, ∀ p ∈ e.pts, 0 ≤ p.w)
    (hc : Covered threads n gmnpc gmnpc.length es) :
    ∃ M B, system1 active threads n nrhs gmnpc es = some (M, B) ∧ (solver M B = none → ∀ ends, project1 solver active threads n nrhs gmnpc es ends = none) ∧
      (solver M B ≠ none → ∃ X, project1 solver active threads n nrhs gmnpc es none = some X ∧ X.nrow = nrhs ∧ X.ncol = n ∧ X.elem.length = nrhs * n ∧
        (∀ j < nrhs, (∀ v, inner es v (nodal X j) = load es j v) ∧ (∀ c, dist2 es j (nodal X j) ≤ dist2 es j c) ∧
          (active = true → (∃ e ∈ es, e.mnpc ≠ []) → ∀ i < n, (∀ e ∈ es, i ∉ e.mnpc) → nodal X j i = 0)) ∧
        ∀ corners S, S.nrow = nrhs → S.ncol = corners.length → S.elem.length = nrhs * corners.length → (∀ c ∈ corners, 1 ≤ c ∧ c ≤ n) →
          ∃ Y, project1 solver active threads n nrhs gmnpc es (some (corners, S)) = some Y ∧ Y.nrow = nrhs ∧ Y.ncol = n ∧ ∀ j < nrhs, ∀ i < n,
            ((i + 1) ∉ corners → nodal Y j i = nodal X j i) ∧
            ∀ a < corners.length, corners.getD a 0 = i + 1 → (∀ b, a < b → b < corners.length → corners.getD b 0 ≠ i + 1) → nodal Y j i = nodal S j a) := by
  classical
  obtain ⟨M0, st, a1, a2, a3, a4, a5, a6, a7, a8⟩ := integrated1 active threads n nrhs gmnpc es hn2 hes hc
  obtain ⟨M, B, b1, b2, b3, b4⟩ := C74_system_first active threads n nrhs gmnpc es hn2 hes hc
  refine ⟨M, B, b1, fun h ends => ?_, fun h => ?_⟩
  · unfold project1
    rw [b1]
    simp only [Option.bind_eq_bind, Option.bind_some]
    rw [h]; rfl
  · obtain ⟨s, hs⟩ := Option.ne_none_iff_exists'.1 h
    obtain ⟨s1, s2⟩ := hsol M B s hs
    obtain ⟨X, c1, c2⟩ := arrange_rep n nrhs hn s (s1.trans b2)
    have hX : ∀ j < nrhs, ∀ i < n, nodal X j i = s.getD (j * n + i) 0 := by
      intro j hj i hi
      unfold nodal
      rw [rep_get1 c2 ⟨j, hj⟩ ⟨i, hi⟩]; rfl
    refine ⟨X, ?_, c2.rows, c2.cols, c2.size, fun j hj => ?_, fun corners S hS1 hS2 hS3 hcor => ?_⟩
    · unfold project1
      rw [b1]
      simp only [Option.bind_eq_bind, Option.bind_some]
      rw [hs, Option.bind_some, c1]; rfl
    · obtain ⟨d1, d2⟩ := completed_solution_at n es hw j (nodal X j) (10 ^ 9) (by positivity)
        (fun i => active = true ∧ (∀ e ∈ es, i ∉ e.mnpc) ∧ (∃ e ∈ es, e.mnpc ≠ [])) (fun i _ hi => untouched_inner es i hi.2.1 _) fun i hi => by
        have hlt : j * n + i < B.length := by
          rw [b2, Nat.mul_comm n]
          have := Nat.mul_le_mul_right n (Nat.succ_le_of_lt hj)
          rw [Nat.succ_mul] at this
          omega
        rw [← b4 i j hi hj, ← s2 j i hlt hi]
        refine Finset.sum_congr rfl fun k hk => ?_
        have hk := Finset.mem_range.1 hk
        rw [b3 i k hi hk, hX j hj k hk]
      have h2 := orthogonal n es st.1.1 st.2 j (nodal X j) a7 (a8 j hj) d2
      refine ⟨h2, fun c => ?_, fun ha he i hi hiu => d1 i hi ⟨ha, hiu, he⟩⟩
      rw [nearest es hw j (nodal X j) h2 c]
      exact le_add_of_nonneg_right (total_nonneg es _ fun e he p hp => mul_nonneg (hw e he p hp) (sq_nonneg _))
    · have hS : Rep S (Matrix.of fun (j : Fin nrhs) (a : Fin corners.length) => nodal S j a) := ⟨hS1, hS2, hS3, fun j a => by
        have hlt : j.1 + nrhs * a.1 < S.elem.length := by rw [hS3]; exact rep_idx j.2 a.2
        have : S.get? ((j : Int) + 1) ((a : Int) + 1) = S.elem[j.1 + nrhs * a.1]? := by
          unfold Mat.get?
          have h1 := j.2
          have h2 := a.2
          rw [if_pos (by omega), show ((j.1 : Int) + 1 - 1).toNat = j.1 by omega, show ((a.1 : Int) + 1 - 1).toNat = a.1 by omega, hS1]
        show _ = some (nodal S j a)
        unfold nodal
        rw [this, List.getElem?_eq_getElem hlt]; rfl⟩
      obtain ⟨Y, e1, A', e2, e3⟩ := enforceEnds_spec X _ c2 S _ hS corners rfl hcor
      refine ⟨Y, ?_, e2.rows, e2.cols, fun j hj i hi => ?_⟩
      · unfold project1
        rw [b1]
        simp only [Option.bind_eq_bind, Option.bind_some]
        rw [hs, Option.bind_some, c1]; exact e1
      · have hY : nodal Y j i = A' ⟨j, hj⟩ ⟨i, hi⟩ := by
          unfold nodal
          rw [rep_get1 e2 ⟨j, hj⟩ ⟨i, hi⟩]; rfl
        obtain ⟨f1, f2⟩ := e3 ⟨j, hj⟩ ⟨i, hi⟩
        refine ⟨fun h => ?_, fun a ha hai hl => ?_⟩
        · rw [hY, f1 h, hX j hj i hi]; rfl
        · rw [hY, f2 ⟨a, ha⟩ hai fun b hb => hl b hb b.2]; rfl

end
end IFEM.Props
