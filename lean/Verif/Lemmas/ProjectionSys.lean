import Verif.Lemmas.Projection
import Mathlib.Algebra.Order.Field.Basic
import Mathlib.Tactic.Linarith
import Mathlib.Tactic.Positivity
/-!
# Lemmas on the system of the L2-projection
-/
namespace IFEM.Lem
open IFEM IFEM.L2 IFEM.Spec IFEM.Spec.L2 IFEM.Weak

variable {R : Type} [Field R]

/-- An open pattern of zeros with the given positions (from 0). -/
def Pat (n : Nat) (D : Nat → Nat → Prop) (M : Sparse R) : Prop :=
  ∃ S : SpAbs R, Impl M S ∧ S.nrow = n ∧ S.ncol = n ∧ S.mode = .pattern ∧ (∀ i k, S.val i k = 0) ∧ M.solver = .superlu ∧ ∀ r c, D r c → S.has (r+1) (c+1)

theorem pat_empty (n : Nat) : Pat n (fun _ _ => False) ({ nrow := n, ncol := n, solver := .superlu } : Sparse R) :=
  ⟨_, impl_empty n n .superlu, rfl, rfl, rfl, fun _ _ => rfl, rfl, fun _ _ h => h.elim⟩

theorem pat_mono {n : Nat} {D D' : Nat → Nat → Prop} {M : Sparse R} (h : Pat n D M) (hD : ∀ r c, D' r c → D r c) : Pat n D' M := by
  obtain ⟨S, a1, a2, a3, a4, a5, a6, a7⟩ := h
  exact ⟨S, a1, a2, a3, a4, a5, a6, fun r c h => a7 r c (hD r c h)⟩

theorem pat_set {n : Nat} {D : Nat → Nat → Prop} {M : Sparse R} (h : Pat n D M) (r c : Nat) (hr : r < n) (hc : c < n) :
    ∃ M', M.setAt? (r+1) (c+1) 0 = some M' ∧ Pat n (fun i k => (i = r ∧ k = c) ∨ D i k) M' := by
  obtain ⟨S, h1, h2, h3, h4, h5, h6, h7⟩ := h
  obtain ⟨g1, g2, g3⟩ := impl_update h1 (r+1) (c+1) (fun _ => (0 : R))
  have hin : (1 ≤ r+1 ∧ r+1 ≤ S.nrow ∧ 1 ≤ c+1 ∧ c+1 ≤ S.ncol) ∧ (S.mode = .pattern ∨ S.has (r+1) (c+1)) := ⟨⟨by omega, by omega, by omega, by omega⟩, Or.inl h4⟩
  obtain ⟨M', hM'⟩ := Option.isSome_iff_exists.1 (g3.2 hin)
  rw [hM'] at g1 g2
  have hS : S.update (r+1) (c+1) (fun _ => (0 : R)) = { S with
      has := fun i j => (i = r+1 ∧ j = c+1) ∨ S.has i j
      val := fun i j => if i = r+1 ∧ j = c+1 then 0 else S.val i j } := by
    unfold SpAbs.update
    rw [if_pos hin]
  rw [hS] at g1
  refine ⟨M', hM', _, g1, h2, h3, h4, fun i k => ?_, g2.trans h6, fun i k hik => ?_⟩
  · dsimp only
    rw [h5]; exact ite_self _
  · rcases hik with ⟨rfl, rfl⟩ | h
    · exact Or.inl ⟨rfl, rfl⟩
    · exact Or.inr (h7 _ _ h)

/-- A loop over a pattern. -/
theorem pat_loop {X : Type} (n : Nat) (f : Sparse R → X → Option (Sparse R)) (E : X → Nat → Nat → Prop) (L : List X)
    (h : ∀ x ∈ L, ∀ D M, Pat n D M → ∃ M', f M x = some M' ∧ Pat n (fun i k => E x i k ∨ D i k) M') (D : Nat → Nat → Prop) (M : Sparse R) (hM : Pat n D M) :
    ∃ M', L.foldlM f M = some M' ∧ Pat n (fun i k => (∃ x ∈ L, E x i k) ∨ D i k) M' := by
  induction L generalizing M D with
  | nil => exact ⟨M, rfl, pat_mono hM fun r c h => by simpa using h⟩
  | cons x L ih =>
    obtain ⟨M1, a1, a2⟩ := h x List.mem_cons_self D M hM
    obtain ⟨M2, b1, b2⟩ := ih (fun x hx => h x (List.mem_cons_of_mem _ hx)) _ M1 a2
    refine ⟨M2, by rw [List.foldlM_cons, a1]; exact b1, pat_mono b2 fun r c h => ?_⟩
    rcases h with ⟨y, hy, h'⟩ | h
    · rcases List.mem_cons.1 hy with rfl | hy
      · exact Or.inr (Or.inl h')
      · exact Or.inl ⟨y, hy, h'⟩
    · exact Or.inr (Or.inr h)

theorem preNode_pat {n : Nat} (mnpc : List Nat) (hn : ∀ i ∈ mnpc, i < n) (j : Nat) (hj : j < mnpc.length) (D : Nat → Nat → Prop) (M : Sparse R) (hM : Pat n D M) :
    ∃ M', preNode mnpc M j = some M' ∧ Pat n (fun r c => (∃ i, i ≤ j ∧ ((r = mnpc.getD i 0 ∧ c = mnpc.getD j 0) ∨ (r = mnpc.getD j 0 ∧ c = mnpc.getD i 0))) ∨ D r c) M' := by
  have hjn := hn _ (mem_getD mnpc j 0 hj)
  obtain ⟨M1, a1, a2⟩ := pat_set hM (mnpc.getD j 0) (mnpc.getD j 0) hjn hjn
  obtain ⟨M2, b1, b2⟩ := pat_loop n (fun (M : Sparse R) (i : Nat) => do
    let inod ← mnpc[i]?
    prePair M inod (mnpc.getD j 0)) (fun i r c => (r = mnpc.getD i 0 ∧ c = mnpc.getD j 0) ∨ (r = mnpc.getD j 0 ∧ c = mnpc.getD i 0)) (List.range j) (fun i hi D M hM => by
      have hi := List.mem_range.1 hi
      have hin := hn _ (mem_getD mnpc i 0 (by omega))
      obtain ⟨M1, c1, c2⟩ := pat_set hM (mnpc.getD j 0) (mnpc.getD i 0) hjn hin
      obtain ⟨M2, d1, d2⟩ := pat_set c2 (mnpc.getD i 0) (mnpc.getD j 0) hin hjn
      refine ⟨M2, ?_, pat_mono d2 fun r c h => ?_⟩
      · rw [list_get mnpc i 0 (by omega)]
        show prePair M _ _ = _
        unfold prePair
        rw [c1]; exact d1
      · rcases h with (h | h) | h
        · exact Or.inl h
        · exact Or.inr (Or.inl h)
        · exact Or.inr (Or.inr h)) _ M1 a2
  refine ⟨M2, ?_, pat_mono b2 fun r c h => ?_⟩
  · unfold preNode
    rw [list_get mnpc j 0 hj]
    simp only [Option.bind_eq_bind, Option.bind_some]
    rw [a1]
    exact b1
  · rcases h with ⟨i, hi, h⟩ | h
    · by_cases e : i = j
      · subst e
        refine Or.inr (Or.inl ?_)
        rcases h with h | h <;> exact ⟨h.1, h.2⟩
      · exact Or.inl ⟨i, List.mem_range.2 (by omega), h⟩
    · exact Or.inr (Or.inr h)

theorem element_pat {n : Nat} (mnpc : List Nat) (hn : ∀ i ∈ mnpc, i < n) (D : Nat → Nat → Prop) (M : Sparse R) (hM : Pat n D M) :
    ∃ M', (List.range mnpc.length).foldlM (preNode mnpc) M = some M' ∧ Pat n (fun r c => (r ∈ mnpc ∧ c ∈ mnpc) ∨ D r c) M' := by
  obtain ⟨M2, b1, b2⟩ := pat_loop n (preNode mnpc) (fun j r c => ∃ i, i ≤ j ∧ ((r = mnpc.getD i 0 ∧ c = mnpc.getD j 0) ∨ (r = mnpc.getD j 0 ∧ c = mnpc.getD i 0)))
    (List.range mnpc.length) (fun j hj D M hM => preNode_pat mnpc hn j (List.mem_range.1 hj) D M hM) D M hM
  refine ⟨M2, b1, pat_mono b2 fun r c h => ?_⟩
  rcases h with ⟨hr, hc⟩ | h
  · obtain ⟨a, ha, rfl⟩ := List.getElem_of_mem hr
    obtain ⟨b, hb, rfl⟩ := List.getElem_of_mem hc
    have ea : mnpc.getD a 0 = mnpc[a] := by rw [List.getD_eq_getElem?_getD, List.getElem?_eq_getElem ha]; rfl
    have eb : mnpc.getD b 0 = mnpc[b] := by rw [List.getD_eq_getElem?_getD, List.getElem?_eq_getElem hb]; rfl
    by_cases h : a ≤ b
    · exact Or.inl ⟨b, List.mem_range.2 hb, a, h, Or.inl ⟨ea.symm, eb.symm⟩⟩
    · exact Or.inl ⟨a, List.mem_range.2 ha, b, by omega, Or.inr ⟨ea.symm, eb.symm⟩⟩
  · exact Or.inr h

theorem form_zero (n : Nat) (M : Sparse R) (h : ∀ i k, M.get? (i+1) (k+1) = some 0) (v u : Nat → R) : form n M v u = 0 := by
  unfold form
  refine Finset.sum_eq_zero fun i _ => Finset.sum_eq_zero fun k _ => ?_
  rw [h]; simp

theorem preAssemble_open (threads : Bool) (n : Nat) (MMNPC : List (List Nat)) (nel : Nat) (es : List (El R)) (hes : ∀ e ∈ es, ∀ i ∈ e.mnpc, i < n)
    (hc : Covered threads n MMNPC nel es) :
    ∃ M, preAssemble threads ({ nrow := n, ncol := n, solver := .superlu } : Sparse R) MMNPC nel = some M ∧ Open n (Used n es) M ∧ (∀ i k, M.get? (i+1) (k+1) = some 0) ∧ M.nrow = n := by
  cases threads with
  | false =>
    refine ⟨_, rfl, ⟨_, impl_empty n n .superlu, rfl, rfl, fun r c _ => Or.inl rfl⟩, fun i k => ?_, rfl⟩
    exact Impl.val (impl_empty n n .superlu) _ _
  | true =>
    obtain ⟨h1, h2, h3⟩ := hc rfl
    unfold preAssemble
    rw [if_pos rfl]
    obtain ⟨M1, a1, S, b1, b2, b3, b4, b5, b6, b7⟩ := pat_loop n (fun (M : Sparse R) (mnpc : List Nat) => (List.range mnpc.length).foldlM (preNode mnpc) M) (fun m r c => r ∈ m ∧ c ∈ m)
      (MMNPC.take (if nel = 0 then MMNPC.length else nel)) (fun m hm D M hM => element_pat m (h1 m hm) D M hM) _ _ (pat_empty n)
    obtain ⟨c1, -, c3⟩ := impl_compress b1
    obtain ⟨M2, hM2⟩ := Option.isSome_iff_exists.1 (c3.2 (Or.inr (by rw [b4]; decide)))
    rw [hM2, if_neg (by rw [b6]; decide)] at c1
    refine ⟨M2, ?_, ⟨_, c1, b2, b3, fun r c h => Or.inr ?_⟩, fun i k => ?_, ?_⟩
    · rw [a1]; exact hM2
    · refine b7 r c (Or.inl ?_)
      rcases h with ⟨rfl, h⟩ | ⟨e, he, hr, hc⟩
      · obtain ⟨m, hm, hi⟩ := h2 r h
        exact ⟨m, hm, hi, hi⟩
      · exact ⟨e.mnpc, h3 e he, hr, hc⟩
    · exact (Impl.val c1 _ _).trans (congrArg some (b5 _ _))
    · exact c1.nrow.trans b2

/-- The entries after the diagonal has been completed. -/
theorem fixDiag_loop [DecidableEq R] (n : Nat) (P : Nat → Nat → Prop) (hP : ∀ i < n, P i i) (M : Sparse R) (hM : Open n P M) :
    ∃ M', (List.range' 1 n).foldlM fixDiag M = some M' ∧ Open n P M' ∧ ∀ i k, i < n →
      M'.get? (i+1) (k+1) = (M.get? (i+1) (k+1)).map fun x => if i = k ∧ x = 0 then 1 else x := by
  have one : ∀ M : Sparse R, Open n P M → ∀ r < n, ∃ M', fixDiag M (r+1) = some M' ∧ Open n P M' ∧ ∀ i k,
      M'.get? (i+1) (k+1) = (M.get? (i+1) (k+1)).map fun x => if i = r ∧ k = r ∧ x = 0 then 1 else x := by
    intro M hM r hr
    obtain ⟨M1, a1, a2, a3⟩ := open_modify hM id r r hr hr (hP r hr)
    obtain ⟨x, hx⟩ := open_get hM (r+1) (r+1)
    have hx1 : M1.get? (r+1) (r+1) = some x := by rw [a3 r r, if_pos ⟨rfl, rfl⟩, hx]; rfl
    have a3' : ∀ i k, M1.get? (i+1) (k+1) = M.get? (i+1) (k+1) := fun i k => by
      rw [a3]
      by_cases e : i = r ∧ k = r
      · rw [if_pos e]; exact Option.map_id'
      · rw [if_neg e]
    by_cases h : x = 0
    · obtain ⟨M2, b1, b2, b3⟩ := open_modify a2 (fun _ => (1 : R)) r r hr hr (hP r hr)
      refine ⟨M2, ?_, b2, fun i k => ?_⟩
      · unfold fixDiag
        rw [a1]
        simp only [Option.bind_eq_bind, Option.bind_some]
        rw [hx1, Option.bind_some, if_pos h]; exact b1
      · rw [b3, a3']
        by_cases e : i = r ∧ k = r
        · obtain ⟨rfl, rfl⟩ := e
          rw [if_pos ⟨rfl, rfl⟩, hx, h]; simp
        · rw [if_neg e]
          obtain ⟨y, hy⟩ := open_get hM (i+1) (k+1)
          rw [hy, Option.map_some, if_neg fun h => e ⟨h.1, h.2.1⟩]
    · refine ⟨M1, ?_, a2, fun i k => ?_⟩
      · unfold fixDiag
        rw [a1]
        simp only [Option.bind_eq_bind, Option.bind_some]
        rw [hx1, Option.bind_some, if_neg h]
      · rw [a3']
        obtain ⟨y, hy⟩ := open_get hM (i+1) (k+1)
        rw [hy, Option.map_some]
        by_cases e : i = r ∧ k = r ∧ y = 0
        · obtain ⟨rfl, rfl, e⟩ := e
          rw [hx] at hy
          exact absurd (Option.some.inj hy ▸ e) h
        · rw [if_neg e]
  have key : ∀ m, m ≤ n → ∃ M', (List.range' 1 m).foldlM fixDiag M = some M' ∧ Open n P M' ∧ ∀ i k,
      M'.get? (i+1) (k+1) = (M.get? (i+1) (k+1)).map fun x => if i < m ∧ i = k ∧ x = 0 then 1 else x := by
    intro m
    induction m with
    | zero => intro _; exact ⟨M, rfl, hM, fun i k => by simp⟩
    | succ m ih =>
      intro hm
      obtain ⟨M1, a1, a2, a3⟩ := ih (by omega)
      obtain ⟨M2, b1, b2, b3⟩ := one M1 a2 m (by omega)
      refine ⟨M2, ?_, b2, fun i k => ?_⟩
      · rw [List.range'_1_concat, List.foldlM_append, a1]
        simp only [List.foldlM_cons, List.foldlM_nil, Option.bind_eq_bind, Option.bind_some]
        rw [Nat.add_comm 1 m, b1]; rfl
      · rw [b3, a3]
        obtain ⟨y, hy⟩ := open_get hM (i+1) (k+1)
        rw [hy, Option.map_some, Option.map_some, Option.map_some]
        refine congrArg some ?_
        by_cases h1 : i < m ∧ i = k ∧ y = 0
        · rw [if_pos h1, if_pos (⟨by omega, h1.2.1, h1.2.2⟩ : i < m + 1 ∧ i = k ∧ y = 0)]
          exact ite_self _
        · rw [if_neg h1]
          by_cases h2 : i = m ∧ k = m ∧ y = 0
          · rw [if_pos h2, if_pos (⟨by omega, by omega, h2.2.2⟩ : i < m + 1 ∧ i = k ∧ y = 0)]
          · rw [if_neg h2, if_neg]
            intro h3
            by_cases e : i = m
            · exact h2 ⟨e, by omega, h3.2.2⟩
            · exact h1 ⟨by omega, h3.2⟩
  obtain ⟨M', a1, a2, a3⟩ := key n (le_refl _)
  refine ⟨M', a1, a2, fun i k hi => ?_⟩
  rw [a3]
  simp [hi]

end IFEM.Lem
