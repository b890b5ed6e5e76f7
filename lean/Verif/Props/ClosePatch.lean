import Verif.Lemmas.ClosePatch
import Mathlib.Tactic.FinCases
import Mathlib.Data.Fin.VecNotation
import Mathlib.Data.Fintype.Basic
import Mathlib.Data.Fintype.Defs
/-!
# C86: closing of the boundaries of a patch
-/
namespace IFEM.ClosePatch
open IFEM IFEM.Spec IFEM.Props Spec
variable {K : Type} [Field K] [LinearOrder K]

theorem gridNode_inj {start : Nat} {n x y : Fin 3 → Nat} (hx : InGrid n x) (hy : InGrid n y) (h : gridNode start n x = gridNode start n y) : x = y := by
  unfold gridNode at h
  have h' : x 0 + n 0 * (x 1 + n 1 * x 2) = y 0 + n 0 * (y 1 + n 1 * y 2) := by omega
  have h0 : x 0 = y 0 := by
    have := congrArg (· % n 0) h'
    simpa [Nat.add_mul_mod_self_left, Nat.mod_eq_of_lt (hx 0), Nat.mod_eq_of_lt (hy 0)] using this
  have hn0 : 0 < n 0 := by have := hx 0; omega
  have h1' : x 1 + n 1 * x 2 = y 1 + n 1 * y 2 := by
    rw [h0] at h'
    exact Nat.eq_of_mul_eq_mul_left hn0 (by omega)
  have h1 : x 1 = y 1 := by
    have := congrArg (· % n 1) h1'
    simpa [Nat.add_mul_mod_self_left, Nat.mod_eq_of_lt (hx 1), Nat.mod_eq_of_lt (hy 1)] using this
  have hn1 : 0 < n 1 := by have := hx 1; omega
  have h2 : x 2 = y 2 := Nat.eq_of_mul_eq_mul_left hn1 (by omega)
  funext d
  fin_cases d <;> assumption

theorem gridNode_range {start : Nat} {n x : Fin 3 → Nat} (hx : InGrid n x) : start ≤ gridNode start n x ∧ gridNode start n x < start + n 0 * n 1 * n 2 := by
  unfold gridNode
  have h0 := hx 0; have h1 := hx 1; have h2 := hx 2
  have e1 : x 1 + n 1 * x 2 + 1 ≤ n 1 * n 2 := by
    calc x 1 + n 1 * x 2 + 1 ≤ n 1 + n 1 * x 2 := by omega
      _ = n 1 * (x 2 + 1) := by ring
      _ ≤ n 1 * n 2 := Nat.mul_le_mul_left _ h2
  have e2 : n 0 * (x 1 + n 1 * x 2) + n 0 ≤ n 0 * n 1 * n 2 := by
    calc n 0 * (x 1 + n 1 * x 2) + n 0 = n 0 * (x 1 + n 1 * x 2 + 1) := by ring
      _ ≤ n 0 * (n 1 * n 2) := Nat.mul_le_mul_left _ e1
      _ = n 0 * n 1 * n 2 := by ring
  omega

theorem grid_pairwise {α : Type} (R : α → α → Prop) (a b : Nat) (F : Nat → Nat → α) (h : ∀ k j k' j', k < a → j < b → k' < a → j' < b → (k ≠ k' ∨ j ≠ j') → R (F k j) (F k' j')) :
    ((List.range a).flatMap fun k => (List.range b).map fun j => F k j).Pairwise R := by
  rw [List.pairwise_flatMap]
  refine ⟨fun k hk => ?_, ?_⟩
  · rw [List.pairwise_map]
    refine List.Pairwise.imp_of_mem ?_ List.pairwise_lt_range
    intro j j' hj hj' hlt
    exact h k j k j' (List.mem_range.mp hk) (List.mem_range.mp hj) (List.mem_range.mp hk) (List.mem_range.mp hj') (Or.inr (by omega))
  · refine List.Pairwise.imp_of_mem ?_ List.pairwise_lt_range
    intro k k' hk hk' hlt x hx y hy
    obtain ⟨j, hj, rfl⟩ := List.mem_map.mp hx
    obtain ⟨j', hj', rfl⟩ := List.mem_map.mp hy
    exact h k j k' j' (List.mem_range.mp hk) (List.mem_range.mp hj) (List.mem_range.mp hk') (List.mem_range.mp hj') (Or.inl (by omega))

/-- The grid point with the index in direction `d` replaced. -/
abbrev put (x : Fin 3 → Nat) (d : Fin 3) (v : Nat) : Fin 3 → Nat := Function.update x d v

/-- The calls for one direction: all pairs of opposite grid points, each once. -/
theorem calls3D_spec (start : Nat) (n : Fin 3 → Nat) (hn : ∀ d, 1 ≤ n d) (d : Fin 3) :
    (calls3D (d.1 + 1) (n 0) (n 1) (n 2) start).Pairwise Apart ∧
    ∀ p, p ∈ calls3D (d.1 + 1) (n 0) (n 1) (n 2) start ↔ ∃ x, InGrid n x ∧ x d = 0 ∧ p = (gridNode start n x, gridNode start n (put x d (n d - 1))) := by
  have apart : ∀ x y : Fin 3 → Nat, InGrid n x → InGrid n y → x d = 0 → y d = 0 → x ≠ y → Apart (gridNode start n x, gridNode start n (put x d (n d - 1))) (gridNode start n y, gridNode start n (put y d (n d - 1))) := by
    intro x y hx hy hx0 hy0 hne
    have hp : ∀ z : Fin 3 → Nat, InGrid n z → InGrid n (put z d (n d - 1)) := by
      intro z hz e
      by_cases he : e = d
      · subst he; simp [put]; exact hn e
      · simp [put, Function.update_of_ne he]; exact hz e
    have hne' : ∃ e, e ≠ d ∧ x e ≠ y e := by
      by_contra hc
      push Not at hc
      apply hne
      funext e
      by_cases he : e = d
      · rw [he, hx0, hy0]
      · exact hc e he
    obtain ⟨e, he, hxy⟩ := hne'
    refine ⟨fun h => hne (gridNode_inj hx hy h), fun h => ?_, fun h => ?_, fun h => ?_⟩
    · have := congrFun (gridNode_inj hx (hp y hy) h) e
      simp [put, Function.update_of_ne he] at this; exact hxy this
    · have := congrFun (gridNode_inj (hp x hx) hy h) e
      simp [put, Function.update_of_ne he] at this; exact hxy this
    · have := congrFun (gridNode_inj (hp x hx) (hp y hy) h) e
      simp [put, Function.update_of_ne he] at this; exact hxy this
  have h0 := hn 0; have h1 := hn 1; have h2 := hn 2
  obtain ⟨e0, he0⟩ : ∃ e, n 0 = e + 1 := ⟨n 0 - 1, by omega⟩
  obtain ⟨e1, he1⟩ : ∃ e, n 1 = e + 1 := ⟨n 1 - 1, by omega⟩
  obtain ⟨e2, he2⟩ : ∃ e, n 2 = e + 1 := ⟨n 2 - 1, by omega⟩
  fin_cases d
  · have e : calls3D 1 (n 0) (n 1) (n 2) start = (List.range (n 2)).flatMap fun k => (List.range (n 1)).map fun j => (gridNode start n ![0, j, k], gridNode start n (put ![0, j, k] 0 (n 0 - 1))) := by
      rw [calls3D, if_pos rfl, callsOuter_eq _ _ (n 0 * n 1) (fun m => by rw [callsI_eq]; rfl)]
      congr 1
      funext k
      rw [callsI_eq]
      apply List.map_congr_left
      intro j _
      simp [gridNode, put, he0]
      constructor <;> ring
    refine ⟨?_, fun p => ?_⟩
    · show (calls3D 1 (n 0) (n 1) (n 2) start).Pairwise Apart
      rw [e]
      refine grid_pairwise _ _ _ _ (fun k j k' j' hk hj hk' hj' hne => apart _ _ ?_ ?_ rfl rfl ?_)
      · intro d; fin_cases d <;> simp <;> assumption
      · intro d; fin_cases d <;> simp <;> assumption
      · intro h
        have a1 := congrFun h 1; have a2 := congrFun h 2
        simp at a1 a2
        omega
    · show p ∈ calls3D 1 (n 0) (n 1) (n 2) start ↔ _
      rw [e]
      simp only [List.mem_flatMap, List.mem_map, List.mem_range]
      constructor
      · rintro ⟨k, hk, j, hj, rfl⟩
        exact ⟨![0, j, k], by intro d; fin_cases d <;> simp <;> assumption, rfl, rfl⟩
      · rintro ⟨x, hx, hx0, rfl⟩
        have hxe : x = ![0, x 1, x 2] := by funext d; fin_cases d <;> simp; exact hx0
        exact ⟨x 2, hx 2, x 1, hx 1, by rw [← hxe]; rfl⟩
  · have e : calls3D 2 (n 0) (n 1) (n 2) start = (List.range (n 2)).flatMap fun k => (List.range (n 0)).map fun i => (gridNode start n ![i, 0, k], gridNode start n (put ![i, 0, k] 1 (n 1 - 1))) := by
      rw [calls3D, if_neg (by omega), if_pos rfl, callsOuter_eq _ _ (n 0 * n 1) (fun m => by rw [callsStep_eq, he1]; simp; ring)]
      congr 1
      funext k
      rw [callsStep_eq]
      apply List.map_congr_left
      intro i _
      simp [gridNode, put, he1]
      constructor <;> ring
    refine ⟨?_, fun p => ?_⟩
    · show (calls3D 2 (n 0) (n 1) (n 2) start).Pairwise Apart
      rw [e]
      refine grid_pairwise _ _ _ _ (fun k j k' j' hk hj hk' hj' hne => apart _ _ ?_ ?_ rfl rfl ?_)
      · intro d; fin_cases d <;> simp <;> assumption
      · intro d; fin_cases d <;> simp <;> assumption
      · intro h
        have a1 := congrFun h 0; have a2 := congrFun h 2
        simp at a1 a2
        omega
    · show p ∈ calls3D 2 (n 0) (n 1) (n 2) start ↔ _
      rw [e]
      simp only [List.mem_flatMap, List.mem_map, List.mem_range]
      constructor
      · rintro ⟨k, hk, j, hj, rfl⟩
        exact ⟨![j, 0, k], by intro d; fin_cases d <;> simp <;> assumption, rfl, rfl⟩
      · rintro ⟨x, hx, hx0, rfl⟩
        have hxe : x = ![x 0, 0, x 2] := by funext d; fin_cases d <;> simp; exact hx0
        exact ⟨x 2, hx 2, x 0, hx 0, by rw [← hxe]; rfl⟩
  · have e : calls3D 3 (n 0) (n 1) (n 2) start = (List.range (n 1)).flatMap fun j => (List.range (n 0)).map fun i => (gridNode start n ![i, j, 0], gridNode start n (put ![i, j, 0] 2 (n 2 - 1))) := by
      rw [calls3D, if_neg (by omega), if_neg (by omega), if_pos rfl, callsOuter_eq _ _ (n 0) (fun m => by rw [callsStep_eq]; rfl)]
      congr 1
      funext k
      rw [callsStep_eq]
      apply List.map_congr_left
      intro i _
      simp [gridNode, put, he2]
      constructor <;> ring
    refine ⟨?_, fun p => ?_⟩
    · show (calls3D 3 (n 0) (n 1) (n 2) start).Pairwise Apart
      rw [e]
      refine grid_pairwise _ _ _ _ (fun k j k' j' hk hj hk' hj' hne => apart _ _ ?_ ?_ rfl rfl ?_)
      · intro d; fin_cases d <;> simp <;> assumption
      · intro d; fin_cases d <;> simp <;> assumption
      · intro h
        have a1 := congrFun h 0; have a2 := congrFun h 1
        simp at a1 a2
        omega
    · show p ∈ calls3D 3 (n 0) (n 1) (n 2) start ↔ _
      rw [e]
      simp only [List.mem_flatMap, List.mem_map, List.mem_range]
      constructor
      · rintro ⟨k, hk, j, hj, rfl⟩
        exact ⟨![j, k, 0], by intro d; fin_cases d <;> simp <;> assumption, rfl, rfl⟩
      · rintro ⟨x, hx, hx0, rfl⟩
        have hxe : x = ![x 0, x 1, 0] := by funext d; fin_cases d <;> simp; exact hx0
        exact ⟨x 1, hx 1, x 0, hx 0, by rw [← hxe]; rfl⟩

/-- The grid point at the opposite end in direction `d`, or the point itself. -/
def other (n : Fin 3 → Nat) (d : Fin 3) (x : Fin 3 → Nat) : Fin 3 → Nat :=
  if x d = 0 then put x d (n d - 1) else if x d + 1 = n d then put x d 0 else x

theorem put_grid {n x : Fin 3 → Nat} {d : Fin 3} {v : Nat} (hx : InGrid n x) (hv : v < n d) : InGrid n (put x d v) := by
  intro e
  by_cases he : e = d
  · subst he; simpa [put] using hv
  · simpa [put, Function.update_of_ne he] using hx e

theorem other_grid {n x : Fin 3 → Nat} (d : Fin 3) (hx : InGrid n x) : InGrid n (other n d x) := by
  have := hx d
  unfold other
  split
  · exact put_grid hx (by omega)
  · split
    · exact put_grid hx (by omega)
    · exact hx

theorem other_ne {n x : Fin 3 → Nat} {d e : Fin 3} (he : e ≠ d) : other n d x e = x e := by
  unfold other
  split
  · simp [put, Function.update_of_ne he]
  · split
    · simp [put, Function.update_of_ne he]
    · rfl

theorem other_self {n x : Fin 3 → Nat} (d : Fin 3) : other n d x d = if x d = 0 then n d - 1 else if x d + 1 = n d then 0 else x d := by
  unfold other
  split
  · simp [put]
  · split
    · simp [put]
    · rfl

theorem other_other {n x : Fin 3 → Nat} (d : Fin 3) (hx : InGrid n x) : other n d (other n d x) = x := by
  funext e
  by_cases he : e = d
  · subst he
    have := hx e
    rw [other_self, other_self]
    split
    · split <;> (try split) <;> omega
    · split <;> (try split) <;> (try split) <;> omega
  · rw [other_ne he, other_ne he]

theorem glued_refl (S : List (Fin 3)) (n x : Fin 3 → Nat) : Glued S n x x := fun _ => Or.inl rfl

theorem glued_symm {S : List (Fin 3)} {n x y : Fin 3 → Nat} (h : Glued S n x y) : Glued S n y x := by
  intro d
  rcases h d with h | ⟨h1, h2, h3⟩
  · exact Or.inl h.symm
  · exact Or.inr ⟨h1, h3, h2⟩

theorem glued_trans {S : List (Fin 3)} {n x y z : Fin 3 → Nat} (h : Glued S n x y) (h' : Glued S n y z) : Glued S n x z := by
  intro d
  rcases h d with h | ⟨h1, h2, h3⟩
  · rcases h' d with h' | ⟨h1', h2', h3'⟩
    · exact Or.inl (h.trans h')
    · refine Or.inr ⟨h1', ?_, h3'⟩
      unfold AtEnd at h2' ⊢
      rw [h]; exact h2'
  · rcases h' d with h' | ⟨h1', h2', h3'⟩
    · refine Or.inr ⟨h1, h2, ?_⟩
      unfold AtEnd at h3 ⊢
      rw [← h']; exact h3
    · exact Or.inr ⟨h1, h2, h3'⟩

theorem glued_other {S : List (Fin 3)} {n x y : Fin 3 → Nat} (d : Fin 3) (hy : InGrid n y) (h : Glued S n x y) : Glued (d :: S) n x (other n d y) := by
  intro e
  by_cases he : e = d
  · subst he
    have hlt := hy e
    have hs := other_self (n := n) (x := y) e
    by_cases hc : AtEnd n y e
    · right
      refine ⟨by simp, ?_, ?_⟩
      · rcases h e with h | ⟨_, h2, _⟩
        · unfold AtEnd at hc ⊢; rw [h]; exact hc
        · exact h2
      · unfold AtEnd at hc ⊢
        rw [hs]
        split
        · omega
        · split <;> omega
    · have : other n e y e = y e := by
        unfold AtEnd at hc
        rw [hs, if_neg (by tauto), if_neg (by tauto)]
      rcases h e with h | ⟨_, _, h3⟩
      · left; rw [this]; exact h
      · exact absurd h3 hc
  · rw [AtEnd, AtEnd, other_ne he]
    rcases h e with h | ⟨h1, h2, h3⟩
    · exact Or.inl h
    · exact Or.inr ⟨by simp [h1], h2, h3⟩

theorem glued_cons {S : List (Fin 3)} {n x y : Fin 3 → Nat} (d : Fin 3) (h : Glued (d :: S) n x y) : Glued S n x y ∨ Glued S n x (other n d y) := by
  by_cases hd : x d = y d
  · left
    intro e
    by_cases he : e = d
    · subst he; exact Or.inl hd
    · rcases h e with h | ⟨h1, h2, h3⟩
      · exact Or.inl h
      · exact Or.inr ⟨by simpa [he] using h1, h2, h3⟩
  · right
    intro e
    by_cases he : e = d
    · subst he
      rcases h e with h | ⟨h1, h2, h3⟩
      · exact absurd h hd
      · left
        unfold AtEnd at h2 h3
        rw [other_self]
        split
        · omega
        · split <;> omega
    · rw [AtEnd, AtEnd, other_ne he]
      rcases h e with h | ⟨h1, h2, h3⟩
      · exact Or.inl h
      · exact Or.inr ⟨by simpa [he] using h1, h2, h3⟩

/-- Closing one direction: each node gets the smaller of its number and that of the node at the opposite end. -/
theorem close_one (tol : K) (M : PatchModel K) (q L nf start : Nat) (n : Fin 3 → Nat) (d : Fin 3) (h : HasPatch M q L nf) (hf : 1 ≤ nf ∧ nf ≤ 9) (hn : ∀ d, 1 ≤ n d) (hs : 1 ≤ start) (hL : start + n 0 * n 1 * n 2 ≤ L + 1) :
    ∃ M', closeBoundaries3D tol q nf (d.1 + 1) (n 0) (n 1) (n 2) start M = some M' ∧ HasPatch M' q L nf ∧
      (∀ x, InGrid n x → nodeNum M' q (gridNode start n x) = min (nodeNum M q (gridNode start n x)) (nodeNum M q (gridNode start n (other n d x)))) ∧
      ∀ a, (∀ x, InGrid n x → a ≠ gridNode start n x) → nodeNum M' q a = nodeNum M q a := by
  obtain ⟨c1, c2⟩ := calls3D_spec start n hn d
  have hlt : ∀ x, InGrid n x → 1 ≤ gridNode start n x ∧ gridNode start n x ≤ L := by
    intro x hx
    have := gridNode_range (start := start) hx
    omega
  have hd := hn d
  obtain ⟨M', e1, e2, e3⟩ := periodic_all tol (calls3D (d.1 + 1) (n 0) (n 1) (n 2) start) M q L nf h hf.1 hf.2 (fun p hp => by
    obtain ⟨x, hx, _, rfl⟩ := (c2 p).mp hp
    exact ⟨hlt x hx, hlt _ (put_grid hx (by omega))⟩)
  obtain ⟨a1, a2⟩ := pairAll_apart _ (nodeNum M q) c1
  refine ⟨M', e1, e2, fun x hx => ?_, fun a ha => ?_⟩
  · rw [e3]
    have hxd := hx d
    by_cases h0 : x d = 0
    · have := (a1 _ ((c2 _).mpr ⟨x, hx, h0, rfl⟩)).1
      dsimp only at this
      rw [this, other, if_pos h0]
    · by_cases h1 : x d + 1 = n d
      · have hp : put (put x d 0) d (n d - 1) = x := by
          funext e
          by_cases he : e = d
          · subst he; simp [put]; omega
          · simp [put, Function.update_of_ne he]
        have := (a1 _ ((c2 _).mpr ⟨put x d 0, put_grid hx (by omega), by simp [put], rfl⟩)).2
        dsimp only at this
        rw [hp] at this
        rw [this, other, if_neg h0, if_pos h1, min_comm]
      · rw [other, if_neg h0, if_neg h1, min_self]
        apply a2
        intro p hp
        obtain ⟨y, hy, hy0, rfl⟩ := (c2 p).mp hp
        constructor
        · intro he
          have := gridNode_inj hx hy he
          exact h0 (this ▸ hy0)
        · intro he
          have := gridNode_inj hx (put_grid hy (by omega)) he
          have := congrFun this d
          simp [put] at this
          omega
  · rw [e3]
    apply a2
    intro p hp
    obtain ⟨y, hy, hy0, rfl⟩ := (c2 p).mp hp
    exact ⟨ha y hy, ha _ (put_grid hy (by omega))⟩

/-- Closing several directions of a patch, one after the other. -/
def closeAll (close : Nat → PatchModel K → Option (PatchModel K)) : List Nat → PatchModel K → Option (PatchModel K)
  | [], M => some M
  | d :: ds, M =>
    match close d M with
    | none => none
    | some M' => closeAll close ds M'

/-- C86: any sequence of closed directions succeeds, and each node of the patch gets the smallest number of those that coincide with it when the closed directions are identified at their ends; all other nodes keep their numbers. -/
theorem C86_close_3D (tol : K) (M : PatchModel K) (q L nf start : Nat) (n : Fin 3 → Nat) (ds : List (Fin 3)) (h : HasPatch M q L nf) (hf : 1 ≤ nf ∧ nf ≤ 9) (hn : ∀ d, 1 ≤ n d) (hs : 1 ≤ start) (hL : start + n 0 * n 1 * n 2 ≤ L + 1) :
    ∃ M', closeAll (fun d => closeBoundaries3D tol q nf d (n 0) (n 1) (n 2) start) (ds.map fun d => d.1 + 1) M = some M' ∧ HasPatch M' q L nf ∧
      (∀ x, InGrid n x →
        (∃ y, InGrid n y ∧ Glued ds n x y ∧ nodeNum M' q (gridNode start n x) = nodeNum M q (gridNode start n y)) ∧
        ∀ y, InGrid n y → Glued ds n x y → nodeNum M' q (gridNode start n x) ≤ nodeNum M q (gridNode start n y)) ∧
      ∀ a, (∀ x, InGrid n x → a ≠ gridNode start n x) → nodeNum M' q a = nodeNum M q a := by
  induction ds generalizing M with
  | nil =>
    refine ⟨M, rfl, h, fun x hx => ⟨⟨x, hx, glued_refl _ _ _, rfl⟩, fun y hy hg => ?_⟩, fun a _ => rfl⟩
    have : x = y := by
      funext d
      rcases hg d with hg | ⟨hg, _⟩
      · exact hg
      · simp at hg
    rw [this]
  | cons d ds ih =>
    obtain ⟨M1, e1, e2, e3, e4⟩ := close_one tol M q L nf start n d h hf hn hs hL
    obtain ⟨M2, f1, f2, f3, f4⟩ := ih M1 e2
    refine ⟨M2, ?_, f2, fun x hx => ?_, fun a ha => (f4 a ha).trans (e4 a ha)⟩
    · rw [List.map_cons, closeAll, e1]; exact f1
    · obtain ⟨⟨y, hy, hg, hv⟩, hle⟩ := f3 x hx
      constructor
      · rw [e3 y hy] at hv
        rcases min_choice (nodeNum M q (gridNode start n y)) (nodeNum M q (gridNode start n (other n d y))) with hm | hm
        · exact ⟨y, hy, fun e => (hg e).imp id (fun ⟨a, b, c⟩ => ⟨by simp [a], b, c⟩), hv.trans hm⟩
        · exact ⟨other n d y, other_grid d hy, glued_other d hy hg, hv.trans hm⟩
      · intro z hz hgz
        rcases glued_cons d hgz with hz1 | hz1
        · exact (hle z hz hz1).trans (by rw [e3 z hz]; exact min_le_left _ _)
        · refine (hle _ (other_grid d hz) hz1).trans ?_
          rw [e3 _ (other_grid d hz), other_other d hz]
          exact min_le_right _ _

/-- C86: if the nodes have different numbers to begin with, two nodes get the same number exactly if they coincide when the closed directions are identified at their ends, whatever the order of closing. -/
theorem C86_close_3D_iff (tol : K) (M : PatchModel K) (q L nf start : Nat) (n : Fin 3 → Nat) (ds : List (Fin 3)) (h : HasPatch M q L nf) (hf : 1 ≤ nf ∧ nf ≤ 9) (hn : ∀ d, 1 ≤ n d) (hs : 1 ≤ start) (hL : start + n 0 * n 1 * n 2 ≤ L + 1)
    (hinj : ∀ x y, InGrid n x → InGrid n y → nodeNum M q (gridNode start n x) = nodeNum M q (gridNode start n y) → x = y) :
    ∃ M', closeAll (fun d => closeBoundaries3D tol q nf d (n 0) (n 1) (n 2) start) (ds.map fun d => d.1 + 1) M = some M' ∧
      ∀ x y, InGrid n x → InGrid n y → (nodeNum M' q (gridNode start n x) = nodeNum M' q (gridNode start n y) ↔ Glued ds n x y) := by
  obtain ⟨M', e1, _, e3, _⟩ := C86_close_3D tol M q L nf start n ds h hf hn hs hL
  refine ⟨M', e1, fun x y hx hy => ?_⟩
  obtain ⟨⟨a, ha, hxa, va⟩, la⟩ := e3 x hx
  obtain ⟨⟨b, hb, hyb, vb⟩, lb⟩ := e3 y hy
  constructor
  · intro he
    have : a = b := hinj a b ha hb (by rw [← va, ← vb, he])
    rw [← this] at hyb
    exact glued_trans hxa (glued_symm hyb)
  · intro hg
    apply le_antisymm
    · rw [vb]; exact la b hb (glued_trans hg hyb)
    · rw [va]; exact lb a ha (glued_trans (glued_symm hg) hxa)

/-- C86: in two dimensions, two nodes get the same number exactly if they coincide when the closed directions are identified at their ends. -/
theorem C86_close_2D (tol : K) (M : PatchModel K) (q L nf start n1 n2 : Nat) (ds : List Nat) (hds : ∀ d ∈ ds, d = 1 ∨ d = 2) (h : HasPatch M q L nf) (hf : 1 ≤ nf ∧ nf ≤ 9) (hn1 : 1 ≤ n1) (hn2 : 1 ≤ n2) (hs : 1 ≤ start) (hL : start + n1 * n2 ≤ L + 1)
    (hinj : ∀ i j i' j', i < n1 → j < n2 → i' < n1 → j' < n2 → nodeNum M q (start + i + n1*j) = nodeNum M q (start + i' + n1*j') → i = i' ∧ j = j') :
    ∃ M', closeAll (fun d => closeBoundaries2D tol q nf d n1 n2 start) ds M = some M' ∧
      ∀ i j i' j', i < n1 → j < n2 → i' < n1 → j' < n2 →
        (nodeNum M' q (start + i + n1*j) = nodeNum M' q (start + i' + n1*j') ↔
          (i = i' ∨ (1 ∈ ds ∧ (i = 0 ∨ i + 1 = n1) ∧ (i' = 0 ∨ i' + 1 = n1))) ∧
          (j = j' ∨ (2 ∈ ds ∧ (j = 0 ∨ j + 1 = n2) ∧ (j' = 0 ∨ j' + 1 = n2)))) := by
  obtain ⟨fs, hfs⟩ : ∃ fs : List (Fin 3), fs.map (fun d => d.1 + 1) = ds := by
    induction ds with
    | nil => exact ⟨[], rfl⟩
    | cons d ds ih =>
      obtain ⟨fs, hfs⟩ := ih (fun e he => hds e (by simp [he]))
      rcases hds d (by simp) with hd | hd
      · exact ⟨0 :: fs, by rw [List.map_cons, hfs, hd]; rfl⟩
      · exact ⟨1 :: fs, by rw [List.map_cons, hfs, hd]; rfl⟩
  have hm : ∀ d : Fin 3, d ∈ fs ↔ d.1 + 1 ∈ ds := by
    intro d
    rw [← hfs, List.mem_map]
    constructor
    · exact fun hd => ⟨d, hd, rfl⟩
    · rintro ⟨e, he, h2⟩
      have : e = d := Fin.ext (by omega)
      exact this ▸ he
  have hc : ∀ d, d = 1 ∨ d = 2 → closeBoundaries2D tol q nf d n1 n2 start = closeBoundaries3D tol q nf d n1 n2 1 start := by
    intro d hd
    funext M
    unfold closeBoundaries2D closeBoundaries3D calls2D calls3D
    rcases hd with hd | hd <;> subst hd <;> simp [callsOuter]
  have hall : ∀ (ds : List Nat) (M : PatchModel K), (∀ d ∈ ds, d = 1 ∨ d = 2) → closeAll (fun d => closeBoundaries2D tol q nf d n1 n2 start) ds M = closeAll (fun d => closeBoundaries3D tol q nf d n1 n2 1 start) ds M := by
    intro ds
    induction ds with
    | nil => intro M _; rfl
    | cons d ds ih =>
      intro M hd
      rw [closeAll, closeAll]
      rw [hc d (hd d (by simp))]
      cases closeBoundaries3D tol q nf d n1 n2 1 start M with
      | none => rfl
      | some M1 => exact ih M1 (fun e he => hd e (by simp [he]))
  have hg : ∀ i j, gridNode start ![n1, n2, 1] ![i, j, 0] = start + i + n1*j := by
    intro i j; simp [gridNode]
  have hin : ∀ i j, i < n1 → j < n2 → InGrid ![n1, n2, 1] ![i, j, 0] := by
    intro i j hi hj d; fin_cases d <;> simp <;> assumption
  obtain ⟨M', e1, e2⟩ := C86_close_3D_iff tol M q L nf start ![n1, n2, 1] fs h hf (by intro d; fin_cases d <;> simp <;> assumption) hs (by simpa using hL) (by
    intro x y hx hy he
    have hx' : x = ![x 0, x 1, 0] := by
      funext d; fin_cases d <;> simp
      have := hx 2; simpa using this
    have hy' : y = ![y 0, y 1, 0] := by
      funext d; fin_cases d <;> simp
      have := hy 2; simpa using this
    rw [hx', hy', hg, hg] at he
    obtain ⟨r1, r2⟩ := hinj _ _ _ _ (hx 0) (hx 1) (hy 0) (hy 1) he
    rw [hx', hy', r1, r2])
  refine ⟨M', ?_, fun i j i' j' hi hj hi' hj' => ?_⟩
  · rw [hall ds M hds, ← hfs]; exact e1
  · have := e2 _ _ (hin i j hi hj) (hin i' j' hi' hj')
    rw [hg, hg] at this
    rw [this, Glued]
    constructor
    · intro hh
      have a0 := hh 0; have a1 := hh 1
      simp only [AtEnd, hm] at a0 a1
      exact ⟨by simpa using a0, by simpa using a1⟩
    · rintro ⟨a0, a1⟩ d
      simp only [AtEnd, hm]
      fin_cases d
      · simpa using a0
      · simpa using a1
      · simp

end IFEM.ClosePatch
