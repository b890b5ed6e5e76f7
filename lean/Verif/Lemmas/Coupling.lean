import Verif.Model.SamQuery
import Verif.Lemmas.FEExpand
/-! DOF couplings: membership in the sparsity pattern. -/
namespace IFEM.Spec
open IFEM.Sam
variable {R : Type}

/-- Equations behind an equation code. -/
def eqsOf (tm : Int → List (Int × R)) (e : Int) : List Int :=
  if e > 0 then [e] else if e < 0 then (tm e).map Prod.fst else []

theorem mem_eqsOf_pos {tm : Int → List (Int × R)} {e r : Int} (h : e > 0) : r ∈ eqsOf tm e ↔ r = e := by
  simp [eqsOf, h]

theorem mem_eqsOf_neg {tm : Int → List (Int × R)} {e r : Int} (h : e < 0) :
    r ∈ eqsOf tm e ↔ ∃ t ∈ tm e, t.1 = r := by
  have : ¬ e > 0 := by omega
  simp [eqsOf, h, this]

theorem not_mem_eqsOf {tm : Int → List (Int × R)} {e r : Int} (h : ¬ e > 0) (h' : ¬ e < 0) : r ∉ eqsOf tm e := by
  simp [eqsOf, h, h']

variable {s : Sam R} {tm : Int → List (Int × R)} {meen : List Int}

theorem getElem_fin_mem (i : Fin meen.length) : meen[i] ∈ meen := List.getElem_mem i.2

theorem exists_fin {x : Int} (h : x ∈ meen) : ∃ i : Fin meen.length, meen[i] = x := by
  obtain ⟨i, hi, rfl⟩ := List.getElem_of_mem h
  exact ⟨⟨i, hi⟩, rfl⟩

theorem elmCouplings_mem_of (hmt : ∀ x ∈ meen, x < 0 → s.masterTerms (-x) = (tm x).map some)
    {p : Option (Int × Int)} (hp : p ∈ s.elmCouplings meen) :
    ∃ r c, p = some (r, c) ∧ (∃ x ∈ meen, r ∈ eqsOf tm x) ∧ (∃ y ∈ meen, c ∈ eqsOf tm y) := by
  unfold elmCouplings at hp
  obtain ⟨j, -, hp⟩ := List.mem_flatMap.1 hp
  have hj := getElem_fin_mem j
  generalize meen[j] = y at hp hj
  by_cases h1 : y > 0
  · simp only [if_pos h1] at hp
    rcases List.mem_cons.1 hp with rfl | hp
    · exact ⟨y, y, rfl, ⟨y, hj, (mem_eqsOf_pos h1).2 rfl⟩, ⟨y, hj, (mem_eqsOf_pos h1).2 rfl⟩⟩
    · obtain ⟨i, -, hp⟩ := List.mem_flatMap.1 hp
      have hi := getElem_fin_mem i
      generalize meen[i] = x at hp hi
      by_cases h2 : x > 0
      · simp only [if_pos h2, List.mem_cons, List.not_mem_nil, or_false] at hp
        rcases hp with rfl | rfl
        · exact ⟨_, _, rfl, ⟨x, hi, (mem_eqsOf_pos h2).2 rfl⟩, ⟨y, hj, (mem_eqsOf_pos h1).2 rfl⟩⟩
        · exact ⟨_, _, rfl, ⟨y, hj, (mem_eqsOf_pos h1).2 rfl⟩, ⟨x, hi, (mem_eqsOf_pos h2).2 rfl⟩⟩
      · simp only [if_neg h2] at hp; cases hp
  · simp only [if_neg h1] at hp
    by_cases h2 : y < 0
    · simp only [if_pos h2, hmt y hj h2] at hp
      obtain ⟨tj, htj, hp⟩ := List.mem_flatMap.1 hp
      obtain ⟨t, ht, rfl⟩ := List.mem_map.1 htj
      simp only at hp
      have hc : t.1 ∈ eqsOf tm y := (mem_eqsOf_neg h2).2 ⟨t, ht, rfl⟩
      obtain ⟨i, -, hp⟩ := List.mem_flatMap.1 hp
      have hi := getElem_fin_mem i
      generalize meen[i] = x at hp hi
      by_cases h3 : x > 0
      · simp only [if_pos h3, List.mem_cons, List.not_mem_nil, or_false] at hp
        rcases hp with rfl | rfl
        · exact ⟨_, _, rfl, ⟨x, hi, (mem_eqsOf_pos h3).2 rfl⟩, ⟨y, hj, hc⟩⟩
        · exact ⟨_, _, rfl, ⟨y, hj, hc⟩, ⟨x, hi, (mem_eqsOf_pos h3).2 rfl⟩⟩
      · simp only [if_neg h3] at hp
        by_cases h4 : x < 0
        · simp only [if_pos h4, hmt x hi h4, List.map_map] at hp
          obtain ⟨u, hu, rfl⟩ := List.mem_map.1 hp
          exact ⟨u.1, t.1, rfl, ⟨x, hi, (mem_eqsOf_neg h4).2 ⟨u, hu, rfl⟩⟩, ⟨y, hj, hc⟩⟩
        · simp only [if_neg h4] at hp; cases hp
    · simp only [if_neg h2] at hp; cases hp

theorem elmCouplings_mem (hmt : ∀ x ∈ meen, x < 0 → s.masterTerms (-x) = (tm x).map some)
    {r c x y : Int} (hx : x ∈ meen) (hy : y ∈ meen) (hr : r ∈ eqsOf tm x) (hc : c ∈ eqsOf tm y) :
    some (r, c) ∈ s.elmCouplings meen := by
  obtain ⟨i, rfl⟩ := exists_fin hx
  obtain ⟨j, rfl⟩ := exists_fin hy
  have free_slave : ∀ a b : Fin meen.length, meen[a] > 0 → meen[b] < 0 → ∀ t ∈ tm meen[b],
      some (meen[a], t.1) ∈ s.elmCouplings meen ∧ some (t.1, meen[a]) ∈ s.elmCouplings meen := by
    intro a b ha hb t ht
    constructor
    all_goals
      unfold elmCouplings
      rw [List.mem_flatMap]
      refine ⟨b, List.mem_finRange b, ?_⟩
      simp only [if_neg (show ¬ meen[b] > 0 by omega), if_pos hb, hmt _ hy, hmt _ (getElem_fin_mem b) hb]
      rw [List.mem_flatMap]
      refine ⟨some t, List.mem_map.2 ⟨t, ht, rfl⟩, ?_⟩
      simp only
      rw [List.mem_flatMap]
      refine ⟨a, List.mem_finRange a, ?_⟩
      simp only [if_pos ha]
      simp
  have lt_free : ∀ a b : Fin meen.length, a < b → meen[a] > 0 → meen[b] > 0 →
      some (meen[a], meen[b]) ∈ s.elmCouplings meen ∧ some (meen[b], meen[a]) ∈ s.elmCouplings meen := by
    intro a b hab ha hb
    constructor
    all_goals
      unfold elmCouplings
      rw [List.mem_flatMap]
      refine ⟨b, List.mem_finRange b, ?_⟩
      simp only [if_pos hb]
      rw [List.mem_cons]
      right
      rw [List.mem_flatMap]
      refine ⟨a, List.mem_filter.2 ⟨List.mem_finRange a, by simpa using hab⟩, ?_⟩
      simp only [if_pos ha]
      simp
  by_cases hi : meen[i] > 0
  · have hri := (mem_eqsOf_pos hi).1 hr
    by_cases hj : meen[j] > 0
    · have hcj := (mem_eqsOf_pos hj).1 hc
      subst hri hcj
      rcases lt_trichotomy i j with hlt | heq | hlt
      · exact (lt_free i j hlt hi hj).1
      · subst heq
        unfold elmCouplings
        rw [List.mem_flatMap]
        refine ⟨i, List.mem_finRange i, ?_⟩
        simp only [if_pos hi]
        simp
      · exact (lt_free j i hlt hj hi).2
    · by_cases hj' : meen[j] < 0
      · obtain ⟨t, ht, rfl⟩ := (mem_eqsOf_neg hj').1 hc
        subst hri
        exact (free_slave i j hi hj' t ht).1
      · exact absurd hc (not_mem_eqsOf hj hj')
  · by_cases hi' : meen[i] < 0
    · obtain ⟨u, hu, rfl⟩ := (mem_eqsOf_neg hi').1 hr
      by_cases hj : meen[j] > 0
      · have hcj := (mem_eqsOf_pos hj).1 hc
        subst hcj
        exact (free_slave j i hj hi' u hu).2
      · by_cases hj' : meen[j] < 0
        · obtain ⟨t, ht, rfl⟩ := (mem_eqsOf_neg hj').1 hc
          unfold elmCouplings
          rw [List.mem_flatMap]
          refine ⟨j, List.mem_finRange j, ?_⟩
          simp only [if_neg hj, if_pos hj', hmt _ hy hj']
          rw [List.mem_flatMap]
          refine ⟨some t, List.mem_map.2 ⟨t, ht, rfl⟩, ?_⟩
          simp only
          rw [List.mem_flatMap]
          refine ⟨i, List.mem_finRange i, ?_⟩
          simp only [if_neg hi, if_pos hi', hmt _ hx hi', List.map_map]
          exact List.mem_map.2 ⟨u, hu, rfl⟩
        · exact absurd hc (not_mem_eqsOf hj hj')
    · exact absurd hr (not_mem_eqsOf hi hi')

/-- Insertion of a list of in-bounds pairs. -/
theorem insertCouplings_spec (n : Nat) (ps : List (Option (Int × Int)))
    (hps : ∀ p ∈ ps, ∃ r c, p = some (r, c) ∧ 1 ≤ r ∧ r ≤ n) (dofc : List (List Int)) (hl : dofc.length = n) :
    ∃ dofc', ps.foldlM insertCoupling dofc = some dofc' ∧ dofc'.length = n ∧
      ∀ (k : Nat) (c : Int), (∃ row, dofc'[k]? = some row ∧ c ∈ row) ↔
        (∃ row, dofc[k]? = some row ∧ c ∈ row) ∨ some (((k:Int)+1), c) ∈ ps := by
  induction ps generalizing dofc with
  | nil => exact ⟨dofc, rfl, hl, by simp⟩
  | cons p ps ih =>
    obtain ⟨r, c0, rfl, h1, h2⟩ := hps p List.mem_cons_self
    obtain ⟨row, hrow, hrow'⟩ := at0?_some_of_bounds (a := dofc) (i := r-1) (by omega) (by omega)
    have hk : (r-1).toNat < dofc.length := by omega
    obtain ⟨dofc', g1, g2, g3⟩ := ih (fun p hp => hps p (List.mem_cons_of_mem _ hp))
      (dofc.set (r-1).toNat (if c0 ∈ row then row else c0 :: row)) (by simpa using hl)
    refine ⟨dofc', ?_, g2, ?_⟩
    · rw [List.foldlM_cons]
      have : insertCoupling dofc (some (r, c0)) = some (dofc.set (r-1).toNat (if c0 ∈ row then row else c0 :: row)) := by
        unfold insertCoupling at1? set1? set0?
        simp only [Option.bind_eq_bind, Option.bind_some, hrow]
        rw [if_pos ⟨by omega, hk⟩]
      rw [this]; exact g1
    · intro k c
      rw [g3]
      rw [List.getElem?_set]
      by_cases hkr : (r-1).toNat = k
      · subst hkr
        simp only [if_pos hk, if_true, hrow', Option.some.injEq, exists_eq_left', List.mem_cons, Prod.mk.injEq]
        have e1 : ((r-1).toNat : Int) + 1 = r := by omega
        simp only [e1, true_and]
        by_cases hin : c0 ∈ row
        · simp only [if_pos hin]
          constructor
          · rintro (h | h)
            · exact Or.inl h
            · exact Or.inr (Or.inr h)
          · rintro (h | rfl | h)
            · exact Or.inl h
            · exact Or.inl hin
            · exact Or.inr h
        · simp only [if_neg hin, List.mem_cons]
          tauto
      · rw [if_neg hkr]
        have : ¬ (some ((k:Int)+1, c) = some (r, c0)) := by
          simp only [Option.some.injEq, Prod.mk.injEq, not_and]
          intro h; omega
        rw [List.mem_cons]
        constructor
        · rintro (h | h)
          · exact Or.inl h
          · exact Or.inr (Or.inr h)
        · rintro (h | h | h)
          · exact Or.inl h
          · exact absurd h this
          · exact Or.inr h

end IFEM.Spec
