import Verif.Lemmas.FEGlobal
/-! Expansion of equation vectors to DOF vectors. -/
namespace IFEM.Spec
open IFEM.Sam
variable {R : Type} [CommRing R] {s : Sam R} {D : FEModel R}

theorem at1?_vval {x : List R} {e : Int} (h1 : 1 ≤ e) (h2 : e ≤ x.length) : at1? x e = some (vval x e) := by
  unfold vval
  have : (at1? x e).isSome := at1?_isSome_iff.2 ⟨h1, h2⟩
  obtain ⟨y, hy⟩ := Option.isSome_iff_exists.1 this
  rw [hy]; rfl

theorem expandTerms (n : Nat) (x : List R) (hx : n ≤ x.length) (ts : List (Int × R))
    (ht : ∀ t ∈ ts, 1 ≤ t.1 ∧ t.1 ≤ n) (a : R) :
    (ts.map some).foldlM (fun (acc : R) (t : Option (Int × R)) => do
      let t ← t
      if 0 < t.1 ∧ t.1 ≤ (n : Int) then
        let v ← at1? x t.1
        return acc + t.2 * v
      else return acc) a = some (a + (ts.map fun t => t.2 * vval x t.1).sum) := by
  induction ts generalizing a with
  | nil => simp
  | cons t ts ih =>
    have h0 := ht t List.mem_cons_self
    rw [List.map_cons, List.foldlM_cons]
    simp only [Option.bind_eq_bind, Option.bind_some]
    rw [if_pos ⟨by omega, h0.2⟩, at1?_vval h0.1 (by omega)]
    simp only [Option.bind_some]
    have := ih (fun t h => ht t (List.mem_cons_of_mem _ h)) (a + t.2 * vval x t.1)
    simp only [Option.bind_eq_bind] at this
    simp only [pure, Option.bind_some] at this ⊢
    rw [this]
    simp only [List.map_cons, List.sum_cons]
    congr 1; ring

theorem expandDof_spec (hr : Ready s D) (hv : D.Valid) (x : List R) (hx : s.neq ≤ x.length) (scale : R)
    {d : Nat} (h1 : 1 ≤ d) (h2 : d ≤ D.status.length) :
    s.expandDof x scale (eqv s d) = some (codeVal s D scale (vval x) (eqv s d)) := by
  have ho : ∀ d', (some d : Option Nat) = some d' → 1 ≤ d' ∧ d' ≤ D.status.length := by
    intro d' h; cases h; exact ⟨h1, h2⟩
  have hle := eqvO_le hr hv ho
  have hfac := tm_facts hr hv ho
  simp only [eqvO] at hle hfac
  generalize eqv s d = e at *
  unfold expandDof codeVal
  by_cases hp : e > 0
  · rw [if_pos hp, if_pos hp, at1?_vval (by omega) (by omega)]
  · rw [if_neg hp, if_neg hp]
    by_cases hn : -e > 0
    · obtain ⟨t1, t2, t3⟩ := hfac (by omega)
      rw [if_pos hn, if_pos hn, t1, t2]
      simp only [Option.bind_eq_bind, Option.bind_some]
      exact expandTerms s.neq x hx _ t3 _
    · rw [if_neg hn, if_neg hn]

omit [CommRing R] in
theorem meqn_eq_map (hr : Ready s D) : s.meqn = (List.range' 1 D.status.length).map (eqv s) := by
  apply List.ext_getElem?
  intro i
  rw [List.getElem?_map]
  by_cases h : i < D.status.length
  · rw [List.getElem?_range' h]
    simp only [Option.map_some, one_mul]
    unfold eqv
    rw [at1?_nat _ _ (by omega)]
    have : 1 + i - 1 = i := by omega
    rw [this, List.getElem?_eq_getElem (by rw [hr.len]; exact h)]; rfl
  · rw [List.getElem?_eq_none (by rw [hr.len]; omega), List.getElem?_eq_none (by simp; omega)]; rfl

theorem expand_spec (hr : Ready s D) (hv : D.Valid) (x : List R) (hx : s.neq ≤ x.length) (scale : R) :
    ∃ u, s.expandVector x scale = some u ∧ u.length = D.status.length ∧
      ∀ d : Nat, 1 ≤ d → d ≤ D.status.length → vval u d = codeVal s D scale (vval x) (eqv s d) := by
  refine ⟨(List.range' 1 D.status.length).map fun d => codeVal s D scale (vval x) (eqv s d), ?_, by simp, ?_⟩
  · unfold expandVector
    rw [if_neg (by omega), meqn_eq_map hr, List.mapM_map]
    apply mapM_some
    intro d hd
    rw [List.mem_range'_1] at hd
    exact expandDof_spec hr hv x hx scale hd.1 (by omega)
  · intro d h1 h2
    unfold vval
    rw [at1?_nat _ _ h1, List.getElem?_map, List.getElem?_range' (by omega)]
    simp only [Option.map_some, one_mul, Option.getD_some]
    congr 2; omega

/-- Only the DOFs in range matter for admissibility. -/
theorem admissible_congr (hv : D.Valid) {scale : R} {u u' : Nat → R}
    (h : ∀ d, 1 ≤ d → d ≤ D.status.length → u' d = u d) (ha : D.Admissible scale u) : D.Admissible scale u' := by
  have hsup : ∀ d, D.Suppressed d → 1 ≤ d ∧ d ≤ D.status.length := by
    rintro d ⟨h1, h2⟩
    refine ⟨h1, ?_⟩
    have := (List.getElem?_eq_some_iff.1 h2).1; omega
  constructor
  · intro c hc
    have hs := hsup _ (hv.slave c hc)
    rw [h _ hs.1 hs.2, ha.con c hc]
    congr 2
    apply List.map_congr_left
    intro m hm
    have := free_range (hv.master c hc m hm)
    rw [h _ this.1 this.2]
  · intro d hd hn
    have hs := hsup _ hd
    rw [h _ hs.1 hs.2, ha.fixed d hd hn]

end IFEM.Spec
