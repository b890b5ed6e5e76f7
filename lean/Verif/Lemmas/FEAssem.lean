import Verif.Spec.Galerkin
import Verif.Lemmas.FEField
/-! Assembly of one element in terms of equation codes. -/
namespace IFEM.Spec
open IFEM.Sam
variable {R : Type} [CommRing R] {s : Sam R} {D : FEModel R}

theorem tm_facts (hr : Ready s D) (hv : D.Valid) {o : Option Nat}
    (ho : ∀ d, o = some d → 1 ≤ d ∧ d ≤ D.status.length) (h : eqvO s o < 0) :
    s.masterTerms (-eqvO s o) = (tmOf s D (eqvO s o)).map some ∧
    s.offset? (-eqvO s o) = some (gOf D (eqvO s o)) ∧
    ∀ t ∈ tmOf s D (eqvO s o), 1 ≤ t.1 ∧ t.1 ≤ s.neq := by
  obtain ⟨k, c, hc, ho', hcode⟩ := neg_code hr hv ho h
  rw [hcode, neg_neg]
  unfold tmOf gOf
  rw [code_index, hc]
  refine ⟨?_, offset_ready hr hc, ?_⟩
  · rw [masterTerms_ready hr hv hc, List.map_map]; rfl
  · intro t ht
    obtain ⟨m, hm, rfl⟩ := List.mem_map.1 ht
    exact (eqv_free hr (hv.master c (List.mem_of_getElem? hc) m hm)).2

theorem eqvO_le (hr : Ready s D) (hv : D.Valid) {o : Option Nat}
    (ho : ∀ d, o = some d → 1 ≤ d ∧ d ≤ D.status.length) : eqvO s o ≤ s.neq := by
  cases o with
  | none => simp [eqvO]
  | some d =>
    obtain ⟨h1, h2⟩ := ho d rfl
    simp only [eqvO]
    rcases dof_cases D hv h1 h2 with hf | ⟨k, c, hc, rfl⟩ | ⟨hs, hn⟩
    · exact (eqv_free hr hf).2.2
    · rw [eqv_slave hr hc]; omega
    · rw [eqv_fixed hr hs hn]; omega

/-- Element DOFs are in range. -/
theorem dofs_ok (hv : D.Valid) {e : List Int} (he : e ∈ D.elems) (o : Option Nat) (h : o ∈ D.elmDofs e) :
    ∀ d, o = some d → 1 ≤ d ∧ d ≤ D.status.length := by
  rintro d rfl; exact elmDofs_range hv he h

theorem addTerms_spec (n : Nat) (v : R) (ts : List (Int × R)) (ht : ∀ t ∈ ts, 1 ≤ t.1 ∧ t.1 ≤ n)
    (B : List R) (hB : B.length = n) :
    ∃ B', (ts.map some).foldlM (fun (rhs : List R) (t : Option (Int × R)) => do
        let t ← t
        add1? rhs t.1 (t.2 * v)) B = some B' ∧ B'.length = n ∧
      ∀ r, vval B' r = vval B r + (ts.map fun t => if t.1 = r then t.2 else 0).sum * v := by
  induction ts generalizing B with
  | nil => exact ⟨B, rfl, hB, by simp⟩
  | cons t ts ih =>
    have h0 := ht t List.mem_cons_self
    obtain ⟨B1, h1, h2, h3⟩ := add1?_spec B t.1 (t.2 * v) h0.1 (by rw [hB]; exact h0.2)
    obtain ⟨B', g1, g2, g3⟩ := ih (fun t h => ht t (List.mem_cons_of_mem _ h)) B1 (by rw [h2, hB])
    refine ⟨B', ?_, g2, ?_⟩
    · rw [List.map_cons, List.foldlM_cons, ← g1]
      simp [h1]
    · intro r
      rw [g3, h3]
      simp only [List.map_cons, List.sum_cons]
      split <;> ring

/-- Scatter of a value with an equation code. -/
theorem assembleRHS_spec (hr : Ready s D) (hv : D.Valid) {o : Option Nat}
    (ho : ∀ d, o = some d → 1 ≤ d ∧ d ≤ D.status.length) (B : List R) (hB : B.length = s.neq) (v : R) :
    ∃ B', s.assembleRHS B v (eqvO s o) = some B' ∧ B'.length = s.neq ∧
      ∀ r, vval B' r = vval B r + tcoef (tmOf s D) (eqvO s o) r * v := by
  have hle := eqvO_le hr hv ho
  have hfac := tm_facts hr hv ho
  generalize eqvO s o = x at *
  unfold assembleRHS tcoef
  by_cases hp : x > 0
  · rw [if_pos hp]
    rw [← hB] at hle
    obtain ⟨B', h1, h2, h3⟩ := add1?_spec B x v hp hle
    refine ⟨B', h1, h2.trans hB, ?_⟩
    intro r
    rw [h3 r, if_pos hp]
    by_cases hq : x = r
    · rw [if_pos hq, if_pos hq, one_mul]
    · rw [if_neg hq, if_neg hq, zero_mul]
  · rw [if_neg hp]
    simp only [if_neg hp]
    by_cases hn : -x > 0
    · obtain ⟨t1, t2, t3⟩ := hfac (by omega)
      rw [if_pos hn, t1]
      simp only [if_pos hn]
      exact addTerms_spec s.neq v _ t3 B hB
    · rw [if_neg hn]
      refine ⟨B, rfl, hB, ?_⟩
      intro r
      rw [if_neg hn]; simp

/-- Scatter of an element vector. -/
theorem assembleVecLoop_spec (hr : Ready s D) (hv : D.Valid) (os : List (Option Nat)) (eS : List R)
    (ho : ∀ o ∈ os, ∀ d, o = some d → 1 ≤ d ∧ d ≤ D.status.length)
    (B : List R) (hB : B.length = s.neq) :
    ∃ B', s.assembleVecLoop B eS (os.map (eqvO s)) = some B' ∧ B'.length = s.neq ∧
      ∀ r, vval B' r = vval B r + ((eS.zip os).map fun p => tcoef (tmOf s D) (eqvO s p.2) r * p.1).sum := by
  induction os generalizing B eS with
  | nil => cases eS <;> exact ⟨B, rfl, hB, by simp⟩
  | cons o os ih =>
    cases eS with
    | nil => exact ⟨B, rfl, hB, by simp⟩
    | cons v eS =>
      obtain ⟨B1, h1, h2, h3⟩ := assembleRHS_spec hr hv (ho o List.mem_cons_self) B hB v
      obtain ⟨B', g1, g2, g3⟩ := ih eS (fun o h => ho o (List.mem_cons_of_mem _ h)) B1 h2
      refine ⟨B', ?_, g2, ?_⟩
      · simp only [List.map_cons, assembleVecLoop, h1]
        exact g1
      · intro r
        rw [g3, h3]
        simp only [List.zip_cons_cons, List.map_cons, List.sum_cons]; ring

theorem elm_fits {e : List Int} {eK : Mat R} (h : MatFits D e eK) (i j : Nat)
    (hi : i < (D.elmDofs e).length) (hj : j < (D.elmDofs e).length) :
    eK.elm? i j = some (eK.val (i+1) (j+1)) := by
  unfold Mat.elm?
  apply Mat.get?_some h.wf
  have := h.row; have := h.col
  omega

theorem sum_fin_map {α β M : Type _} [AddCommMonoid M] (l : List α) (f : α → β) (G : Nat → β → M) :
    ∑ i : Fin (l.map f).length, G i ((l.map f)[i]) = ∑ i : Fin l.length, G i (f l[i]) := by
  have h : (l.map f).length = l.length := by simp
  rw [← Equiv.sum_comp (finCongr h)]
  apply Finset.sum_congr rfl
  intro i _
  simp [finCongr]

/-- Scatter of an element matrix, with contributions to the right-hand side. -/
theorem assembleDense_spec (hr : Ready s D) (hv : D.Valid) {k : Nat} {e : List Int}
    (he : D.elems[k]? = some e) {eK : Mat R} (hf : MatFits D e eK) (K : Mat R) (hwf : K.WF)
    (hrow : K.nrow = s.neq) (hcol : K.ncol = s.neq) (B : List R) (hB : B.length = s.neq) :
    ∃ K' B', s.assembleDense K B eK ((k:Int)+1) = some (K', B') ∧ K'.WF ∧ K'.nrow = s.neq ∧
      K'.ncol = s.neq ∧ B'.length = s.neq ∧
      (∀ r c, K'.val r c = K.val r c + ∑ i : Fin (D.elmDofs e).length, ∑ j : Fin (D.elmDofs e).length,
        tcoef (tmOf s D) (eqvO s (D.elmDofs e)[i]) r * eK.val ((i:Int)+1) ((j:Int)+1) *
          tcoef (tmOf s D) (eqvO s (D.elmDofs e)[j]) c) ∧
      (∀ r, vval B' r = vval B r - ∑ i : Fin (D.elmDofs e).length, ∑ j : Fin (D.elmDofs e).length,
        tcoef (tmOf s D) (eqvO s (D.elmDofs e)[i]) r * eK.val ((i:Int)+1) ((j:Int)+1) *
          (if eqvO s (D.elmDofs e)[j] < 0 then gOf D (eqvO s (D.elmDofs e)[j]) else 0)) := by
  have hmem := List.mem_of_getElem? he
  unfold assembleDense
  rw [if_neg (by omega), getElmEqns_ready hr hv he _ (Or.inr (Or.inr hf.row))]
  simp only [Option.bind_eq_bind, Option.bind_some]
  have hlen : ((D.elmDofs e).map (eqvO s)).length = (D.elmDofs e).length := by simp
  let M : Nat → Nat → R := fun i j => eK.val ((i:Int)+1) ((j:Int)+1)
  have hM : ∀ i j : Fin ((D.elmDofs e).map (eqvO s)).length,
      eK.elm? i j = some (M i j) := by
    intro i j
    apply elm_fits hf <;> omega
  have hfac : ∀ x ∈ (D.elmDofs e).map (eqvO s), ∃ o, (∀ d, o = some d → 1 ≤ d ∧ d ≤ D.status.length) ∧ x = eqvO s o := by
    intro x hx
    obtain ⟨o, ho, rfl⟩ := List.mem_map.1 hx
    exact ⟨o, dofs_ok hv hmem o ho, rfl⟩
  have hmt : ∀ x ∈ (D.elmDofs e).map (eqvO s), x < 0 → s.masterTerms (-x) = (tmOf s D x).map some := by
    intro x hx hn
    obtain ⟨o, ho, rfl⟩ := hfac x hx
    exact (tm_facts hr hv ho hn).1
  have hoff : ∀ x ∈ (D.elmDofs e).map (eqvO s), x < 0 → s.offset? (-x) = some (gOf D x) := by
    intro x hx hn
    obtain ⟨o, ho, rfl⟩ := hfac x hx
    exact (tm_facts hr hv ho hn).2.1
  have hpos : ∀ x ∈ (D.elmDofs e).map (eqvO s), x ≤ K.nrow ∧ x ≤ K.ncol ∧ x ≤ B.length := by
    intro x hx
    obtain ⟨o, ho, rfl⟩ := hfac x hx
    have := eqvO_le hr hv ho
    omega
  have htm : ∀ x ∈ (D.elmDofs e).map (eqvO s), x < 0 → ∀ t ∈ tmOf s D x, 1 ≤ t.1 ∧ t.1 ≤ K.nrow ∧ t.1 ≤ K.ncol ∧ t.1 ≤ B.length := by
    intro x hx hn t ht
    obtain ⟨o, ho, rfl⟩ := hfac x hx
    have := (tm_facts hr hv ho hn).2.2 t ht
    omega
  have hin := assemUpd_inB (s := s) (M := M) (tm := tmOf s D) (g := gOf D) hM hmt hoff hpos htm (!B.isEmpty)
  have hsv : (if (!B.isEmpty) = true then B.length else 0) = B.length := by
    cases B <;> simp
  rw [hsv] at hin
  obtain ⟨K', B', g1, g2, g3, g4, g5, g6, g7⟩ := applyDense_list _ K B hwf hin
  refine ⟨K', B', g1, g2, by omega, by omega, by omega, ?_, ?_⟩
  · intro r c
    rw [g6, assemUpd_mat (M := M) (tm := tmOf s D) (g := gOf D) hM hmt hoff]
    congr 1
    rw [sum_fin_map (D.elmDofs e) (eqvO s) (fun i x => ∑ j : Fin ((D.elmDofs e).map (eqvO s)).length,
      tcoef (tmOf s D) x r * eK.val ((i:Int)+1) ((j:Int)+1) * tcoef (tmOf s D) ((D.elmDofs e).map (eqvO s))[j] c)]
    apply Finset.sum_congr rfl
    intro i _
    exact sum_fin_map (D.elmDofs e) (eqvO s) (fun j y =>
      tcoef (tmOf s D) (eqvO s (D.elmDofs e)[i]) r * eK.val ((i:Int)+1) ((j:Int)+1) * tcoef (tmOf s D) y c)
  · intro r
    rw [g7, sub_eq_add_neg]
    congr 1
    have hconv : ∑ i : Fin ((D.elmDofs e).map (eqvO s)).length, ∑ j : Fin ((D.elmDofs e).map (eqvO s)).length,
        tcoef (tmOf s D) ((D.elmDofs e).map (eqvO s))[i] r * eK.val ((i:Int)+1) ((j:Int)+1) *
          (if ((D.elmDofs e).map (eqvO s))[j] < 0 then gOf D ((D.elmDofs e).map (eqvO s))[j] else 0) =
      ∑ i : Fin (D.elmDofs e).length, ∑ j : Fin (D.elmDofs e).length,
        tcoef (tmOf s D) (eqvO s (D.elmDofs e)[i]) r * eK.val ((i:Int)+1) ((j:Int)+1) *
          (if eqvO s (D.elmDofs e)[j] < 0 then gOf D (eqvO s (D.elmDofs e)[j]) else 0) := by
      rw [sum_fin_map (D.elmDofs e) (eqvO s) (fun i x => ∑ j : Fin ((D.elmDofs e).map (eqvO s)).length,
        tcoef (tmOf s D) x r * eK.val ((i:Int)+1) ((j:Int)+1) *
          (if ((D.elmDofs e).map (eqvO s))[j] < 0 then gOf D ((D.elmDofs e).map (eqvO s))[j] else 0))]
      apply Finset.sum_congr rfl
      intro i _
      exact sum_fin_map (D.elmDofs e) (eqvO s) (fun j y =>
        tcoef (tmOf s D) (eqvO s (D.elmDofs e)[i]) r * eK.val ((i:Int)+1) ((j:Int)+1) * (if y < 0 then gOf D y else 0))
    rw [← hconv]
    cases B with
    | nil =>
      -- empty right-hand side: there are no equations, so all codes are non-positive and there are no masters
      have hneq : s.neq = 0 := by simpa using hB.symm
      simp only [List.isEmpty_nil, Bool.not_true]
      rw [assemUpd_vec_none (g := gOf D) hoff]
      symm
      rw [neg_eq_zero]
      apply Finset.sum_eq_zero
      intro i _
      apply Finset.sum_eq_zero
      intro j _
      have hx := fmem ((D.elmDofs e).map (eqvO s)) i
      obtain ⟨o, ho, hxo⟩ := hfac _ hx
      have h0 : tcoef (tmOf s D) ((D.elmDofs e).map (eqvO s))[i] r = 0 := by
        rw [hxo]
        have := eqvO_le hr hv ho
        unfold tcoef
        rw [if_neg (by omega)]
        split
        · have hno : tmOf s D (eqvO s o) = [] := by
            rw [List.eq_nil_iff_forall_not_mem]
            intro t ht
            have := (tm_facts hr hv ho (by omega)).2.2 t ht
            omega
          rw [hno]; simp
        · rfl
      rw [h0]; ring
    | cons b bs =>
      simp only [List.isEmpty_cons, Bool.not_false]
      exact assemUpd_vec (M := M) (tm := tmOf s D) (g := gOf D) hM hmt hoff r

end IFEM.Spec
