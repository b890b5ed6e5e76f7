import Verif.Lemmas.FEExpand
import Verif.Model.SamQuery
/-! Right-hand-side-only assembly and the remaining scatter functions. -/
namespace IFEM.Spec
open IFEM.Sam
variable {R : Type} [CommRing R] {s : Sam R} {D : FEModel R}
attribute [-simp] Fin.getElem_fin

theorem rhsInner (eK : Mat R) (meen : List Int) (n : Nat) (T : Fin meen.length → Int → R) (M : Nat → Nat → R)
    (hA : ∀ (i : Fin meen.length) (B : List R) (v : R), B.length = n → ∃ B', s.assembleRHS B v meen[i] = some B' ∧
      B'.length = n ∧ ∀ r, vval B' r = vval B r + T i r * v)
    (j : Fin meen.length) (hM : ∀ i : Fin meen.length, eK.elm? i j = some (M i j)) (c0 : R) :
    ∀ (is : List (Fin meen.length)) (B : List R), B.length = n → ∃ B',
      is.foldlM (fun B (i : Fin meen.length) => do
        let v ← eK.elm? i j
        s.assembleRHS B (-c0 * v) meen[i]) B = some B' ∧ B'.length = n ∧
      ∀ r, vval B' r = vval B r - (is.map fun i => T i r * M i j * c0).sum := by
  intro is
  induction is with
  | nil => intro B hB; exact ⟨B, rfl, hB, by simp⟩
  | cons i is ih =>
    intro B hB
    obtain ⟨B1, a1, a2, a3⟩ := hA i B (-c0 * M i j) hB
    obtain ⟨B2, b1, b2, b3⟩ := ih B1 a2
    refine ⟨B2, ?_, b2, ?_⟩
    · rw [List.foldlM_cons, hM i]
      simp only [Option.bind_eq_bind, Option.bind_some]
      rw [a1]; exact b1
    · intro r
      rw [b3, a3, List.map_cons, List.sum_cons]; ring

theorem rhsCols (eK : Mat R) (meen : List Int) (n : Nat) (T : Fin meen.length → Int → R) (M : Nat → Nat → R)
    (g : Int → R)
    (hA : ∀ (i : Fin meen.length) (B : List R) (v : R), B.length = n → ∃ B', s.assembleRHS B v meen[i] = some B' ∧
      B'.length = n ∧ ∀ r, vval B' r = vval B r + T i r * v)
    (hM : ∀ i j : Fin meen.length, eK.elm? i j = some (M i j))
    (hoff : ∀ x ∈ meen, x < 0 → s.offset? (-x) = some (g x)) :
    ∀ (js : List (Fin meen.length)) (B : List R), B.length = n → ∃ B',
      js.foldlM (s.rhsOnlyCol eK meen) B = some B' ∧ B'.length = n ∧
      ∀ r, vval B' r = vval B r -
        (js.map fun (j : Fin meen.length) => ∑ i, T i r * M i j * (if meen[j] < 0 then g meen[j] else 0)).sum := by
  intro js
  induction js with
  | nil => intro B hB; exact ⟨B, rfl, hB, by simp⟩
  | cons j js ih =>
    intro B hB
    have key : ∃ B1, s.rhsOnlyCol eK meen B j = some B1 ∧ B1.length = n ∧
        ∀ r, vval B1 r = vval B r - ∑ i, T i r * M i j * (if meen[j] < 0 then g meen[j] else 0) := by
      unfold rhsOnlyCol
      by_cases hn : meen[j] < 0
      · rw [if_neg (by omega), hoff meen[j] (List.getElem_mem j.2) hn]
        simp only [Option.bind_eq_bind, Option.bind_some]
        obtain ⟨B1, a1, a2, a3⟩ := rhsInner eK meen n T M hA j (fun i => hM i j) (g meen[j]) (List.finRange _) B hB
        refine ⟨B1, a1, a2, ?_⟩
        intro r
        rw [a3, sum_finRange]
        simp only [if_pos hn]
      · rw [if_pos (by omega)]
        refine ⟨B, rfl, hB, ?_⟩
        intro r
        simp only [if_neg hn]
        simp
    obtain ⟨B1, a1, a2, a3⟩ := key
    obtain ⟨B2, b1, b2, b3⟩ := ih B1 a2
    refine ⟨B2, ?_, b2, ?_⟩
    · rw [List.foldlM_cons, a1]; exact b1
    · intro r
      rw [b3, a3, List.map_cons, List.sum_cons]; ring

/-- The right-hand-side contributions of the constraints, without touching a matrix. -/
theorem assembleRhsOnly_spec (hr : Ready s D) (hv : D.Valid) {e : Elem R} (h : ElemFits D e)
    (B : List R) (hB : B.length = s.neq) :
    ∃ B', s.assembleRhsOnly B e.eK e.iel = some B' ∧ B'.length = s.neq ∧
      (∀ r, vval B' r = vval B r - ∑ i : Fin (D.dofsOf e.iel).length, ∑ j : Fin (D.dofsOf e.iel).length,
        Tc s D (D.dofsOf e.iel)[i] r * e.eK.val ((i:Int)+1) ((j:Int)+1) * Gc s D (D.dofsOf e.iel)[j]) := by
  unfold assembleRhsOnly
  by_cases he : e.eK.isEmpty
  · rw [if_pos he]
    refine ⟨B, rfl, hB, ?_⟩
    have hl : (D.dofsOf e.iel).length = 0 := by
      have h1 := h.mat.wf
      unfold Mat.WF at h1
      unfold Mat.isEmpty at he
      rw [h.mat.row, h.mat.col, List.isEmpty_iff.1 he] at h1
      simpa [FEModel.dofsOf] using h1.symm
    intro r
    rw [Finset.sum_eq_zero, sub_zero]
    intro i _; exact absurd i.2 (by omega)
  · have hmem := nodesOf_mem h
    rw [if_neg he, ← iel_cast h, getElmEqns_ready hr hv (nodesOf_get h) _ (Or.inr (Or.inr h.mat.row))]
    simp only [Option.bind_eq_bind, Option.bind_some]
    have hlen : ((D.elmDofs (D.nodesOf e.iel)).map (eqvO s)).length = (D.elmDofs (D.nodesOf e.iel)).length := by simp
    have hfac : ∀ x ∈ (D.elmDofs (D.nodesOf e.iel)).map (eqvO s), ∃ o, (∀ d, o = some d → 1 ≤ d ∧ d ≤ D.status.length) ∧ x = eqvO s o := by
      intro x hx
      obtain ⟨o, ho, rfl⟩ := List.mem_map.1 hx
      exact ⟨o, dofs_ok hv hmem o ho, rfl⟩
    obtain ⟨B', a1, a2, a3⟩ := rhsCols (s := s) e.eK ((D.elmDofs (D.nodesOf e.iel)).map (eqvO s)) s.neq
      (fun i r => tcoef (tmOf s D) ((D.elmDofs (D.nodesOf e.iel)).map (eqvO s))[i] r)
      (fun i j => e.eK.val ((i:Int)+1) ((j:Int)+1)) (gOf D)
      (by
        intro i B v hB
        obtain ⟨o, ho, hx⟩ := hfac _ (List.getElem_mem i.2)
        have := assembleRHS_spec hr hv ho B hB v
        rw [← hx] at this
        exact this)
      (by intro i j; apply elm_fits h.mat <;> omega)
      (by
        intro x hx hn
        obtain ⟨o, ho, rfl⟩ := hfac x hx
        exact (tm_facts hr hv ho hn).2.1)
      (List.finRange _) B hB
    refine ⟨B', a1, a2, ?_⟩
    intro r
    rw [a3, sum_finRange, Finset.sum_comm]
    congr 1
    rw [sum_fin_map (D.elmDofs (D.nodesOf e.iel)) (eqvO s) (fun i x =>
      ∑ j : Fin ((D.elmDofs (D.nodesOf e.iel)).map (eqvO s)).length,
      tcoef (tmOf s D) x r * e.eK.val ((i:Int)+1) ((j:Int)+1) *
        (if ((D.elmDofs (D.nodesOf e.iel)).map (eqvO s))[j] < 0 then gOf D ((D.elmDofs (D.nodesOf e.iel)).map (eqvO s))[j] else 0))]
    apply Finset.sum_congr rfl
    intro i _
    exact sum_fin_map (D.elmDofs (D.nodesOf e.iel)) (eqvO s) (fun j y =>
      tcoef (tmOf s D) (eqvO s (D.elmDofs (D.nodesOf e.iel))[i]) r * e.eK.val ((i:Int)+1) ((j:Int)+1) *
        (if y < 0 then gOf D y else 0))

theorem assembleAllRhs_spec (hr : Ready s D) (hv : D.Valid) (es : List (Elem R)) (h : ∀ e ∈ es, ElemFits D e)
    (B : List R) (hB : B.length = s.neq) :
    ∃ B', s.assembleAllRhs B es = some B' ∧ B'.length = s.neq ∧
      (∀ r, vval B' r = vval B r + (es.map fun e => elmB s D e r).sum) := by
  induction es generalizing B with
  | nil => exact ⟨B, rfl, hB, by simp⟩
  | cons e es ih =>
    have he := h e List.mem_cons_self
    obtain ⟨B1, h1, h2, h3⟩ := assembleVec_spec hr hv he B hB
    obtain ⟨B2, g1, g2, g3⟩ := assembleRhsOnly_spec hr hv he B1 h2
    obtain ⟨B', k1, k2, k3⟩ := ih (fun e he => h e (List.mem_cons_of_mem _ he)) B2 g2
    refine ⟨B', ?_, k2, ?_⟩
    · unfold assembleAllRhs at *
      rw [List.foldlM_cons]
      have : s.assembleElmRhs B e = some B2 := by
        unfold assembleElmRhs
        simp only [Option.bind_eq_bind, h1, Option.bind_some]
        exact g1
      rw [this]; exact k1
    · intro r
      rw [k3, g3, h3, List.map_cons, List.sum_cons, elmB]; ring

/-- Scatter of a list of values at in-range DOFs. -/
theorem scatter_basis (hr : Ready s D) (hv : D.Valid) (ds : List Nat) (S : List R)
    (hd : ∀ d ∈ ds, 1 ≤ d ∧ d ≤ D.status.length) (B : List R) (hB : B.length = s.neq) :
    ∃ B', s.assembleVecLoop B S (ds.map (eqv s)) = some B' ∧ B'.length = s.neq ∧
      ∀ r N, BasisField s D r N → vval B' r = vval B r + ((S.zip ds).map fun p => N p.2 * p.1).sum := by
  obtain ⟨B', h1, h2, h3⟩ := assembleVecLoop_spec hr hv (ds.map some) S
    (by intro o ho d hd'; subst hd'
        obtain ⟨d', a, b⟩ := List.mem_map.1 ho
        cases b; exact hd _ a) B hB
  refine ⟨B', ?_, h2, ?_⟩
  · rw [← h1, List.map_map]; rfl
  · intro r N hN
    rw [h3]
    congr 1
    rw [List.zip_map_right, List.map_map]
    apply congrArg
    apply List.map_congr_left
    intro p hp
    have := hd p.2 (List.of_mem_zip hp).2
    have hb := basis_val hr hv hN (o := some p.2) (by rintro d ⟨⟩; exact this)
    simp only [atDof] at hb
    simp only [Function.comp, Prod.map]
    rw [← hb]; rfl

end IFEM.Spec
