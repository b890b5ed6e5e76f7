import Verif.Model.Diag
import Verif.Lemmas.SparseFE
/-! Assembly into diagonal storage. -/
namespace IFEM.Spec
open IFEM.Sam IFEM.Diag
variable {R : Type} [CommRing R]
attribute [-simp] Fin.getElem_fin

/-- Contribution of an addition to entry `r`. -/
def dAt (r : Int) : Option (Int × R) → R
  | some (r', v) => if r' = r then v else 0
  | none => 0

theorem dLoop_spec (us : List (Option (Int × R))) : ∀ (d : List R),
    (∀ u ∈ us, ∃ r v, u = some (r, v) ∧ 1 ≤ r ∧ r ≤ d.length) →
    ∃ d', us.foldlM (fun (d : List R) u => do
      let u ← u
      add1? d u.1 u.2) d = some d' ∧ d'.length = d.length ∧ ∀ r, vval d' r = vval d r + (us.map (dAt r)).sum := by
  induction us with
  | nil => intro d _; exact ⟨d, rfl, rfl, by simp⟩
  | cons u us ih =>
    intro d h
    obtain ⟨r, v, rfl, h1, h2⟩ := h u List.mem_cons_self
    obtain ⟨d1, a1, a2, a3⟩ := add1?_spec d r v h1 h2
    obtain ⟨d2, b1, b2, b3⟩ := ih d1 (by rw [a2]; exact fun u hu => h u (List.mem_cons_of_mem _ hu))
    refine ⟨d2, ?_, by omega, ?_⟩
    · rw [List.foldlM_cons]
      simp only [Option.bind_eq_bind, Option.bind_some] at b1 ⊢
      rw [a1]; exact b1
    · intro r'
      rw [b3, a3, List.map_cons, List.sum_cons, dAt]; ring

section
variable {s : Sam R} {eM : Mat R} {meen : List Int} {tm : Int → List (Int × R)} {M : Nat → Nat → R}

/-- Direct part of the transformation coefficient. -/
def fco (x r : Int) : R := if x > 0 ∧ x = r then 1 else 0

/-- Constraint part of the transformation coefficient. -/
def sco (tm : Int → List (Int × R)) (x r : Int) : R :=
  if x < 0 then ((tm x).map fun t => if t.1 = r then t.2 else 0).sum else 0

theorem tcoef_split (x r : Int) : tcoef tm x r = fco x r + sco tm x r := by
  unfold tcoef fco sco
  by_cases h : x > 0
  · rw [if_pos h, if_neg (by omega : ¬ x < 0)]
    by_cases h2 : x = r
    · rw [if_pos h2, if_pos ⟨h, h2⟩]; simp
    · rw [if_neg h2, if_neg (by tauto)]; simp
  · rw [if_neg h, if_neg (by tauto : ¬ (x > 0 ∧ x = r))]
    by_cases h3 : x < 0
    · rw [if_pos (by omega), if_pos h3]; simp
    · rw [if_neg (by omega), if_neg h3]; simp

theorem sum_map_mul_left' {α : Type _} (l : List α) (f : α → R) (c : R) :
    (l.map fun x => c * f x).sum = c * (l.map f).sum := by
  induction l with
  | nil => simp
  | cons x l ih => simp only [List.map_cons, List.sum_cons, ih]; ring

theorem diag_inner (hM : ∀ i j : Fin meen.length, eM.elm? i j = some (M i j))
    (hmt : ∀ e ∈ meen, e < 0 → s.masterTerms (-e) = (tm e).map some)
    (j i : Fin meen.length) (jeq : Int) (hj : jeq > 0) (wj : R) (r : Int) :
    ((if meen[i] = jeq then
        [(eM.elm? i j).bind fun a => (eM.elm? j i).map fun b => (jeq, wj * (a + b))]
      else if -meen[i] > 0 then
        (s.masterTerms (-meen[i])).filterMap fun ti =>
          match ti with
          | none => some none
          | some (ieq, wi) =>
            if ieq = jeq then some ((eM.elm? i j).map fun a => (jeq, wi * wj * a)) else none
      else []).map (dAt r)).sum =
    if jeq = r then wj * (fco meen[i] r * (M i j + M j i) + sco tm meen[i] r * M i j) else 0 := by
  have hmem := fmem meen i
  have hMij := hM i j
  have hMji := hM j i
  generalize meen[i] = x at *
  rw [hMij, hMji]
  by_cases h1 : x = jeq
  · rw [if_pos h1]
    simp only [Option.bind_some, Option.map_some, List.map_cons, List.map_nil, List.sum_cons, List.sum_nil, dAt]
    by_cases hr : jeq = r
    · rw [if_pos hr, if_pos hr]
      unfold fco sco
      rw [if_pos ⟨by omega, by omega⟩, if_neg (by omega)]; ring
    · rw [if_neg hr, if_neg hr]; ring
  · rw [if_neg h1]
    by_cases h2 : -x > 0
    · rw [if_pos h2, hmt x hmem (by omega)]
      have hgen : ∀ l : List (Int × R), (((l.map some).filterMap fun ti : Option (Int × R) =>
          match ti with
          | none => some none
          | some (ieq, wi) =>
            if ieq = jeq then some ((some (M i j)).map fun a => (jeq, wi * wj * a)) else none).map (dAt r)).sum =
          if jeq = r then wj * ((l.map fun t => if t.1 = r then t.2 else 0).sum * M i j) else 0 := by
        intro l
        induction l with
        | nil => simp
        | cons t l ih =>
          rw [List.map_cons, List.filterMap_cons]
          by_cases ht : t.1 = jeq
          · simp only [if_pos ht, Option.map_some, List.map_cons, List.sum_cons] at ih ⊢
            rw [ih, dAt]
            by_cases hr : jeq = r
            · rw [if_pos hr, if_pos hr, if_pos hr, if_pos (by omega : t.1 = r)]; ring
            · rw [if_neg hr, if_neg hr, if_neg hr]; ring
          · simp only [if_neg ht, List.map_cons, List.sum_cons] at ih ⊢
            rw [ih]
            by_cases hr : jeq = r
            · rw [if_pos hr, if_pos hr, if_neg (by omega : ¬ t.1 = r)]; ring
            · rw [if_neg hr, if_neg hr]
      rw [hgen]
      unfold fco sco
      rw [if_neg (by omega : ¬ (x > 0 ∧ x = r)), if_pos (by omega : x < 0)]
      split <;> ring
    · rw [if_neg h2]
      unfold fco sco
      by_cases hr : jeq = r
      · rw [if_pos hr, if_neg (by omega : ¬ (x > 0 ∧ x = r)), if_neg (by omega : ¬ x < 0)]; simp
      · rw [if_neg hr]; simp

theorem diagUpd_sum (hM : ∀ i j : Fin meen.length, eM.elm? i j = some (M i j))
    (hmt : ∀ e ∈ meen, e < 0 → s.masterTerms (-e) = (tm e).map some)
    (hpos : ∀ e ∈ meen, e < 0 → ∀ t ∈ tm e, 1 ≤ t.1) (r : Int) :
    ((diagUpd s eM meen).map (dAt r)).sum =
      ∑ j : Fin meen.length, (fco meen[j] r * M j j +
        sco tm meen[j] r * ∑ i : Fin meen.length, (fco meen[i] r * (M i j + M j i) + sco tm meen[i] r * M i j)) := by
  unfold diagUpd
  rw [sum_map_flatMap, sum_finRange]
  apply Finset.sum_congr rfl
  intro j _
  have hmem := fmem meen j
  have hMjj := hM j j
  have hin := fun i jeq hj wj => diag_inner (s := s) hM hmt j i jeq hj wj r
  generalize meen[j] = y at *
  by_cases h1 : y > 0
  · rw [if_pos h1, hMjj]
    simp only [Option.map_some, List.map_cons, List.map_nil, List.sum_cons, List.sum_nil, dAt]
    unfold fco sco
    rw [if_neg (by omega : ¬ y < 0)]
    by_cases h2 : y = r
    · rw [if_pos h2, if_pos ⟨h1, h2⟩]; ring
    · rw [if_neg h2, if_neg (by tauto)]; ring
  · rw [if_neg h1]
    by_cases h2 : -y > 0
    · rw [if_pos h2, hmt y hmem (by omega)]
      have hp := hpos y hmem (by omega)
      have hf : (fco y r : R) = 0 := by unfold fco; rw [if_neg (by omega)]
      have hs : (sco tm y r : R) = ((tm y).map fun t => if t.1 = r then t.2 else 0).sum := by
        unfold sco; rw [if_pos (by omega)]
      rw [hf, hs, zero_mul, zero_add]
      generalize tm y = l at hp
      clear hs
      induction l with
      | nil => simp
      | cons t l ih =>
        rw [List.map_cons, List.flatMap_cons, List.map_append, List.sum_append,
          ih (fun t' h' => hp t' (List.mem_cons_of_mem _ h')), List.map_cons, List.sum_cons, add_mul]
        congr 1
        have ht := hp t List.mem_cons_self
        simp only
        rw [if_pos (by omega : t.1 > 0), sum_map_flatMap, sum_finRange]
        refine (Finset.sum_congr rfl (fun i _ => hin i t.1 (by omega) t.2)).trans ?_
        by_cases hr : t.1 = r
        · simp only [if_pos hr]
          rw [Finset.mul_sum]
        · simp only [if_neg hr]; simp
    · rw [if_neg h2]
      have hf : (fco y r : R) = 0 := by unfold fco; rw [if_neg (by omega)]
      have hs : (sco tm y r : R) = 0 := by unfold sco; rw [if_neg (by omega)]
      rw [hf, hs]; simp

/-- If no equation is owned by two element DOFs, the sum is the diagonal of `Tᵀ M T`. -/
theorem diag_identity {n : Nat} (F S : Fin n → R) (A : Fin n → Fin n → R)
    (hF : ∀ i j, i ≠ j → F i * F j = 0) (hFF : ∀ i, F i * F i = F i) :
    ∑ j, (F j * A j j + S j * ∑ i, (F i * (A i j + A j i) + S i * A i j)) =
      ∑ i, ∑ j, (F i + S i) * A i j * (F j + S j) := by
  have h1 : ∑ i, ∑ j, (F i + S i) * A i j * (F j + S j) =
      ∑ i, ∑ j, F i * F j * A i j + (∑ i, ∑ j, S i * F j * A i j + ∑ i, ∑ j, (F i * S j * A i j + S i * S j * A i j)) := by
    rw [← Finset.sum_add_distrib, ← Finset.sum_add_distrib]
    apply Finset.sum_congr rfl
    intro i _
    rw [← Finset.sum_add_distrib, ← Finset.sum_add_distrib]
    apply Finset.sum_congr rfl
    intro j _
    ring
  have h2 : ∑ i, ∑ j, F i * F j * A i j = ∑ j, F j * A j j := by
    apply Finset.sum_congr rfl
    intro i _
    rw [Finset.sum_eq_single i]
    · rw [hFF]
    · intro j _ hne; rw [hF i j (Ne.symm hne), zero_mul]
    · intro h; exact absurd (Finset.mem_univ i) h
  have h3 : ∑ i, ∑ j, (F i * S j * A i j + S i * S j * A i j) = ∑ j, ∑ i, (F i * S j * A i j + S i * S j * A i j) :=
    Finset.sum_comm
  have h4 : ∑ j, (F j * A j j + S j * ∑ i, (F i * (A i j + A j i) + S i * A i j)) =
      ∑ j, F j * A j j + ∑ j, S j * ∑ i, (F i * (A i j + A j i) + S i * A i j) := Finset.sum_add_distrib
  rw [h1, h2, h3, h4]
  congr 1
  rw [← Finset.sum_add_distrib]
  apply Finset.sum_congr rfl
  intro j _
  rw [Finset.mul_sum, ← Finset.sum_add_distrib]
  apply Finset.sum_congr rfl
  intro i _
  ring

theorem diagUpd_mem (hM : ∀ i j : Fin meen.length, eM.elm? i j = some (M i j))
    (hmt : ∀ e ∈ meen, e < 0 → s.masterTerms (-e) = (tm e).map some) {n : Nat}
    (hle : ∀ e ∈ meen, e ≤ n) (htm : ∀ e ∈ meen, e < 0 → ∀ t ∈ tm e, 1 ≤ t.1 ∧ t.1 ≤ n)
    {u : Option (Int × R)} (hu : u ∈ diagUpd s eM meen) : ∃ r v, u = some (r, v) ∧ 1 ≤ r ∧ r ≤ n := by
  unfold diagUpd at hu
  obtain ⟨j, -, hu⟩ := List.mem_flatMap.1 hu
  have hjm := fmem meen j
  by_cases h1 : meen[j] > 0
  · rw [if_pos h1, hM] at hu
    simp only [Option.map_some, List.mem_cons, List.not_mem_nil, or_false] at hu
    exact ⟨_, _, hu, by omega, hle _ hjm⟩
  · rw [if_neg h1] at hu
    by_cases h2 : -meen[j] > 0
    · rw [if_pos h2, hmt _ hjm (by omega)] at hu
      obtain ⟨tj, htj, hu⟩ := List.mem_flatMap.1 hu
      obtain ⟨t, ht, rfl⟩ := List.mem_map.1 htj
      have hb := htm _ hjm (by omega) t ht
      simp only at hu
      rw [if_pos (by omega)] at hu
      obtain ⟨i, -, hu⟩ := List.mem_flatMap.1 hu
      have him := fmem meen i
      by_cases h3 : meen[i] = t.1
      · rw [if_pos h3, hM, hM] at hu
        simp only [Option.bind_some, Option.map_some, List.mem_cons, List.not_mem_nil, or_false] at hu
        exact ⟨_, _, hu, hb.1, hb.2⟩
      · rw [if_neg h3] at hu
        by_cases h4 : -meen[i] > 0
        · rw [if_pos h4, hmt _ him (by omega), hM] at hu
          obtain ⟨ti, hti, hu⟩ := List.mem_filterMap.1 hu
          obtain ⟨q, hq, rfl⟩ := List.mem_map.1 hti
          simp only at hu
          split at hu
          · simp only [Option.map_some, Option.some.injEq] at hu
            exact ⟨_, _, hu.symm, hb.1, hb.2⟩
          · cases hu
        · rw [if_neg h4] at hu; cases hu
    · rw [if_neg h2] at hu; cases hu
end

variable {s : Sam R} {D : FEModel R}

theorem diag_assembleMat (hr : Ready s D) (hv : D.Valid) {e : Elem R} (h : ElemFits D e) (hnr : NoRepeat D e.iel)
    (d : List R) (hd : d.length = s.neq) :
    ∃ d', Diag.assembleMat s d e.eK e.iel = some d' ∧ d'.length = s.neq ∧
      ∀ r, vval d' r = vval d r + elmK s D e r r := by
  unfold Diag.assembleMat
  by_cases he : e.eK.isEmpty
  · rw [if_pos he]
    refine ⟨d, rfl, hd, ?_⟩
    intro r
    have hl : (D.dofsOf e.iel).length = 0 := by
      have h1 := h.mat.wf
      unfold Mat.WF at h1
      unfold Mat.isEmpty at he
      rw [h.mat.row, h.mat.col, List.isEmpty_iff.1 he] at h1
      simpa [FEModel.dofsOf] using h1.symm
    have : elmK s D e r r = 0 := by
      unfold elmK
      apply Finset.sum_eq_zero
      intro i _; exact absurd i.2 (by omega)
    rw [this, add_zero]
  · rw [if_neg he]
    have hmem := nodesOf_mem h
    have hget := nodesOf_get h
    unfold Diag.assemble
    rw [if_neg (by omega), ← iel_cast h, getElmEqns_ready hr hv hget _ (Or.inr (Or.inr h.mat.row))]
    simp only [Option.bind_eq_bind, Option.bind_some]
    have hlen : ((D.elmDofs (D.nodesOf e.iel)).map (eqvO s)).length = (D.elmDofs (D.nodesOf e.iel)).length := by simp
    rw [if_neg (by rw [hlen, h.mat.row, h.mat.col]; omega)]
    let Mf : Nat → Nat → R := fun i j => e.eK.val ((i:Int)+1) ((j:Int)+1)
    have hMf : ∀ i j : Fin ((D.elmDofs (D.nodesOf e.iel)).map (eqvO s)).length, e.eK.elm? i j = some (Mf i j) := by
      intro i j
      apply elm_fits h.mat <;> omega
    have hmt := elmMt hr hv hmem
    have hle : ∀ x ∈ (D.elmDofs (D.nodesOf e.iel)).map (eqvO s), x ≤ (s.neq : Int) := by
      intro x hx
      obtain ⟨o, ho, rfl⟩ := List.mem_map.1 hx
      exact eqvO_le hr hv (dofs_ok hv hmem o ho)
    have htm : ∀ x ∈ (D.elmDofs (D.nodesOf e.iel)).map (eqvO s), x < 0 → ∀ t ∈ tmOf s D x, 1 ≤ t.1 ∧ t.1 ≤ s.neq := by
      intro x hx hn t ht
      obtain ⟨o, ho, rfl⟩ := List.mem_map.1 hx
      exact (tm_facts hr hv (dofs_ok hv hmem o ho) hn).2.2 t ht
    obtain ⟨d', g1, g2, g3⟩ := dLoop_spec (diagUpd s e.eK ((D.elmDofs (D.nodesOf e.iel)).map (eqvO s))) d (by
      intro u hu
      rw [hd]
      exact diagUpd_mem (M := Mf) (tm := tmOf s D) hMf hmt hle htm hu)
    refine ⟨d', g1, by omega, ?_⟩
    intro r
    rw [g3, diagUpd_sum (M := Mf) (tm := tmOf s D) hMf hmt (fun x hx hn t ht => (htm x hx hn t ht).1)]
    congr 1
    rw [diag_identity (fun j : Fin ((D.elmDofs (D.nodesOf e.iel)).map (eqvO s)).length =>
      (fco ((D.elmDofs (D.nodesOf e.iel)).map (eqvO s))[j] r : R))
      (fun j => sco (tmOf s D) ((D.elmDofs (D.nodesOf e.iel)).map (eqvO s))[j] r) (fun i j => Mf i j)]
    · simp only [← tcoef_split]
      unfold elmK
      rw [sum_fin_map (D.elmDofs (D.nodesOf e.iel)) (eqvO s)
        (fun i x => ∑ j : Fin ((D.elmDofs (D.nodesOf e.iel)).map (eqvO s)).length,
          tcoef (tmOf s D) x r * Mf i j * tcoef (tmOf s D) ((D.elmDofs (D.nodesOf e.iel)).map (eqvO s))[j] r)]
      apply Finset.sum_congr rfl
      intro i _
      exact sum_fin_map (D.elmDofs (D.nodesOf e.iel)) (eqvO s) (fun j y =>
        tcoef (tmOf s D) (eqvO s (D.elmDofs (D.nodesOf e.iel))[i]) r * Mf i j * tcoef (tmOf s D) y r)
    · intro i j hne
      unfold fco
      by_cases h1 : ((D.elmDofs (D.nodesOf e.iel)).map (eqvO s))[i] > 0 ∧ ((D.elmDofs (D.nodesOf e.iel)).map (eqvO s))[i] = r
      · by_cases h2 : ((D.elmDofs (D.nodesOf e.iel)).map (eqvO s))[j] > 0 ∧ ((D.elmDofs (D.nodesOf e.iel)).map (eqvO s))[j] = r
        · exfalso
          have hi : i.1 < (D.dofsOf e.iel).length := by have := i.2; unfold FEModel.dofsOf; omega
          have hj : j.1 < (D.dofsOf e.iel).length := by have := j.2; unfold FEModel.dofsOf; omega
          have gi : ((D.elmDofs (D.nodesOf e.iel)).map (eqvO s))[i] = eqvO s (D.dofsOf e.iel)[i.1] := by
            show ((D.elmDofs (D.nodesOf e.iel)).map (eqvO s))[i.1] = _
            rw [List.getElem_map]; rfl
          have gj : ((D.elmDofs (D.nodesOf e.iel)).map (eqvO s))[j] = eqvO s (D.dofsOf e.iel)[j.1] := by
            show ((D.elmDofs (D.nodesOf e.iel)).map (eqvO s))[j.1] = _
            rw [List.getElem_map]; rfl
          rw [gi] at h1
          rw [gj] at h2
          have oki := dofs_ok hv hmem _ (List.getElem_mem hi)
          have okj := dofs_ok hv hmem _ (List.getElem_mem hj)
          have hfree : ∀ o : Option Nat, (∀ d, o = some d → 1 ≤ d ∧ d ≤ D.status.length) → eqvO s o > 0 →
              ∃ d, o = some d ∧ D.Free d ∧ at1? s.meqn d = some (eqvO s o) := by
            intro o ho hp
            cases o with
            | none => simp [eqvO] at hp
            | some d =>
              obtain ⟨a, b⟩ := ho d rfl
              simp only [eqvO] at hp ⊢
              rcases dof_cases D hv a b with hf | ⟨k, c, hc, rfl⟩ | ⟨hs, hn⟩
              · exact ⟨d, rfl, hf, (eqv_free hr hf).1⟩
              · rw [eqv_slave hr hc] at hp; omega
              · rw [eqv_fixed hr hs hn] at hp; omega
          obtain ⟨d1, e1, f1, q1⟩ := hfree _ oki h1.1
          obtain ⟨d2, e2, f2, q2⟩ := hfree _ okj h2.1
          rw [h1.2] at q1
          rw [h2.2] at q2
          have hdd := hr.inj d1 d2 r f1 f2 q1 q2
          subst hdd
          have := hnr ⟨i.1, hi⟩ ⟨j.1, hj⟩ d1 e1 e2
          apply hne
          apply Fin.ext
          simpa using this
        · rw [if_neg h2, mul_zero]
      · rw [if_neg h1, zero_mul]
    · intro i
      unfold fco
      split <;> simp

end IFEM.Spec
