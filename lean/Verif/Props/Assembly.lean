import Verif.Lemmas.FEExpand
import Mathlib.Tactic.IntervalCases
/-!
# C05–C10: assembly, expansion and the constrained discrete problem

All theorems start from tables that describe a valid finite element model (`Packs`, `Valid`) and are
accepted by `initSystemEquations`; `init_accepts` (below, C05_tables_accepted) shows that this always
succeeds for a valid model.  `EqnOf`, `BasisField`, `LiftField`, `Admissible`, `Solves` are defined in
`Verif/Spec` without reference to assembly.
-/
namespace IFEM.Props
open IFEM.Spec IFEM.Sam
variable {R : Type} [CommRing R]

omit [CommRing R] in
/-- Tables describing a valid model are always accepted. -/
theorem C05_tables_accepted {s0 : Sam R} {D : FEModel R} (hp : Packs s0 D) (hv : D.Valid) :
    ∃ s, s0.initSystemEquations = some (s, true) := init_accepts hp hv

/-- Every equation has a unique global shape function, and there is a unique lift: the hypotheses of
C05/C06 on `N`, `g` can always be met, and they determine `N`, `g` at every DOF. -/
theorem C05_basis_exists_unique {s0 s : Sam R} {D : FEModel R} (hp : Packs s0 D) (hv : D.Valid)
    (h : s0.initSystemEquations = some (s, true)) :
    (∀ r, ∃ N, BasisField s D r N) ∧ (∃ g, LiftField D g) ∧
    (∀ r N N', BasisField s D r N → BasisField s D r N' →
      ∀ d, 1 ≤ d → d ≤ D.status.length → N d = N' d) ∧
    (∀ g g', LiftField D g → LiftField D g' → ∀ d, 1 ≤ d → d ≤ D.status.length → g d = g' d) := by
  have hr := ready_of_init hp hv h
  refine ⟨fun r => exists_basisField hr hv r, exists_liftField hr hv, ?_, ?_⟩
  · intro r N N' h1 h2 d hd1 hd2
    have ho : ∀ d', (some d : Option Nat) = some d' → 1 ≤ d' ∧ d' ≤ D.status.length := by
      intro d' h; cases h; exact ⟨hd1, hd2⟩
    exact (basis_val hr hv h1 ho).trans (basis_val hr hv h2 ho).symm
  · intro g g' h1 h2 d hd1 hd2
    have ho : ∀ d', (some d : Option Nat) = some d' → 1 ≤ d' ∧ d' ≤ D.status.length := by
      intro d' h; cases h; exact ⟨hd1, hd2⟩
    exact (lift_val hr hv h1 ho).trans (lift_val hr hv h2 ho).symm

/-- **C05**. Assembling an element vector succeeds and adds to every equation `r` exactly the
work of the element forces on the global shape function of that equation: `B += Tᵀ F_e`. -/
theorem C05_assemble_vector {s0 s : Sam R} {D : FEModel R} (hp : Packs s0 D) (hv : D.Valid)
    (h : s0.initSystemEquations = some (s, true)) {e : Elem R} (he : ElemFits D e)
    (B : List R) (hB : B.length = s.neq) :
    ∃ B', s.assembleVec B e.eF e.iel = some B' ∧ B'.length = s.neq ∧
      ∀ r N, BasisField s D r N → vval B' r = vval B r +
        ∑ i : Fin (D.dofsOf e.iel).length, atDof N (D.dofsOf e.iel)[i] * vval e.eF ((i:Int)+1) := by
  have hr := ready_of_init hp hv h
  obtain ⟨B', h1, h2, h3⟩ := assembleVec_spec hr hv he B hB
  refine ⟨B', h1, h2, ?_⟩
  intro r N hN
  have hd : ∀ i : Fin (D.dofsOf e.iel).length, ∀ d, (D.dofsOf e.iel)[i] = some d → 1 ≤ d ∧ d ≤ D.status.length :=
    fun i => dofs_ok hv (nodesOf_mem he) _ (List.getElem_mem i.2)
  rw [h3]
  congr 1
  apply Finset.sum_congr rfl
  intro i _
  rw [basis_val hr hv hN (hd i)]
  rfl

/-- **C06**. Assembling an element matrix together with the right-hand side succeeds, adds
`N_r · K_e · N_c` to every entry `(r,c)` (that is `K += Tᵀ K_e T`) and subtracts `N_r · K_e · g`
from every right-hand-side entry (that is `B -= Tᵀ K_e g`). -/
theorem C06_assemble_matrix {s0 s : Sam R} {D : FEModel R} (hp : Packs s0 D) (hv : D.Valid)
    (h : s0.initSystemEquations = some (s, true)) {e : Elem R} (he : ElemFits D e)
    (K : Mat R) (hK : K.WF) (hrow : K.nrow = s.neq) (hcol : K.ncol = s.neq)
    (B : List R) (hB : B.length = s.neq) :
    ∃ K' B', s.assembleMat K B e.eK e.iel = some (K', B') ∧
      K'.WF ∧ K'.nrow = s.neq ∧ K'.ncol = s.neq ∧ B'.length = s.neq ∧
      (∀ r c N N', BasisField s D r N → BasisField s D c N' → K'.val r c = K.val r c +
        ∑ i : Fin (D.dofsOf e.iel).length, ∑ j : Fin (D.dofsOf e.iel).length,
          atDof N (D.dofsOf e.iel)[i] * e.eK.val ((i:Int)+1) ((j:Int)+1) * atDof N' (D.dofsOf e.iel)[j]) ∧
      (∀ r N g, BasisField s D r N → LiftField D g → vval B' r = vval B r -
        ∑ i : Fin (D.dofsOf e.iel).length, ∑ j : Fin (D.dofsOf e.iel).length,
          atDof N (D.dofsOf e.iel)[i] * e.eK.val ((i:Int)+1) ((j:Int)+1) * atDof g (D.dofsOf e.iel)[j]) := by
  have hr := ready_of_init hp hv h
  obtain ⟨K', B', h1, h2, h3, h4, h5, h6, h7⟩ := assembleMat_spec hr hv he K hK hrow hcol B hB
  have hd : ∀ i : Fin (D.dofsOf e.iel).length, ∀ d, (D.dofsOf e.iel)[i] = some d → 1 ≤ d ∧ d ≤ D.status.length :=
    fun i => dofs_ok hv (nodesOf_mem he) _ (List.getElem_mem i.2)
  refine ⟨K', B', h1, h2, h3, h4, h5, ?_, ?_⟩
  · intro r c N N' hN hN'
    rw [h6]
    congr 1
    apply Finset.sum_congr rfl
    intro i _
    apply Finset.sum_congr rfl
    intro j _
    rw [basis_val hr hv hN (hd i), basis_val hr hv hN' (hd j)]
    rfl
  · intro r N g hN hg
    rw [h7]
    congr 1
    apply Finset.sum_congr rfl
    intro i _
    apply Finset.sum_congr rfl
    intro j _
    rw [basis_val hr hv hN (hd i), lift_val hr hv hg (hd j)]
    rfl

/-- **C06** (rejection). An element matrix whose row dimension differs from the number of element DOFs is rejected. -/
theorem C06_wrong_size_rejected {s0 s : Sam R} {D : FEModel R} (hp : Packs s0 D) (hv : D.Valid)
    (h : s0.initSystemEquations = some (s, true)) {k : Nat} {nodes : List Int}
    (hk : D.elems[k]? = some nodes) (hne : nodes ≠ []) (K : Mat R) (B : List R) (eK : Mat R)
    (he : ¬ eK.isEmpty) (h0 : eK.nrow ≠ 0) (hsz : eK.nrow ≠ (D.elmDofs nodes).length) :
    s.assembleMat K B eK (k+1) = none := by
  have hr := ready_of_init hp hv h
  unfold assembleMat
  rw [if_neg he]
  unfold assembleDense
  split
  · rfl
  · rw [getElmEqns_reject hr hv hk _ ⟨hne, h0, hsz⟩]; rfl

/-- **C07**. Expanding any equation vector `x` (at least `neq` long) succeeds and yields the DOF
vector that obeys every constraint (constant terms scaled by `scale`), vanishes at every other suppressed
DOF, and carries at every free DOF the value of its equation; it is the only such vector. -/
theorem C07_expand {s0 s : Sam R} {D : FEModel R} (hp : Packs s0 D) (hv : D.Valid)
    (h : s0.initSystemEquations = some (s, true)) (x : List R) (hx : s.neq ≤ x.length) (scale : R) :
    ∃ u, s.expandVector x scale = some u ∧ u.length = D.status.length ∧
      D.Admissible scale (fun d => vval u d) ∧
      (∀ d r, D.Free d → EqnOf s d r → vval u d = vval x r) ∧
      (∀ u' : Nat → R, D.Admissible scale u' → (∀ d r, D.Free d → EqnOf s d r → u' d = vval x r) →
        ∀ d : Nat, 1 ≤ d → d ≤ D.status.length → u' d = vval u d) := by
  have hr := ready_of_init hp hv h
  obtain ⟨u, h1, h2, h3⟩ := expand_spec hr hv x hx scale
  refine ⟨u, h1, h2, ?_, ?_, ?_⟩
  · exact admissible_congr hv (fun d a b => h3 d a b) (codeVal_admissible hr hv scale (vval x))
  · intro d r hd he
    have hrng := free_range hd
    rw [h3 d hrng.1 hrng.2, codeVal_free hr _ _ hd]
    rw [EqnOf, (eqv_free hr hd).1] at he
    rw [Option.some.inj he]
  · intro u' ha hu' d a b
    rw [h3 d a b]
    apply admissible_val hr hv ha _ a b
    intro d hd
    exact hu' d _ hd (eqv_free hr hd).1

/-- **C07** (too short). A vector with fewer than `neq` components is rejected. -/
theorem C07_short_rejected (s : Sam R) (x : List R) (scale : R) (hx : x.length < s.neq) :
    s.expandVector x scale = none := by
  unfold expandVector; rw [if_pos hx]

/-- **C08**. For every model, every list of elements and every equation vector `x`: the assembled
system `K x = B` holds if and only if the expanded vector solves the constrained discrete problem
(it obeys all constraints, and the element residuals do no work on any admissible variation). -/
theorem C08_galerkin {s0 s : Sam R} {D : FEModel R} (hp : Packs s0 D) (hv : D.Valid)
    (h : s0.initSystemEquations = some (s, true)) (es : List (Elem R)) (hes : ∀ e ∈ es, ElemFits D e)
    (x : List R) (hx : x.length = s.neq) :
    ∃ K B u, s.assembleAll (Mat.zero s.neq s.neq, List.replicate s.neq 0) es = some (K, B) ∧
      s.expandVector x 1 = some u ∧
      (SolvesSystem s.neq K B x ↔ Solves D es (fun d => vval u d)) := by
  have hr := ready_of_init hp hv h
  obtain ⟨K, B, h1, h2, h3, h4, h5, h6, h7⟩ := assembleAll_spec hr hv es hes (Mat.zero s.neq s.neq)
    (zero_wf _ _) rfl rfl (List.replicate s.neq 0) (by simp)
  obtain ⟨u, g1, g2, g3, g4, -⟩ := C07_expand hp hv h x (by omega) 1
  refine ⟨K, B, u, h1, g1, ?_⟩
  have hux : ∀ d, D.Free d → vval u d = vval x (eqv s d) := fun d hd => g4 d _ hd (eqv_free hr hd).1
  have key : ∀ w (y : Int → R), D.Admissible 0 w → (∀ d, D.Free d → w d = y (eqv s d)) →
      (es.map (elmWork D (fun d => vval u d) w)).sum = ∑ r ∈ Finset.Icc (1:Int) s.neq, y r *
        (vval B r - ∑ c ∈ Finset.Icc (1:Int) s.neq, K.val r c * vval x c) := by
    intro w y hw hwy
    simp only [h6, h7, zero_val, vval_replicate, zero_add]
    clear h1 h6 h7
    induction es with
    | nil => simp
    | cons e es ih =>
      rw [List.map_cons, List.sum_cons, ih (fun e he => hes e (List.mem_cons_of_mem _ he)),
        elmWork_eq hr hv (hes e List.mem_cons_self) g3 hux hw hwy, ← Finset.sum_add_distrib]
      apply Finset.sum_congr rfl
      intro r _
      simp only [List.map_cons, List.sum_cons, add_mul, Finset.sum_add_distrib]
      ring
  constructor
  · intro hsol
    refine ⟨g3, ?_⟩
    intro w hw
    -- the free values of w as a function of the equation number
    classical
    let y : Int → R := fun r => if hex : ∃ d, D.Free d ∧ eqv s d = r then w hex.choose else 0
    have hwy : ∀ d, D.Free d → w d = y (eqv s d) := by
      intro d hd
      have hex : ∃ d', D.Free d' ∧ eqv s d' = eqv s d := ⟨d, hd, rfl⟩
      simp only [y, dif_pos hex]
      have hc := hex.choose_spec
      have : hex.choose = d := by
        apply hr.inj _ _ (eqv s d) hc.1 hd
        · rw [(eqv_free hr hc.1).1, hc.2]
        · exact (eqv_free hr hd).1
      rw [this]
    rw [key w y hw hwy]
    apply Finset.sum_eq_zero
    intro r hrm
    rw [Finset.mem_Icc] at hrm
    rw [hsol r hrm.1 hrm.2]; ring
  · intro hsol r hr1 hr2
    obtain ⟨N, hN⟩ := exists_basisField hr hv r
    let y : Int → R := fun q => if q = r then (1:R) else 0
    have hNy : ∀ d, D.Free d → N d = y (eqv s d) := by
      intro d hd
      have he := (eqv_free hr hd).1
      by_cases hc : eqv s d = r
      · simp only [y, if_pos hc]; exact hN.own d hd (by rw [EqnOf, he, hc])
      · simp only [y, if_neg hc]
        apply hN.other d hd
        intro h; rw [EqnOf, he] at h; exact hc (Option.some.inj h)
    have h0 := hsol.work N hN.adm
    rw [key N y hN.adm hNy, Finset.sum_eq_single r] at h0
    · simp only [y, if_true, one_mul] at h0
      exact (sub_eq_zero.1 h0).symm
    · intro b _ hb; simp [y, hb]
    · intro hn; exact absurd (Finset.mem_Icc.2 ⟨hr1, hr2⟩) hn

/-- **C09**. Assembling the same elements in any other order gives the same matrix and right-hand side. -/
theorem C09_order_independent {s0 s : Sam R} {D : FEModel R} (hp : Packs s0 D) (hv : D.Valid)
    (h : s0.initSystemEquations = some (s, true)) {es es' : List (Elem R)} (hes : ∀ e ∈ es, ElemFits D e)
    (hperm : es.Perm es') (K : Mat R) (hK : K.WF) (hrow : K.nrow = s.neq) (hcol : K.ncol = s.neq)
    (B : List R) (hB : B.length = s.neq) :
    s.assembleAll (K, B) es' = s.assembleAll (K, B) es ∧ (s.assembleAll (K, B) es).isSome := by
  have hr := ready_of_init hp hv h
  obtain ⟨K1, B1, h1, h2, h3, h4, h5, h6, h7⟩ := assembleAll_spec hr hv es hes K hK hrow hcol B hB
  obtain ⟨K2, B2, g1, g2, g3, g4, g5, g6, g7⟩ := assembleAll_spec hr hv es'
    (fun e he => hes e (hperm.mem_iff.2 he)) K hK hrow hcol B hB
  rw [h1, g1]
  refine ⟨?_, rfl⟩
  have hKeq : K2 = K1 := Mat.ext_val g2 h2 (by omega) (by omega) (by
    intro r c; rw [g6, h6, (hperm.map _).sum_eq])
  have hBeq : B2 = B1 := list_ext_vval (by omega) (by
    intro r; rw [g7, h7, (hperm.map _).sum_eq])
  rw [hKeq, hBeq]

/-- **C10**. Symmetric element matrices give a symmetric system matrix, whatever the constraints are. -/
theorem C10_symmetric {s0 s : Sam R} {D : FEModel R} (hp : Packs s0 D) (hv : D.Valid)
    (h : s0.initSystemEquations = some (s, true)) (es : List (Elem R)) (hes : ∀ e ∈ es, ElemFits D e)
    (hsym : ∀ e ∈ es, Symm e.eK) :
    ∃ K B, s.assembleAll (Mat.zero s.neq s.neq, List.replicate s.neq 0) es = some (K, B) ∧ Symm K := by
  have hr := ready_of_init hp hv h
  obtain ⟨K, B, h1, h2, h3, h4, h5, h6, h7⟩ := assembleAll_spec hr hv es hes (Mat.zero s.neq s.neq)
    (zero_wf _ _) rfl rfl (List.replicate s.neq 0) (by simp)
  refine ⟨K, B, h1, ?_⟩
  intro r c
  rw [h6, h6, zero_val, zero_val]
  congr 2
  apply List.map_congr_left
  intro e he
  unfold elmK
  rw [Finset.sum_comm]
  apply Finset.sum_congr rfl
  intro j _
  apply Finset.sum_congr rfl
  intro i _
  rw [hsym e he]; ring

/-! ### A concrete model meeting the hypotheses -/

/-- Three nodes with 2, 1 and 2 DOFs; DOF 2 is fixed, DOF 4 is a slave: `u4 = 7 + 2 u1 + 3 u3`;
three elements, the last one with a hole. -/
def exampleModel : FEModel ℤ :=
  { nndof := [2, 1, 2], status := [2, 0, 1, 0, 1], cons := [⟨4, 7, [(1, 2), (3, 3)]⟩],
    elems := [[1, 2], [2, 3], [3, -1]] }

def exampleTables : Sam ℤ :=
  { nnod := 3, nel := 3, ndof := 5, nceq := 1, mpmnpc := [1, 3, 5, 7], mmnpc := [1, 2, 2, 3, 3, -1],
    madof := [1, 3, 4, 6], msc := [2, 0, 1, 0, 1], mpmceq := [1, 4], mmceq := [4, 1, 3], ttcc := [7, 2, 3] }

example : exampleModel.Valid :=
  { ndof := rfl
    status := by decide
    slave := by
      intro c hc; simp [exampleModel] at hc; subst hc; exact ⟨by decide, rfl⟩
    master := by
      intro c hc m hm; simp [exampleModel] at hc; subst hc
      simp at hm
      rcases hm with rfl | rfl
      · exact ⟨by decide, Or.inr rfl⟩
      · exact ⟨by decide, Or.inl rfl⟩
    unique := by decide
    nodes := by decide }

example : Packs exampleTables exampleModel :=
  { nnod := rfl, ndof := rfl, nel := rfl, nceq := rfl, msc := rfl
    madof := by
      intro n h1 h2
      simp [exampleModel] at h2
      interval_cases n <;> rfl
    con := by
      intro k c hc
      have hk := (List.getElem?_eq_some_iff.1 hc).1
      simp [exampleModel] at hk
      subst hk
      simp [exampleModel] at hc
      subst hc
      refine ⟨1, rfl, rfl, rfl, rfl, ?_⟩
      intro j m hj
      have hk := (List.getElem?_eq_some_iff.1 hj).1
      simp at hk
      interval_cases j <;> (simp at hj; subst hj; exact ⟨rfl, rfl⟩)
    elm := by
      intro k e he
      have hk := (List.getElem?_eq_some_iff.1 he).1
      simp [exampleModel] at hk
      interval_cases k <;> (simp [exampleModel] at he; subst he)
      · refine ⟨1, rfl, rfl, ?_⟩
        intro j m hj
        have hk := (List.getElem?_eq_some_iff.1 hj).1
        simp at hk
        interval_cases j <;> (simp at hj; subst hj; rfl)
      · refine ⟨3, rfl, rfl, ?_⟩
        intro j m hj
        have hk := (List.getElem?_eq_some_iff.1 hj).1
        simp at hk
        interval_cases j <;> (simp at hj; subst hj; rfl)
      · refine ⟨5, rfl, rfl, ?_⟩
        intro j m hj
        have hk := (List.getElem?_eq_some_iff.1 hj).1
        simp at hk
        interval_cases j <;> (simp at hj; subst hj; rfl) }

/-- The DOFs of the second element are 3, 4 (the slave), 5, and a matching element matrix exists. -/
example : exampleModel.dofsOf 2 = [some 3, some 4, some 5] ∧
    ElemFits exampleModel ⟨2, ⟨3, 3, [4, 1, 0, 1, 5, 2, 0, 2, 6]⟩, [1, 2, 3]⟩ :=
  ⟨by decide, { range := by decide, mat := ⟨rfl, by decide, by decide⟩, vec := by decide }⟩

end IFEM.Props
