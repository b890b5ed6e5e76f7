import Verif.Lemmas.FEAssem
/-! Assembly of all elements in terms of equation codes. -/
namespace IFEM.Spec
open IFEM.Sam
variable {R : Type} [CommRing R] {s : Sam R} {D : FEModel R}

/-- Transformation coefficient of an element DOF. -/
def Tc (s : Sam R) (D : FEModel R) (o : Option Nat) (r : Int) : R := tcoef (tmOf s D) (eqvO s o) r

/-- Prescribed part of an element DOF. -/
def Gc (s : Sam R) (D : FEModel R) (o : Option Nat) : R := if eqvO s o < 0 then gOf D (eqvO s o) else 0

/-- Contribution of an element to matrix entry `(r,c)`. -/
def elmK (s : Sam R) (D : FEModel R) (e : Elem R) (r c : Int) : R :=
  ∑ i : Fin (D.dofsOf e.iel).length, ∑ j : Fin (D.dofsOf e.iel).length,
    Tc s D (D.dofsOf e.iel)[i] r * e.eK.val ((i:Int)+1) ((j:Int)+1) * Tc s D (D.dofsOf e.iel)[j] c

/-- Contribution of an element to right-hand-side entry `r`. -/
def elmB (s : Sam R) (D : FEModel R) (e : Elem R) (r : Int) : R :=
  (∑ i : Fin (D.dofsOf e.iel).length, Tc s D (D.dofsOf e.iel)[i] r * vval e.eF ((i:Int)+1)) -
  ∑ i : Fin (D.dofsOf e.iel).length, ∑ j : Fin (D.dofsOf e.iel).length,
    Tc s D (D.dofsOf e.iel)[i] r * e.eK.val ((i:Int)+1) ((j:Int)+1) * Gc s D (D.dofsOf e.iel)[j]

theorem zip_sum (eS : List R) (os : List (Option Nat)) (f : Option Nat → R) (h : eS.length = os.length) :
    ((eS.zip os).map fun p => f p.2 * p.1).sum =
      ∑ i : Fin os.length, f os[i] * vval eS ((i:Int)+1) := by
  have h2 : (eS.zip os).map (fun p => f p.2 * p.1) =
      (List.finRange os.length).map (fun i : Fin os.length => f os[i] * vval eS ((i:Int)+1)) := by
    apply List.ext_getElem
    · simp [h]
    · intro n h1 h2
      have hn : n < os.length := by simpa using h2
      simp [vval, List.getElem?_eq_getElem (show n < eS.length by omega)]
  rw [h2, sum_finRange]

omit [CommRing R] in
theorem nodesOf_get {e : Elem R} (h : ElemFits D e) : D.elems[e.iel-1]? = some (D.nodesOf e.iel) := by
  have := h.range
  unfold FEModel.nodesOf
  rw [List.getD_eq_getElem?_getD, List.getElem?_eq_getElem (show e.iel - 1 < D.elems.length by omega)]
  rfl

theorem nodesOf_mem {e : Elem R} (h : ElemFits D e) : D.nodesOf e.iel ∈ D.elems :=
  List.mem_of_getElem? (nodesOf_get h)

omit [CommRing R] in
theorem iel_cast {e : Elem R} (h : ElemFits D e) : ((e.iel - 1 : Nat) : Int) + 1 = e.iel := by
  have := h.range; omega

theorem assembleVec_spec (hr : Ready s D) (hv : D.Valid) {e : Elem R} (h : ElemFits D e)
    (B : List R) (hB : B.length = s.neq) :
    ∃ B', s.assembleVec B e.eF e.iel = some B' ∧ B'.length = s.neq ∧
      ∀ r, vval B' r = vval B r + ∑ i : Fin (D.dofsOf e.iel).length,
        Tc s D (D.dofsOf e.iel)[i] r * vval e.eF ((i:Int)+1) := by
  unfold assembleVec
  by_cases he : e.eF = []
  · rw [if_pos he]
    refine ⟨B, rfl, hB, ?_⟩
    intro r
    have hl : (D.dofsOf e.iel).length = 0 := by rw [← h.vec, he]; rfl
    have : ∑ i : Fin (D.dofsOf e.iel).length,
        Tc s D (D.dofsOf e.iel)[i] r * vval e.eF ((i:Int)+1) = 0 := by
      apply Finset.sum_eq_zero
      intro i _; exact absurd i.2 (by omega)
    rw [this, add_zero]
  · rw [if_neg he, ← iel_cast h, getElmEqns_ready hr hv (nodesOf_get h) _ (Or.inr (Or.inr h.vec))]
    simp only [Option.bind_eq_bind, Option.bind_some]
    obtain ⟨B', h1, h2, h3⟩ := assembleVecLoop_spec hr hv (D.dofsOf e.iel) e.eF
      (fun o ho => dofs_ok hv (nodesOf_mem h) o ho) B hB
    refine ⟨B', h1, h2, ?_⟩
    intro r
    rw [h3]
    congr 1
    exact zip_sum e.eF (D.dofsOf e.iel) (fun o => Tc s D o r) h.vec

theorem assembleMat_spec (hr : Ready s D) (hv : D.Valid) {e : Elem R} (h : ElemFits D e)
    (K : Mat R) (hwf : K.WF) (hrow : K.nrow = s.neq) (hcol : K.ncol = s.neq)
    (B : List R) (hB : B.length = s.neq) :
    ∃ K' B', s.assembleMat K B e.eK e.iel = some (K', B') ∧ K'.WF ∧ K'.nrow = s.neq ∧
      K'.ncol = s.neq ∧ B'.length = s.neq ∧ (∀ r c, K'.val r c = K.val r c + elmK s D e r c) ∧
      (∀ r, vval B' r = vval B r - ∑ i : Fin (D.dofsOf e.iel).length, ∑ j : Fin (D.dofsOf e.iel).length,
        Tc s D (D.dofsOf e.iel)[i] r * e.eK.val ((i:Int)+1) ((j:Int)+1) * Gc s D (D.dofsOf e.iel)[j]) := by
  unfold assembleMat
  by_cases he : e.eK.isEmpty
  · rw [if_pos he]
    refine ⟨K, B, rfl, hwf, hrow, hcol, hB, ?_, ?_⟩
    all_goals
      have hl : (D.dofsOf e.iel).length = 0 := by
        have h1 := h.mat.wf
        unfold Mat.WF at h1
        unfold Mat.isEmpty at he
        rw [h.mat.row, h.mat.col, List.isEmpty_iff.1 he] at h1
        simpa [FEModel.dofsOf] using h1.symm
    · intro r c
      have : elmK s D e r c = 0 := by
        unfold elmK
        apply Finset.sum_eq_zero
        intro i _; exact absurd i.2 (by omega)
      rw [this, add_zero]
    · intro r
      rw [Finset.sum_eq_zero, sub_zero]
      intro i _; exact absurd i.2 (by omega)
  · rw [if_neg he, ← iel_cast h]
    exact assembleDense_spec hr hv (nodesOf_get h) h.mat K hwf hrow hcol B hB

theorem assembleElm_spec (hr : Ready s D) (hv : D.Valid) {e : Elem R} (h : ElemFits D e)
    (K : Mat R) (hwf : K.WF) (hrow : K.nrow = s.neq) (hcol : K.ncol = s.neq)
    (B : List R) (hB : B.length = s.neq) :
    ∃ K' B', s.assembleElm (K, B) e = some (K', B') ∧ K'.WF ∧ K'.nrow = s.neq ∧
      K'.ncol = s.neq ∧ B'.length = s.neq ∧ (∀ r c, K'.val r c = K.val r c + elmK s D e r c) ∧
      (∀ r, vval B' r = vval B r + elmB s D e r) := by
  obtain ⟨B1, h1, h2, h3⟩ := assembleVec_spec hr hv h B hB
  obtain ⟨K', B', g1, g2, g3, g4, g5, g6, g7⟩ := assembleMat_spec hr hv h K hwf hrow hcol B1 h2
  refine ⟨K', B', ?_, g2, g3, g4, g5, g6, ?_⟩
  · unfold assembleElm
    simp only [Option.bind_eq_bind, h1, Option.bind_some]
    exact g1
  · intro r
    rw [g7, h3, elmB]; ring

theorem assembleAll_spec (hr : Ready s D) (hv : D.Valid) (es : List (Elem R)) (h : ∀ e ∈ es, ElemFits D e)
    (K : Mat R) (hwf : K.WF) (hrow : K.nrow = s.neq) (hcol : K.ncol = s.neq)
    (B : List R) (hB : B.length = s.neq) :
    ∃ K' B', s.assembleAll (K, B) es = some (K', B') ∧ K'.WF ∧ K'.nrow = s.neq ∧
      K'.ncol = s.neq ∧ B'.length = s.neq ∧
      (∀ r c, K'.val r c = K.val r c + (es.map fun e => elmK s D e r c).sum) ∧
      (∀ r, vval B' r = vval B r + (es.map fun e => elmB s D e r).sum) := by
  induction es generalizing K B with
  | nil => exact ⟨K, B, rfl, hwf, hrow, hcol, hB, by simp, by simp⟩
  | cons e es ih =>
    obtain ⟨K1, B1, h1, h2, h3, h4, h5, h6, h7⟩ := assembleElm_spec hr hv (h e List.mem_cons_self) K hwf hrow hcol B hB
    obtain ⟨K', B', g1, g2, g3, g4, g5, g6, g7⟩ := ih (fun e he => h e (List.mem_cons_of_mem _ he)) K1 h2 h3 h4 B1 h5
    refine ⟨K', B', ?_, g2, g3, g4, g5, ?_, ?_⟩
    · unfold assembleAll at *
      rw [List.foldlM_cons, h1]; exact g1
    · intro r c
      rw [g6, h6]; simp only [List.map_cons, List.sum_cons]; ring
    · intro r
      rw [g7, h7]; simp only [List.map_cons, List.sum_cons]; ring

/-- Equality of matrices of the same size from equality of entries. -/
theorem Mat.ext_val {K K' : Mat R} (h : K.WF) (h' : K'.WF) (hr : K.nrow = K'.nrow) (hc : K.ncol = K'.ncol)
    (hv : ∀ r c, K.val r c = K'.val r c) : K = K' := by
  obtain ⟨n, m, l⟩ := K
  obtain ⟨n', m', l'⟩ := K'
  simp only at hr hc
  subst hr hc
  simp only [Mat.WF] at h h'
  congr 1
  apply List.ext_getElem (by omega)
  intro i h1 h2
  have hn : 0 < n := by
    rcases Nat.eq_zero_or_pos n with h0 | h0
    · subst h0; simp at h; omega
    · exact h0
  have hi : i / n < m := by
    rw [Nat.div_lt_iff_lt_mul hn]; rw [h] at h1; rw [Nat.mul_comm]; exact h1
  have := hv ((i % n : Nat) + 1) ((i / n : Nat) + 1)
  unfold Mat.val Mat.get? at this
  have hb : (1 ≤ ((i % n : Nat) : Int) + 1 ∧ ((i % n : Nat) : Int) + 1 ≤ n ∧ 1 ≤ ((i / n : Nat) : Int) + 1 ∧ ((i / n : Nat) : Int) + 1 ≤ m) := by
    have hmod := Nat.mod_lt i hn
    refine ⟨by omega, ?_, ?_, ?_⟩
    · exact_mod_cast hmod
    · have : (0:Int) ≤ ((i / n : Nat) : Int) := Int.natCast_nonneg _
      omega
    · exact_mod_cast hi
  simp only [if_pos hb] at this
  have e1 : (((i % n : Nat) : Int) + 1 - 1).toNat = i % n := by omega
  have e2 : (((i / n : Nat) : Int) + 1 - 1).toNat = i / n := by rw [add_sub_cancel_right, Int.toNat_natCast]
  rw [e1, e2, Nat.mod_add_div, List.getElem?_eq_getElem h1, List.getElem?_eq_getElem h2] at this
  simpa using this

theorem list_ext_vval {B B' : List R} (hl : B.length = B'.length) (h : ∀ r, vval B r = vval B' r) : B = B' := by
  apply List.ext_getElem hl
  intro i h1 h2
  have := h ((i:Int)+1)
  simpa [vval, List.getElem?_eq_getElem h1, List.getElem?_eq_getElem h2] using this

theorem zero_val (n m : Nat) (r c : Int) : (Mat.zero (R := R) n m).val r c = 0 := by
  unfold Mat.val Mat.get? Mat.zero
  split
  · rw [List.getElem?_replicate]; split <;> rfl
  · rfl

theorem zero_wf (n m : Nat) : (Mat.zero (R := R) n m).WF := by simp [Mat.WF, Mat.zero]

theorem vval_replicate (n : Nat) (r : Int) : vval (List.replicate n (0:R)) r = 0 := by
  unfold vval at1? at0?
  split
  · rw [List.getElem?_replicate]; split <;> rfl
  · rfl

/-- An admissible field at an element DOF, expanded in the basis. -/
theorem field_expand (hr : Ready s D) (hv : D.Valid) {scale : R} {u : Nat → R} {x : Int → R}
    (ha : D.Admissible scale u) (hx : ∀ d, D.Free d → u d = x (eqv s d)) {o : Option Nat}
    (ho : ∀ d, o = some d → 1 ≤ d ∧ d ≤ D.status.length) :
    atDof u o = scale * Gc s D o + ∑ r ∈ Finset.Icc (1:Int) s.neq, Tc s D o r * x r := by
  rw [Gc]
  simp only [Tc]
  rw [← codeVal_expand hr hv scale x ho]
  cases o with
  | none => simp [atDof, eqvO, codeVal]
  | some d =>
    obtain ⟨h1, h2⟩ := ho d rfl
    simp only [atDof, eqvO]
    exact admissible_val hr hv ha hx h1 h2

/-- The algebra behind the Galerkin orthogonality. -/
theorem work_alg {n : Nat} (T : Fin n → Int → R) (G F : Fin n → R) (M : Fin n → Fin n → R) (S : Finset Int)
    (x y : Int → R) :
    ∑ i, (∑ r ∈ S, T i r * y r) * (F i - ∑ j, M i j * (G j + ∑ c ∈ S, T j c * x c)) =
    ∑ r ∈ S, y r * ((∑ i, T i r * F i) - (∑ i, ∑ j, T i r * M i j * G j) -
      ∑ c ∈ S, (∑ i, ∑ j, T i r * M i j * T j c) * x c) := by
  have e0 : ∀ f : Fin n → R, ∑ i, (∑ r ∈ S, T i r * y r) * f i = ∑ r ∈ S, ∑ i, T i r * y r * f i := by
    intro f
    simp only [Finset.sum_mul]
    rw [Finset.sum_comm]
  rw [e0]
  apply Finset.sum_congr rfl
  intro r _
  have e1 : ∑ c ∈ S, (∑ i, ∑ j, T i r * M i j * T j c) * x c =
      ∑ i, ∑ j, T i r * M i j * ∑ c ∈ S, T j c * x c := by
    simp only [Finset.sum_mul, Finset.mul_sum]
    rw [Finset.sum_comm]
    apply Finset.sum_congr rfl
    intro i _
    rw [Finset.sum_comm]
    apply Finset.sum_congr rfl
    intro j _
    apply Finset.sum_congr rfl
    intro c _
    ring
  rw [e1, ← Finset.sum_sub_distrib, ← Finset.sum_sub_distrib, Finset.mul_sum]
  apply Finset.sum_congr rfl
  intro i _
  have e2 : ∀ f : Fin n → R, ∑ j, T i r * M i j * f j = T i r * ∑ j, M i j * f j := by
    intro f
    rw [Finset.mul_sum]
    apply Finset.sum_congr rfl
    intro j _; ring
  rw [e2, e2]
  simp only [mul_add, Finset.sum_add_distrib]
  ring

/-- Work of the residual of one element, in terms of the assembled contributions. -/
theorem elmWork_eq (hr : Ready s D) (hv : D.Valid) {e : Elem R} (h : ElemFits D e) {u w : Nat → R}
    {x y : Int → R} (hu : D.Admissible 1 u) (hux : ∀ d, D.Free d → u d = x (eqv s d))
    (hw : D.Admissible 0 w) (hwy : ∀ d, D.Free d → w d = y (eqv s d)) :
    elmWork D u w e = ∑ r ∈ Finset.Icc (1:Int) s.neq, y r *
      (elmB s D e r - ∑ c ∈ Finset.Icc (1:Int) s.neq, elmK s D e r c * x c) := by
  have hdof : ∀ i : Fin (D.dofsOf e.iel).length, ∀ d, (D.dofsOf e.iel)[i] = some d → 1 ≤ d ∧ d ≤ D.status.length :=
    fun i => dofs_ok hv (nodesOf_mem h) _ (List.getElem_mem i.2)
  unfold elmWork
  have hwi : ∀ i : Fin (D.dofsOf e.iel).length, atDof w (D.dofsOf e.iel)[i] =
      ∑ r ∈ Finset.Icc (1:Int) s.neq, Tc s D (D.dofsOf e.iel)[i] r * y r := by
    intro i
    rw [field_expand hr hv hw hwy (hdof i)]; ring
  have hui : ∀ i : Fin (D.dofsOf e.iel).length, atDof u (D.dofsOf e.iel)[i] = Gc s D (D.dofsOf e.iel)[i] +
      ∑ r ∈ Finset.Icc (1:Int) s.neq, Tc s D (D.dofsOf e.iel)[i] r * x r := by
    intro i
    rw [field_expand hr hv hu hux (hdof i)]; ring
  simp only [hwi, hui]
  exact work_alg (fun i r => Tc s D (D.dofsOf e.iel)[i] r) (fun i => Gc s D (D.dofsOf e.iel)[i])
    (fun i => vval e.eF ((i:Int)+1)) (fun i j => e.eK.val ((i:Int)+1) ((j:Int)+1)) _ x y

end IFEM.Spec
