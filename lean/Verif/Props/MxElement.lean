import Verif.Props.MappingMore
import Verif.Model.MxElement
/-!
# C62: mixed finite elements
-/
namespace IFEM.Props
open IFEM IFEM.Spec IFEM.Lem IFEM.Mapping
open scoped Topology

variable {d s n : Nat}

/-- `D` holds the derivatives with respect to the physical coordinates `x` of the functions `N i` of the parameters. -/
def PhysGrad (x : Pt d → Pt d) (u : Pt d) (n : Nat) (N : Nat → Pt d → ℝ) (D : Mat ℝ) : Prop :=
  ∃ D' : Matrix (Fin n) (Fin d) ℝ, Rep D D' ∧ ∀ (i : Fin n) F, DifferentiableAt ℝ F (x u) → Pulls x u (N i) F → ∀ j, D' i j = pd F j (x u)

/-- `T` holds the second derivatives with respect to the physical coordinates. -/
def PhysHess (x : Pt d → Pt d) (u : Pt d) (n : Nat) (N : Nat → Pt d → ℝ) (T : Arr3) : Prop :=
  ∃ r : Fin n → Fin d → Fin d → ℝ, Holds3 T r ∧ ∀ (i : Fin n) F, ContDiffAt ℝ 2 F (x u) → Pulls x u (N i) F → ∀ p q, r i p q = pd (pd F q) p (x u)

/-- The parametric derivatives of the functions `N i`. -/
noncomputable def parGrad (u : Pt d) (n : Nat) (N : Nat → Pt d → ℝ) : Matrix (Fin n) (Fin d) ℝ := Matrix.of fun i k => pd (N i) k u

theorem rep_wf {r c : Nat} {m : Mat ℝ} {A : Matrix (Fin r) (Fin c) ℝ} (h : Rep m A) : m.WF := by
  show m.elem.length = m.nrow * m.ncol
  rw [h.size, h.rows, h.cols]

theorem physGrad_mul {x : Pt d → Pt d} {u : Pt d} {N : Nat → Pt d → ℝ} {D : Mat ℝ} {B : Matrix (Fin d) (Fin d) ℝ} (hx : ∀ i, DifferentiableAt ℝ (fun v => x v i) u)
    (hB : jac x u * B = 1) (hD : Rep D (parGrad u n N * B)) : PhysGrad x u n N D := by
  refine ⟨_, hD, fun i F hF hP j => ?_⟩
  rw [Matrix.mul_apply]
  exact pulled_gradient_inv hx hF hP hB j

/-- The loop over the other bases. -/
theorem gradLoop_spec {Jac : Mat ℝ} {B : Matrix (Fin d) (Fin d) ℝ} (hJ : Rep Jac B) (bfs : List BasisVals) (nf : Nat → Nat) (Dm : (c : Nat) → Matrix (Fin (nf c)) (Fin d) ℝ) (ofs g : Nat) (sep : Bool)
    (fe : MxFE) (hw : ∀ m ∈ fe.grad, m.WF) (nB : Nat) (hb : ∀ b < nB, b + 1 ≠ g ∨ sep = true → ∃ v, bfs[ofs + b]? = some v ∧ Rep v.dNdu (Dm (ofs + b))) (hl : ofs + nB ≤ fe.grad.length) :
    ∃ G, gradLoop fe Jac bfs nB ofs g sep = some { fe with grad := G } ∧ G.length = fe.grad.length ∧ (∀ m ∈ G, m.WF) ∧
      (∀ b < nB, b + 1 ≠ g ∨ sep = true → ∃ D, G[ofs + b]? = some D ∧ Rep D (Dm (ofs + b) * B)) ∧
      ∀ c, (∀ b < nB, b + 1 ≠ g ∨ sep = true → c ≠ ofs + b) → G[c]? = fe.grad[c]? := by
  induction nB with
  | zero => exact ⟨fe.grad, rfl, rfl, hw, by simp, fun _ _ => rfl⟩
  | succ m ih =>
    obtain ⟨G, g1, g2, g3, g4, g5⟩ := ih (fun b hbm => hb b (by omega)) (by omega)
    have hstep : gradLoop fe Jac bfs (m + 1) ofs g sep =
        (if m + 1 ≠ g ∨ sep = true then (bfs[ofs + m]?).bind fun v => mulGrad { fe with grad := G } (ofs + m) v.dNdu Jac else some { fe with grad := G }) := by
      unfold gradLoop at g1 ⊢
      rw [List.range_succ, List.foldlM_append, g1]
      simp only [Option.bind_eq_bind, Option.bind_some, List.foldlM_cons, List.foldlM_nil]
      split
      · cases h : ((bfs[ofs + m]?).bind fun v => mulGrad { fe with grad := G } (ofs + m) v.dNdu Jac) <;> rfl
      · rfl
    by_cases hc : m + 1 ≠ g ∨ sep = true
    · obtain ⟨v, v1, v2⟩ := hb m (by omega) hc
      have hlt : ofs + m < G.length := by omega
      have hget : G[ofs + m]? = some G[ofs + m] := List.getElem?_eq_getElem hlt
      obtain ⟨D, d1, d2⟩ := C60_multiply (C := G[ofs + m]) (A := v.dNdu) (B := Jac) (tA := false) (tB := false) v2 hJ (g3 _ (List.getElem_mem hlt)) 1
      rw [one_smul] at d2
      refine ⟨G.set (ofs + m) D, ?_, by simpa using g2, ?_, ?_, ?_⟩
      · rw [hstep, if_pos hc, v1]
        simp only [Option.bind_some]
        unfold mulGrad
        simp only
        rw [hget]
        simp only [Option.bind_eq_bind, Option.bind_some]
        rw [d1]; rfl
      · intro q hq
        rcases List.mem_or_eq_of_mem_set hq with h | h
        · exact g3 q h
        · rw [h]; exact rep_wf d2
      · intro b hbm hcb
        by_cases hbe : b = m
        · subst hbe
          exact ⟨D, List.getElem?_set_self hlt, d2⟩
        · rw [List.getElem?_set_ne (by omega)]
          exact g4 b (by omega) hcb
      · intro c hcc
        rw [List.getElem?_set_ne (fun e => hcc m (by omega) hc e.symm)]
        exact g5 c fun b hbm hcb => hcc b (by omega) hcb
    · refine ⟨G, by rw [hstep, if_neg hc], g2, g3, ?_, ?_⟩
      · intro b hbm hcb
        have : b ≠ m := fun e => hc (by rw [← e]; exact hcb)
        exact g4 b (by omega) hcb
      · intro c hcc
        exact g5 c fun b hbm hcb => hcc b (by omega) hcb

/-- What is known about the bases of an element at a point: the number of functions `nf b` of basis `b`, the functions, and their parametric derivatives in `bfs`. -/
structure BasesAt (bfs : List BasisVals) (count : Nat) (nf : Nat → Nat) (N : Nat → Nat → Pt d → ℝ) (u : Pt d) : Prop where
  len : bfs.length = count
  diff : ∀ b < count, ∀ i < nf b, DifferentiableAt ℝ (N b i) u
  der : ∀ b < count, ∃ v, bfs[b]? = some v ∧ Rep v.dNdu (parGrad u (nf b) (N b))

/-- The geometry mapping of basis `g` (0-based). -/
def geoOf (nf : Nat → Nat) (N : Nat → Nat → Pt d → ℝ) (g : Nat) (X : Matrix (Fin s) (Fin (nf g)) ℝ) : Pt d → Pt s := geo X fun a : Fin (nf g) => N g a

/-- The derivatives of the functions of all bases with respect to the physical coordinates, with the geometry given by one of the bases. -/
theorem C62_jacobian {fe : MxFE} {J0 X : Mat ℝ} {bfs : List BasisVals} {nf : Nat → Nat} {N : Nat → Nat → Pt d → ℝ} {u : Pt d} (hd : 1 ≤ d ∧ d ≤ 3) (g : Nat) (hg : g < fe.basis.length)
    (hb : BasesAt bfs fe.basis.length nf N u) (hgl : fe.grad.length = fe.basis.length) (hw : ∀ m ∈ fe.grad, m.WF) (hJ0 : J0.WF) {X' : Matrix (Fin d) (Fin (nf g)) ℝ} (hX : Rep X X')
    (hdet : epsZ < |(jac (geoOf nf N g X') u).det|) (h9 : (jac (geoOf nf N g X') u).det ≠ -999) :
    ∃ fe' Ji Ji', mxJacobian fe J0 X (g + 1) bfs = some (true, fe', Ji) ∧ fe'.detJxW = (jac (geoOf nf N g X') u).det ∧ Rep Ji Ji' ∧ jac (geoOf nf N g X') u * Ji' = 1 ∧
      fe'.basis = fe.basis ∧ fe'.grad.length = fe.basis.length ∧ ∀ b < fe.basis.length, ∃ D, fe'.grad[b]? = some D ∧ PhysGrad (geoOf nf N g X') u (nf b) (N b) D := by
  obtain ⟨v, v1, v2⟩ := hb.der g hg
  have hglt : g < fe.grad.length := by omega
  have hg0 : fe.grad[g]? = some fe.grad[g] := List.getElem?_eq_getElem hglt
  have hdN : ∀ a : Fin (nf g), DifferentiableAt ℝ (N g a) u := fun a => hb.diff g hg a.1 a.2
  obtain ⟨Ji, D, Ji', D', j1, j2, j3, j4, j5⟩ := C61_jacobian (J0 := J0) (D0 := fe.grad[g]) hd hX hdN v2 hJ0 (hw _ (List.getElem_mem hglt)) hdet h9
  have hne : (jac (geoOf nf N g X') u).det ≠ 0 := fun e => by rw [e, abs_zero] at hdet; exact absurd hdet (not_lt.mpr (le_of_lt epsZ_pos))
  obtain ⟨G, g1, g2, g3, g4, g5⟩ := gradLoop_spec j2 bfs nf (fun c => parGrad u (nf c) (N c)) 0 (g + 1) false
    ({ fe with detJxW := (jac (geoOf nf N g X') u).det, grad := fe.grad.set g D } : MxFE)
    (fun q hq => by
      rcases List.mem_or_eq_of_mem_set hq with h | h
      · exact hw q h
      · rw [h]; exact rep_wf j4)
    fe.basis.length (fun b hbl _ => by rw [Nat.zero_add]; exact hb.der b hbl) (by simp [hgl])
  refine ⟨({ fe with detJxW := (jac (geoOf nf N g X') u).det, grad := G } : MxFE), Ji, Ji', ?_, rfl, j2, j3, rfl, ?_, ?_⟩
  · unfold mxJacobian
    have hs : decide (bfs.length > fe.basis.length) = false := by simp [hb.len]
    simp only [hs, Bool.false_eq_true, if_false, Nat.add_sub_cancel, Bool.not_false]
    rw [v1, hg0]
    simp only [Option.bind_eq_bind, Option.bind_some]
    rw [j1]
    simp only [Option.bind_some]
    refine (if_neg hne).trans ?_
    exact congrArg (Option.map _) g1
  · simpa [hgl] using g2
  · intro b hbl
    by_cases hbg : b = g
    · subst hbg
      refine ⟨D, ?_, D', j4, fun i F hF hP j => j5 i F hF hP j⟩
      rw [g5 b fun c _ hc => by rw [Nat.zero_add]; rintro rfl; exact hc.elim (fun h => h rfl) (by simp)]
      exact List.getElem?_set_self hglt
    · obtain ⟨D2, e1, e2⟩ := g4 b hbl (Or.inl (by omega))
      rw [Nat.zero_add] at e1 e2
      exact ⟨D2, e1, physGrad_mul (geo_diff hdN X') j3 e2⟩

/-- The same with a separate geometry basis, the last one in the list of basis values. -/
theorem C62_jacobian_separate {fe : MxFE} {J0 X : Mat ℝ} {bfs : List BasisVals} {nf : Nat → Nat} {N : Nat → Nat → Pt d → ℝ} {u : Pt d} (hd : 1 ≤ d ∧ d ≤ 3) (gBasis : Nat) (hpos : 0 < fe.basis.length)
    (hb : BasesAt bfs (fe.basis.length + 1) nf N u) (hgl : fe.grad.length = fe.basis.length) (hw : ∀ m ∈ fe.grad, m.WF) (hJ0 : J0.WF)
    {X' : Matrix (Fin d) (Fin (nf fe.basis.length)) ℝ} (hX : Rep X X')
    (hdet : epsZ < |(jac (geoOf nf N fe.basis.length X') u).det|) (h9 : (jac (geoOf nf N fe.basis.length X') u).det ≠ -999) :
    ∃ fe' Ji Ji', mxJacobian fe J0 X gBasis bfs = some (true, fe', Ji) ∧ fe'.detJxW = (jac (geoOf nf N fe.basis.length X') u).det ∧ Rep Ji Ji' ∧ jac (geoOf nf N fe.basis.length X') u * Ji' = 1 ∧
      fe'.basis = fe.basis ∧ fe'.grad.length = fe.basis.length ∧ ∀ b < fe.basis.length, ∃ D, fe'.grad[b]? = some D ∧ PhysGrad (geoOf nf N fe.basis.length X') u (nf b) (N b) D := by
  obtain ⟨v, v1, v2⟩ := hb.der fe.basis.length (by omega)
  have hglt : 0 < fe.grad.length := by omega
  have hg0 : fe.grad[0]? = some fe.grad[0] := List.getElem?_eq_getElem hglt
  have hdN : ∀ a : Fin (nf fe.basis.length), DifferentiableAt ℝ (N fe.basis.length a) u := fun a => hb.diff _ (by omega) a.1 a.2
  obtain ⟨J, hJ1, hJ2⟩ := C60_multiply (C := J0) (A := X) (B := v.dNdu) (tA := false) (tB := false) hX v2 hJ0 1
  rw [one_smul] at hJ2
  have hJ3 : Rep J (jac (geoOf nf N fe.basis.length X') u) := by
    have := jac_geo hdN X'
    unfold geoOf
    rw [this]; exact hJ2
  obtain ⟨i1, B, i2, i3, i4⟩ := inverse_small hJ3 hd epsZ (le_of_lt epsZ_pos) hdet h9
  have hne : (jac (geoOf nf N fe.basis.length X') u).det ≠ 0 := fun e => by rw [e, abs_zero] at hdet; exact absurd hdet (not_lt.mpr (le_of_lt epsZ_pos))
  have hjac : jacobian J0 fe.grad[0] X v.dNdu false = some ((jac (geoOf nf N fe.basis.length X') u).det, (J.inverse epsZ).2, fe.grad[0]) := by
    unfold jacobian
    rw [hJ1]
    simp only [Option.bind_eq_bind, Option.bind_some]
    rw [if_neg (by rw [hJ2.cols, hJ2.rows]; omega), if_neg (by rw [hJ2.cols, hJ2.rows]; omega)]
    unfold gradients
    simp only [i1, if_true]
  obtain ⟨G, g1, g2, g3, g4, g5⟩ := gradLoop_spec i2 bfs nf (fun c => parGrad u (nf c) (N c)) 0 (fe.basis.length + 1) true
    ({ fe with detJxW := (jac (geoOf nf N fe.basis.length X') u).det, grad := fe.grad.set 0 fe.grad[0] } : MxFE)
    (fun q hq => by
      rcases List.mem_or_eq_of_mem_set hq with h | h
      · exact hw q h
      · rw [h]; exact hw _ (List.getElem_mem hglt))
    fe.basis.length (fun b hbl _ => by rw [Nat.zero_add]; exact hb.der b (by omega)) (by simp [hgl])
  refine ⟨({ fe with detJxW := (jac (geoOf nf N fe.basis.length X') u).det, grad := G } : MxFE), (J.inverse epsZ).2, B, ?_, rfl, i2, i3, rfl, ?_, ?_⟩
  · unfold mxJacobian
    have hs : decide (bfs.length > fe.basis.length) = true := by simp [hb.len]
    simp only [hs, if_true, Nat.sub_self, Bool.not_true]
    rw [hb.len, Nat.add_sub_cancel]
    rw [v1, hg0]
    simp only [Option.bind_eq_bind, Option.bind_some]
    rw [hjac]
    simp only [Option.bind_some]
    refine (if_neg hne).trans ?_
    exact congrArg (Option.map _) g1
  · simpa [hgl] using g2
  · intro b hbl
    obtain ⟨D2, e1, e2⟩ := g4 b hbl (Or.inr rfl)
    rw [Nat.zero_add] at e1 e2
    exact ⟨D2, e1, physGrad_mul (geo_diff hdN X') i3 e2⟩

theorem face_ok {J0 D0 X dNdu : Mat ℝ} {X' : Matrix (Fin d) (Fin n) ℝ} {N : Fin n → Pt d → ℝ} {u : Pt d} (hd : d = 2 ∨ d = 3)
    (hX : Rep X X') (hN : ∀ a, DifferentiableAt ℝ (N a) u) (hNu : Rep dNdu (Matrix.of fun a k => pd (N a) k u)) (hJ0 : J0.WF) (hD0 : D0.WF)
    (hdet : epsZ < |(jac (geo X' N) u).det|) (h9 : (jac (geo X' N) u).det ≠ -999) (k1 k2 : Fin d) :
    ∃ r Ji', jacobianFace J0 D0 X dNdu (k1.1 + 1) (k2.1 + 1) = some r ∧ Rep r.2.2.1 Ji' ∧ jac (geo X' N) u * Ji' = 1 ∧ Rep r.2.2.2 ((Matrix.of fun a k => pd (N a) k u) * Ji') := by
  obtain ⟨J, hJ1, hJ2⟩ := C60_multiply (C := J0) (A := X) (B := dNdu) (tA := false) (tB := false) hX hNu hJ0 1
  rw [one_smul, ← jac_geo hN X'] at hJ2
  obtain ⟨Ji, D, B, g1, g2, g3, g4⟩ := gradients_ok (by omega) hJ2 hNu hD0 hdet h9
  have hc1 := C60_getColumn hJ2 k1
  have hc2 := C60_getColumn hJ2 k2
  have hex : ∃ dS ν, jacobianFace J0 D0 X dNdu (k1.1 + 1) (k2.1 + 1) = some (dS, ν, Ji, D) := by
    unfold jacobianFace
    rw [hJ1]
    simp only [Option.bind_eq_bind, Option.bind_some]
    rw [hc1, hc2]
    simp only [Option.bind_some]
    rw [if_neg (by rw [hJ2.rows, hJ2.cols]; omega), g1]
    exact ⟨_, _, rfl⟩
  obtain ⟨dS, ν, h⟩ := hex
  exact ⟨(dS, ν, Ji, D), B, h, g2, g3, g4⟩

/-- On a boundary: dilation and normal are those of the geometry mapping (`C61_jacobian_face2`, `C61_jacobian_face3`), and the derivatives of all bases are those with respect to the physical coordinates. -/
theorem C62_face {fe : MxFE} {J0 X : Mat ℝ} {bfs : List BasisVals} {nf : Nat → Nat} {N : Nat → Nat → Pt d → ℝ} {u : Pt d} (hd : d = 2 ∨ d = 3) (g : Nat) (hg : g < fe.basis.length)
    (hb : BasesAt bfs fe.basis.length nf N u) (hgl : fe.grad.length = fe.basis.length) (hw : ∀ m ∈ fe.grad, m.WF) (hJ0 : J0.WF) {X' : Matrix (Fin d) (Fin (nf g)) ℝ} (hX : Rep X X')
    (hdet : epsZ < |(jac (geoOf nf N g X') u).det|) (h9 : (jac (geoOf nf N g X') u).det ≠ -999) (k1 k2 : Fin d) (X2 : Option (Mat ℝ)) :
    ∃ fe' r g0 v, fe.grad[g]? = some g0 ∧ bfs[g]? = some v ∧ jacobianFace J0 g0 X v.dNdu (k1.1 + 1) (k2.1 + 1) = some r ∧
      mxFace fe J0 X (g + 1) bfs (k1.1 + 1) (k2.1 + 1) 0 X2 = some (decide (r.1 ≠ 0), fe', r.2.1, r.2.2.1) ∧ fe'.detJxW = r.1 ∧
      ∀ b < fe.basis.length, ∃ D, fe'.grad[b]? = some D ∧ PhysGrad (geoOf nf N g X') u (nf b) (N b) D := by
  obtain ⟨v, v1, v2⟩ := hb.der g hg
  have hglt : g < fe.grad.length := by omega
  have hg0 : fe.grad[g]? = some fe.grad[g] := List.getElem?_eq_getElem hglt
  have hdN : ∀ a : Fin (nf g), DifferentiableAt ℝ (N g a) u := fun a => hb.diff g hg a.1 a.2
  obtain ⟨r, B, r1, r2, r3, r4⟩ := face_ok (J0 := J0) (D0 := fe.grad[g]) hd hX hdN v2 hJ0 (hw _ (List.getElem_mem hglt)) hdet h9 k1 k2
  obtain ⟨G, g1, g2, g3, g4, g5⟩ := gradLoop_spec r2 bfs nf (fun c => parGrad u (nf c) (N c)) 0 (g + 1) false
    ({ fe with detJxW := r.1, grad := fe.grad.set g r.2.2.2 } : MxFE)
    (fun q hq => by
      rcases List.mem_or_eq_of_mem_set hq with h | h
      · exact hw q h
      · rw [h]; exact rep_wf r4)
    fe.basis.length (fun b hbl _ => by rw [Nat.zero_add]; exact hb.der b hbl) (by simp [hgl])
  refine ⟨({ fe with detJxW := r.1, grad := G } : MxFE), r, fe.grad[g], v, hg0, v1, r1, ?_, rfl, ?_⟩
  · unfold mxFace
    have hs : decide (bfs.length > fe.basis.length) = false := by simp [hb.len]
    have ht : decide (2 * bfs.length ≤ fe.basis.length) = false := by simp [hb.len]; omega
    simp only [if_true, hs, ht, Bool.false_eq_true, if_false, Nat.add_sub_cancel, Option.bind_eq_bind, Option.bind_some]
    rw [v1, hg0]
    simp only [Option.bind_some]
    rw [r1]
    simp only [Option.bind_some]
    rw [hb.len, g1]; rfl
  · intro b hbl
    by_cases hbg : b = g
    · subst hbg
      refine ⟨r.2.2.2, ?_, physGrad_mul (geo_diff hdN X') r3 r4⟩
      rw [g5 b fun c _ hc => by rw [Nat.zero_add]; rintro rfl; exact hc.elim (fun h => h rfl) (by simp)]
      exact List.getElem?_set_self hglt
    · obtain ⟨D2, e1, e2⟩ := g4 b hbl (Or.inl (by omega))
      rw [Nat.zero_add] at e1 e2
      exact ⟨D2, e1, physGrad_mul (geo_diff hdN X') r3 e2⟩

/-- On a boundary, with a separate geometry basis. -/
theorem C62_face_separate {fe : MxFE} {J0 X : Mat ℝ} {bfs : List BasisVals} {nf : Nat → Nat} {N : Nat → Nat → Pt d → ℝ} {u : Pt d} (hd : d = 2 ∨ d = 3) (gBasis : Nat)
    (hb : BasesAt bfs (fe.basis.length + 1) nf N u) (hgl : fe.grad.length = fe.basis.length) (hw : ∀ m ∈ fe.grad, m.WF) (hJ0 : J0.WF)
    {X' : Matrix (Fin d) (Fin (nf fe.basis.length)) ℝ} (hX : Rep X X')
    (hdet : epsZ < |(jac (geoOf nf N fe.basis.length X') u).det|) (h9 : (jac (geoOf nf N fe.basis.length X') u).det ≠ -999) (k1 k2 : Fin d) (X2 : Option (Mat ℝ)) :
    ∃ fe' r v, bfs[fe.basis.length]? = some v ∧ jacobianFace J0 ⟨0, 0, []⟩ X v.dNdu (k1.1 + 1) (k2.1 + 1) = some r ∧
      mxFace fe J0 X gBasis bfs (k1.1 + 1) (k2.1 + 1) 0 X2 = some (decide (r.1 ≠ 0), fe', r.2.1, r.2.2.1) ∧ fe'.detJxW = r.1 ∧
      ∀ b < fe.basis.length, ∃ D, fe'.grad[b]? = some D ∧ PhysGrad (geoOf nf N fe.basis.length X') u (nf b) (N b) D := by
  obtain ⟨v, v1, v2⟩ := hb.der fe.basis.length (by omega)
  have hdN : ∀ a : Fin (nf fe.basis.length), DifferentiableAt ℝ (N fe.basis.length a) u := fun a => hb.diff _ (by omega) a.1 a.2
  obtain ⟨r, B, r1, r2, r3, r4⟩ := face_ok (J0 := J0) (D0 := ⟨0, 0, []⟩) hd hX hdN v2 hJ0 rfl hdet h9 k1 k2
  obtain ⟨G, g1, g2, g3, g4, g5⟩ := gradLoop_spec r2 bfs nf (fun c => parGrad u (nf c) (N c)) 0 (fe.basis.length + 1) true
    ({ fe with detJxW := r.1 } : MxFE) hw fe.basis.length (fun b hbl _ => by rw [Nat.zero_add]; exact hb.der b (by omega)) (by simp [hgl])
  refine ⟨({ fe with detJxW := r.1, grad := G } : MxFE), r, v, v1, r1, ?_, rfl, ?_⟩
  · unfold mxFace
    have hs : decide (bfs.length > fe.basis.length) = true := by simp [hb.len]
    have ht : decide (2 * bfs.length ≤ fe.basis.length) = false := by simp [hb.len]; omega
    simp only [if_true, hs, ht, Bool.false_eq_true, if_false, Option.bind_eq_bind, Option.bind_some]
    rw [hb.len, Nat.add_sub_cancel, v1]
    simp only [Option.bind_some]
    rw [r1]
    simp only [Option.bind_some]
    rw [g1]; rfl
  · intro b hbl
    obtain ⟨D2, e1, e2⟩ := g4 b hbl (Or.inr rfl)
    rw [Nat.zero_add] at e1 e2
    exact ⟨D2, e1, physGrad_mul (geo_diff hdN X') r3 e2⟩

/-- On an interface between two elements the functions of the first `m` bases are differentiated with the geometry of the first element and the next `m` with that of the second. -/
theorem C62_interface {fe : MxFE} {J0 X Y : Mat ℝ} {bfs : List BasisVals} {nf : Nat → Nat} {N : Nat → Nat → Pt d → ℝ} {u : Pt d} (hd : d = 2 ∨ d = 3) (m g : Nat) (hg : g < m) (hm : 2 * m ≤ fe.basis.length)
    (hb : BasesAt bfs (2 * m) nf N u) (hgl : fe.grad.length = fe.basis.length) (hw : ∀ q ∈ fe.grad, q.WF) (hJ0 : J0.WF)
    {X' : Matrix (Fin d) (Fin (nf g)) ℝ} (hX : Rep X X') {Y' : Matrix (Fin d) (Fin (nf (m + g))) ℝ} (hY : Rep Y Y')
    (hdet : epsZ < |(jac (geoOf nf N g X') u).det|) (h9 : (jac (geoOf nf N g X') u).det ≠ -999)
    (hdet2 : epsZ < |(jac (geoOf nf N (m + g) Y') u).det|) (h92 : (jac (geoOf nf N (m + g) Y') u).det ≠ -999) (k1 k2 : Fin d) :
    ∃ fe' dS ν Ji, mxFace fe J0 X (g + 1) bfs (k1.1 + 1) (k2.1 + 1) m (some Y) = some (decide (dS ≠ 0), fe', ν, Ji) ∧ fe'.detJxW = dS ∧
      (∀ b < m, ∃ D, fe'.grad[b]? = some D ∧ PhysGrad (geoOf nf N g X') u (nf b) (N b) D) ∧
      ∀ b < m, ∃ D, fe'.grad[m + b]? = some D ∧ PhysGrad (geoOf nf N (m + g) Y') u (nf (m + b)) (N (m + b)) D := by
  obtain ⟨v, v1, v2⟩ := hb.der g (by omega)
  obtain ⟨w, w1, w2⟩ := hb.der (m + g) (by omega)
  have hglt : m + g < fe.grad.length := by omega
  have hg0 : fe.grad[m + g]? = some fe.grad[m + g] := List.getElem?_eq_getElem hglt
  have hdN : ∀ a : Fin (nf g), DifferentiableAt ℝ (N g a) u := fun a => hb.diff g (by omega) a.1 a.2
  have hdN2 : ∀ a : Fin (nf (m + g)), DifferentiableAt ℝ (N (m + g) a) u := fun a => hb.diff (m + g) (by omega) a.1 a.2
  obtain ⟨q, C, q1, q2, q3, q4⟩ := face_ok (J0 := J0) (D0 := fe.grad[m + g]) hd hY hdN2 w2 hJ0 (hw _ (List.getElem_mem hglt)) hdet2 h92 k1 k2
  obtain ⟨G, g1, g2, g3, g4, g5⟩ := gradLoop_spec q2 bfs nf (fun c => parGrad u (nf c) (N c)) m (g + 1) false
    ({ fe with detJxW := q.1, grad := fe.grad.set (m + g) q.2.2.2 } : MxFE)
    (fun z hz => by
      rcases List.mem_or_eq_of_mem_set hz with h | h
      · exact hw z h
      · rw [h]; exact rep_wf q4)
    m (fun b hbl _ => hb.der (m + b) (by omega)) (by simp [hgl]; omega)
  have hGl : G.length = fe.basis.length := by simpa [hgl] using g2
  have hglt2 : g < G.length := by omega
  have hG0 : G[g]? = some G[g] := List.getElem?_eq_getElem hglt2
  obtain ⟨r, B, r1, r2, r3, r4⟩ := face_ok (J0 := q.2.2.1) (D0 := G[g]) hd hX hdN v2 (rep_wf q2) (g3 _ (List.getElem_mem hglt2)) hdet h9 k1 k2
  obtain ⟨E, e1, e2, e3, e4, e5⟩ := gradLoop_spec r2 bfs nf (fun c => parGrad u (nf c) (N c)) 0 (g + 1) false
    ({ fe with detJxW := r.1, grad := G.set g r.2.2.2 } : MxFE)
    (fun z hz => by
      rcases List.mem_or_eq_of_mem_set hz with h | h
      · exact g3 z h
      · rw [h]; exact rep_wf r4)
    m (fun b hbl _ => by rw [Nat.zero_add]; exact hb.der b (by omega)) (by simp [hGl]; omega)
  refine ⟨({ fe with detJxW := r.1, grad := E } : MxFE), r.1, r.2.1, r.2.2.1, ?_, rfl, ?_, ?_⟩
  · unfold mxFace
    have hs : decide (m > fe.basis.length) = false := by simp; omega
    have ht : decide (2 * m ≤ fe.basis.length) = true := by simp [hm]
    simp only [if_neg (show ¬ m = 0 by omega), hs, ht, Bool.false_eq_true, if_false, if_true, Nat.add_sub_cancel, Option.bind_eq_bind, Option.getD_some]
    rw [show m + (g + 1) - 1 = m + g by omega, w1, hg0]
    simp only [Option.bind_some]
    rw [q1]
    simp only [Option.bind_some]
    rw [g1]
    simp only [Option.bind_some, Option.pure_def]
    rw [v1, hG0]
    simp only [Option.bind_some]
    rw [r1]
    simp only [Option.bind_some]
    rw [e1]; rfl
  · intro b hbl
    by_cases hbg : b = g
    · subst hbg
      refine ⟨r.2.2.2, ?_, physGrad_mul (geo_diff hdN X') r3 r4⟩
      rw [e5 b fun c _ hc => by rw [Nat.zero_add]; rintro rfl; exact hc.elim (fun h => h rfl) (by simp)]
      exact List.getElem?_set_self hglt2
    · obtain ⟨D2, f1, f2⟩ := e4 b hbl (Or.inl (by omega))
      rw [Nat.zero_add] at f1 f2
      exact ⟨D2, f1, physGrad_mul (geo_diff hdN X') r3 f2⟩
  · intro b hbl
    have hkeep : E[m + b]? = G[m + b]? := by
      rw [e5 (m + b) fun c _ _ => by omega]
      exact List.getElem?_set_ne (by omega)
    show ∃ D, E[m + b]? = some D ∧ _
    rw [hkeep]
    by_cases hbg : b = g
    · subst hbg
      refine ⟨q.2.2.2, ?_, physGrad_mul (geo_diff hdN2 Y') q3 q4⟩
      rw [g5 (m + b) fun c _ hc e => by
        have : b = c := by omega
        rw [this] at hc
        exact hc.elim (fun h => h rfl) (by simp)]
      exact List.getElem?_set_self hglt
    · obtain ⟨D2, f1, f2⟩ := g4 b hbl (Or.inl (by omega))
      exact ⟨D2, f1, physGrad_mul (geo_diff hdN2 Y') q3 f2⟩

/-- Second derivatives at a point, in addition to `BasesAt`. -/
structure Bases2At (bfs : List BasisVals) (count : Nat) (nf : Nat → Nat) (N : Nat → Nat → Pt d → ℝ) (u : Pt d) : Prop where
  len : bfs.length = count
  pos : ∀ b < count, 0 < nf b
  smooth : ∀ b < count, ∀ i < nf b, ContDiffAt ℝ 2 (N b i) u
  der2 : ∀ b < count, ∃ v, bfs[b]? = some v ∧ Holds3 v.d2Ndu2 fun (i : Fin (nf b)) (k l : Fin d) => pd (pd (N b i) l) k u

/-- The loop over the other bases for the second derivatives. -/
theorem hessLoop_spec {H : Arr3} {Ji X : Mat ℝ} {X' : Matrix (Fin d) (Fin s) ℝ} {bfs : List BasisVals} {count : Nat} {nf : Nat → Nat} {N : Nat → Nat → Pt d → ℝ} {u : Pt d} {x : Pt d → Pt d} {B : Matrix (Fin d) (Fin d) ℝ}
    (hd : 0 < d) (hb : Bases2At bfs count nf N u) (hX : Rep X X') (hx : ∀ i, ContDiffAt ℝ 2 (fun v => x v i) u) (hJi : Rep Ji B) (hB : jac x u * B = 1)
    (hH : Holds3 H fun i k l => pd (pd (fun v => x v i) l) k u) (g : Nat) (sep : Bool) (L : List Nat) (hnd : L.Nodup) (fe : MxFE) (hL : ∀ b ∈ L, b < count ∧ b < fe.hess.length)
    (hg : ∀ b ∈ L, ∃ D, fe.grad[b]? = some D ∧ PhysGrad x u (nf b) (N b) D) :
    ∃ G, hessLoop H Ji X bfs g sep L fe = some (true, { fe with hess := G }) ∧ G.length = fe.hess.length ∧
      (∀ b ∈ L, b + 1 ≠ g ∨ sep = true → ∃ T, G[b]? = some T ∧ PhysHess x u (nf b) (N b) T) ∧ ∀ c, (c ∉ L ∨ ¬ (c + 1 ≠ g ∨ sep = true)) → G[c]? = fe.hess[c]? := by
  induction L generalizing fe with
  | nil => exact ⟨fe.hess, rfl, rfl, by simp, fun _ _ => rfl⟩
  | cons b L ih =>
    rw [List.nodup_cons] at hnd
    unfold hessLoop
    by_cases hc : b + 1 ≠ g ∨ sep = true
    · rw [if_pos hc]
      obtain ⟨hbc, hbl⟩ := hL b List.mem_cons_self
      obtain ⟨v, v1, v2⟩ := hb.der2 b hbc
      obtain ⟨D, d1, D', d2, d3⟩ := hg b List.mem_cons_self
      have h0 : fe.hess[b]? = some fe.hess[b] := List.getElem?_eq_getElem hbl
      obtain ⟨R, ⟨_, r1⟩, _, r2⟩ := hessian_known (D0 := fe.hess[b]) (N := fun i : Fin (nf b) => N b i) (hb.pos b hbc) hd hX hx v2 hJi hB d2 d3 hH
      obtain ⟨G, g1, g2, g3, g4⟩ := ih hnd.2 ({ fe with hess := fe.hess.set b R } : MxFE) (fun c hcL => by simpa using hL c (List.mem_cons_of_mem _ hcL))
        (fun c hcL => hg c (List.mem_cons_of_mem _ hcL))
      refine ⟨G, ?_, by simpa using g2, ?_, ?_⟩
      · rw [v1, d1, h0]
        simp only [Option.bind_eq_bind, Option.bind_some]
        rw [r1, if_pos rfl]
        exact g1
      · intro c hcL hcc
        rcases List.mem_cons.mp hcL with rfl | hcL
        · refine ⟨R, ?_, r2⟩
          rw [g4 c (Or.inl hnd.1)]
          exact List.getElem?_set_self hbl
        · exact g3 c hcL hcc
      · intro c hcc
        have hcb : c ≠ b := by
          rintro rfl
          rcases hcc with h | h
          · exact h List.mem_cons_self
          · exact h hc
        rw [g4 c (hcc.imp (fun h hm => h (List.mem_cons_of_mem _ hm)) id)]
        exact List.getElem?_set_ne hcb.symm
    · rw [if_neg hc]
      obtain ⟨G, g1, g2, g3, g4⟩ := ih hnd.2 fe (fun c hcL => hL c (List.mem_cons_of_mem _ hcL)) (fun c hcL => hg c (List.mem_cons_of_mem _ hcL))
      refine ⟨G, g1, g2, ?_, ?_⟩
      · intro c hcL hcc
        rcases List.mem_cons.mp hcL with rfl | hcL
        · exact absurd hcc hc
        · exact g3 c hcL hcc
      · intro c hcc
        exact g4 c (hcc.imp (fun h hm => h (List.mem_cons_of_mem _ hm)) id)

/-- The second derivatives of the functions of all bases, with the geometry given by one of the bases. -/
theorem C62_hessian {fe : MxFE} {H0 : Arr3} {Ji X : Mat ℝ} {bfs : List BasisVals} {nf : Nat → Nat} {N : Nat → Nat → Pt d → ℝ} {u : Pt d} (hd : 0 < d) (g : Nat) (hg : g < fe.basis.length)
    (hb : Bases2At bfs fe.basis.length nf N u) (hhl : fe.hess.length = fe.basis.length) {X' : Matrix (Fin d) (Fin (nf g)) ℝ} (hX : Rep X X') {B : Matrix (Fin d) (Fin d) ℝ} (hJi : Rep Ji B)
    (hB : jac (geoOf nf N g X') u * B = 1) (hgr : ∀ b < fe.basis.length, ∃ D, fe.grad[b]? = some D ∧ PhysGrad (geoOf nf N g X') u (nf b) (N b) D) :
    ∃ fe' H, mxHessian fe H0 Ji X (g + 1) bfs = some (true, fe', H) ∧ (Holds3 H fun i k l => pd (pd (fun v => geoOf nf N g X' v i) l) k u) ∧
      ∀ b < fe.basis.length, ∃ T, fe'.hess[b]? = some T ∧ PhysHess (geoOf nf N g X') u (nf b) (N b) T := by
  obtain ⟨v, v1, v2⟩ := hb.der2 g hg
  obtain ⟨D, d1, D', d2, d3⟩ := hgr g hg
  have hglt : g < fe.hess.length := by omega
  have h0 : fe.hess[g]? = some fe.hess[g] := List.getElem?_eq_getElem hglt
  have hN : ∀ a : Fin (nf g), ContDiffAt ℝ 2 (N g a) u := fun a => hb.smooth g hg a.1 a.2
  obtain ⟨H, R, r1, r2, r3⟩ := C61_hessian (H0 := H0) (D0 := fe.hess[g]) (N := fun i : Fin (nf g) => N g i) (hb.pos g hg) hd hX hN v2 hJi hB d2 d3
  obtain ⟨G, g1, g2, g3, g4⟩ := hessLoop_spec hd hb hX (geo_contDiff hN X') hJi hB r2 (g + 1) false (List.range fe.basis.length) List.nodup_range
    ({ fe with hess := fe.hess.set g R } : MxFE) (fun b hbL => by simp at hbL ⊢; omega) (fun b hbL => hgr b (List.mem_range.mp hbL))
  refine ⟨({ fe with hess := G } : MxFE), H, ?_, r2, ?_⟩
  · unfold mxHessian
    have hs : decide (bfs.length > fe.basis.length) = false := by simp [hb.len]
    simp only [hs, Bool.false_eq_true, if_false, Nat.add_sub_cancel, Option.bind_eq_bind]
    rw [v1, d1, h0]
    simp only [Option.bind_some]
    rw [r1]
    simp only [if_true]
    rw [g1]; rfl
  · intro b hbl
    by_cases hbg : b = g
    · subst hbg
      refine ⟨R, ?_, r3⟩
      rw [g4 b (Or.inr (by simp))]
      exact List.getElem?_set_self hglt
    · exact g3 b (List.mem_range.mpr hbl) (Or.inl (by omega))

/-- The same with a separate geometry basis. -/
theorem C62_hessian_separate {fe : MxFE} {H0 : Arr3} {Ji X : Mat ℝ} {bfs : List BasisVals} {nf : Nat → Nat} {N : Nat → Nat → Pt d → ℝ} {u : Pt d} (hd : 0 < d) (gBasis : Nat)
    (hb : Bases2At bfs (fe.basis.length + 1) nf N u) (hhl : fe.hess.length = fe.basis.length) {X' : Matrix (Fin d) (Fin (nf fe.basis.length)) ℝ} (hX : Rep X X') {B : Matrix (Fin d) (Fin d) ℝ} (hJi : Rep Ji B)
    (hB : jac (geoOf nf N fe.basis.length X') u * B = 1) (hgr : ∀ b < fe.basis.length, ∃ D, fe.grad[b]? = some D ∧ PhysGrad (geoOf nf N fe.basis.length X') u (nf b) (N b) D) :
    ∃ fe' H, mxHessian fe H0 Ji X gBasis bfs = some (true, fe', H) ∧ (Holds3 H fun i k l => pd (pd (fun v => geoOf nf N fe.basis.length X' v i) l) k u) ∧
      ∀ b < fe.basis.length, ∃ T, fe'.hess[b]? = some T ∧ PhysHess (geoOf nf N fe.basis.length X') u (nf b) (N b) T := by
  obtain ⟨v, v1, v2⟩ := hb.der2 fe.basis.length (by omega)
  have hN : ∀ a : Fin (nf fe.basis.length), ContDiffAt ℝ 2 (N fe.basis.length a) u := fun a => hb.smooth _ (by omega) a.1 a.2
  obtain ⟨H, h1, h2⟩ := mul3_holds hX v2
  have hH : Holds3 H fun i k l => pd (pd (fun v => geoOf nf N fe.basis.length X' v i) l) k u := by
    refine ⟨h2.1, h2.2.1, h2.2.2.1, fun i k l => ?_⟩
    exact (h2.2.2.2 i k l).trans (pd2_geo hN X' i k l).symm
  obtain ⟨G, g1, g2, g3, g4⟩ := hessLoop_spec hd hb hX (geo_contDiff hN X') hJi hB hH gBasis true (List.range fe.basis.length) List.nodup_range
    fe (fun b hbL => by simp at hbL ⊢; omega) (fun b hbL => hgr b (List.mem_range.mp hbL))
  refine ⟨({ fe with hess := G } : MxFE), H, ?_, hH, fun b hbl => g3 b (List.mem_range.mpr hbl) (Or.inr rfl)⟩
  unfold mxHessian
  have hs : decide (bfs.length > fe.basis.length) = true := by simp [hb.len]
  have hlast : bfs.getLast? = some v := by rw [List.getLast?_eq_getElem?, hb.len, Nat.add_sub_cancel, v1]
  simp only [hs, if_true, Option.bind_eq_bind]
  rw [hlast]
  simp only [Option.bind_some]
  rw [h1]
  simp only
  rw [g1]; rfl

end IFEM.Props
