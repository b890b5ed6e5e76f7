import Verif.Props.MappingFace
import Verif.Props.MatrixBlock
import Verif.Lemmas.LagrangeBasis
/-!
# C61: compact Hessians, element metrics, gradients of the Jacobian and third derivatives
-/
namespace IFEM.Props
open IFEM IFEM.Spec IFEM.Lem IFEM.Mapping IFEM.Lag
open scoped Topology

variable {d s n : Nat}

theorem resize_rep (m : Mat ℝ) (hw : m.WF) (M N : Nat) : ∃ A : Matrix (Fin M) (Fin N) ℝ, Rep (m.resize M N false) A := by
  have hl : (m.resize M N false).nrow = M ∧ (m.resize M N false).ncol = N ∧ (m.resize M N false).elem.length = M * N := by
    have hw' : m.elem.length = m.nrow * m.ncol := hw
    unfold Mat.resize
    simp only [Bool.false_eq_true, if_false]
    split
    · rename_i h
      exact ⟨h.1, h.2, by rw [hw', h.1, h.2]⟩
    · split
      · rename_i h
        exact ⟨rfl, rfl, by rw [hw', h]⟩
      · refine ⟨rfl, rfl, ?_⟩
        simp only [List.length_append, List.length_take, List.length_replicate]
        omega
  refine ⟨fun i j => (m.resize M N false).elem.getD (i.1 + M * j.1) 0, hl.1, hl.2.1, hl.2.2, fun i j => ?_⟩
  have := rep_idx i.2 j.2
  rw [List.getD_eq_getElem?_getD, List.getElem?_eq_getElem (by rw [hl.2.2]; exact this)]; rfl

theorem column3_get {T : Arr3} {f : Fin n → Fin d → Fin d → ℝ} (h : Holds3 T f) (k l : Fin d) (a : Fin n) (y : ℝ) :
    (column3 T (k.1 + 1) (l.1 + 1)).getD a.1 y = f a k l := by
  unfold column3
  rw [h.1, List.getD_eq_getElem?_getD, List.getElem?_map, List.getElem?_range a.2, ← h.2.2.2 a k l]; rfl

/-- Filling columns one after the other. -/
theorem fill_columns {T : Arr3} {f : Fin n → Fin d → Fin d → ℝ} (hT : Holds3 T f) {c : Nat} (L : List (Fin c × Fin d × Fin d)) (m : Mat ℝ) (A : Matrix (Fin n) (Fin c) ℝ) (h : Rep m A)
    (hn : (L.map Prod.fst).Nodup) :
    ∃ R R', (L.map fun q => (q.1.1 + 1, q.2.1.1 + 1, q.2.2.1 + 1)).foldlM (fun (H : Mat ℝ) q => H.fillColumn q.1 (column3 T q.2.1 q.2.2)) m = some R ∧ Rep R R' ∧
      (∀ q ∈ L, ∀ a, R' a q.1 = f a q.2.1 q.2.2) ∧ ∀ j, j ∉ L.map Prod.fst → ∀ a, R' a j = A a j := by
  induction L generalizing m A with
  | nil => exact ⟨m, A, rfl, h, by simp, fun _ _ _ => rfl⟩
  | cons q L ih =>
    rw [List.map_cons, List.nodup_cons] at hn
    obtain ⟨m', e1, e2⟩ := C60_fillColumn h q.1 (column3 T (q.2.1.1 + 1) (q.2.2.1 + 1))
    obtain ⟨R, R', r1, r2, r3, r4⟩ := ih m' _ e2 hn.2
    refine ⟨R, R', ?_, r2, ?_, ?_⟩
    · rw [List.map_cons, List.foldlM_cons, e1]; exact r1
    · intro p hp a
      rcases List.mem_cons.mp hp with rfl | hp
      · rw [r4 _ hn.1 a, if_pos rfl, column3_get hT]
      · exact r3 p hp a
    · intro j hj a
      rw [List.map_cons, List.mem_cons, not_or] at hj
      rw [r4 j hj.2 a, if_neg hj.1]

theorem voigt_of {T : Arr3} {f : Fin n → Fin d → Fin d → ℝ} (hT : Holds3 T f) {m : Mat ℝ} (hw : m.WF) (L : List (Fin (d * (d + 1) / 2) × Fin d × Fin d))
    (hL : voigtCols d = L.map fun q => (q.1.1 + 1, q.2.1.1 + 1, q.2.2.1 + 1)) (hn : (L.map Prod.fst).Nodup) :
    ∃ R, ∃ R' : Matrix (Fin n) (Fin (d * (d + 1) / 2)) ℝ, voigt T m = some R ∧ Rep R R' ∧ ∀ q ∈ L, ∀ a, R' a q.1 = f a q.2.1 q.2.2 := by
  obtain ⟨A, hA⟩ := resize_rep m hw n (d * (d + 1) / 2)
  obtain ⟨R, R', r1, r2, r3, _⟩ := fill_columns hT L _ A hA hn
  refine ⟨R, R', ?_, r2, r3⟩
  unfold voigt
  rw [if_pos (hT.2.1.trans hT.2.2.1.symm), hT.2.1, hT.1, hL]
  exact r1

/-- The compact form of the second derivatives in one, two and three dimensions: the columns are 11; 11, 22, 12; and 11, 22, 33, 12, 13, 23. -/
theorem C61_compact_hessian1 {T : Arr3} {f : Fin n → Fin 1 → Fin 1 → ℝ} (hT : Holds3 T f) {m : Mat ℝ} (hw : m.WF) :
    ∃ R, ∃ R' : Matrix (Fin n) (Fin 1) ℝ, voigt T m = some R ∧ Rep R R' ∧ ∀ a, R' a = ![f a 0 0] := by
  obtain ⟨R, R', r1, r2, r3⟩ := voigt_of hT hw [(0, 0, 0)] (by decide) (by decide)
  refine ⟨R, R', r1, r2, fun a => ?_⟩
  funext j
  fin_cases j
  exact r3 (0, 0, 0) (by simp) a

theorem C61_compact_hessian2 {T : Arr3} {f : Fin n → Fin 2 → Fin 2 → ℝ} (hT : Holds3 T f) {m : Mat ℝ} (hw : m.WF) :
    ∃ R, ∃ R' : Matrix (Fin n) (Fin 3) ℝ, voigt T m = some R ∧ Rep R R' ∧ ∀ a, R' a = ![f a 0 0, f a 1 1, f a 0 1] := by
  obtain ⟨R, R', r1, r2, r3⟩ := voigt_of hT hw [(0, 0, 0), (1, 1, 1), (2, 0, 1)] (by decide) (by decide)
  refine ⟨R, R', r1, r2, fun a => ?_⟩
  funext j
  fin_cases j
  · exact r3 (0, 0, 0) (by decide) a
  · exact r3 (1, 1, 1) (by decide) a
  · exact r3 (2, 0, 1) (by decide) a

theorem C61_compact_hessian3 {T : Arr3} {f : Fin n → Fin 3 → Fin 3 → ℝ} (hT : Holds3 T f) {m : Mat ℝ} (hw : m.WF) :
    ∃ R, ∃ R' : Matrix (Fin n) (Fin 6) ℝ, voigt T m = some R ∧ Rep R R' ∧ ∀ a, R' a = ![f a 0 0, f a 1 1, f a 2 2, f a 0 1, f a 0 2, f a 1 2] := by
  obtain ⟨R, R', r1, r2, r3⟩ := voigt_of hT hw [(0, 0, 0), (1, 1, 1), (2, 2, 2), (3, 0, 1), (4, 0, 2), (5, 1, 2)] (by decide) (by decide)
  refine ⟨R, R', r1, r2, fun a => ?_⟩
  funext j
  fin_cases j
  · exact r3 (0, 0, 0) (by decide) a
  · exact r3 (1, 1, 1) (by decide) a
  · exact r3 (2, 2, 2) (by decide) a
  · exact r3 (3, 0, 1) (by decide) a
  · exact r3 (4, 0, 2) (by decide) a
  · exact r3 (5, 1, 2) (by decide) a

/-- A Hessian whose two last dimensions differ has no compact form. -/
theorem C61_compact_hessian_refused (T : Arr3) (m : Mat ℝ) (h : T.n2 ≠ T.n3) : voigt T m = some ⟨0, 0, []⟩ := by
  unfold voigt; rw [if_neg h]

theorem jacobianGradient_raw {dudX : Mat ℝ} {H : Arr3} {x : Pt d → Pt d} {u : Pt d} (hd : 0 < d) {B : Matrix (Fin d) (Fin d) ℝ}
    (hJi : Rep dudX B) (hH : Holds3 H fun i k l => pd (pd (fun v => x v i) l) k u) :
    (jacobianGradient dudX H []).length = d ∧ ∀ j : Fin d, ∃ M M', (jacobianGradient dudX H [])[j.1]? = some M ∧ Rep M M' ∧
      ∀ i l : Fin d, M' i l = ∑ k, pd (fun v => jac x v i l) k u * B k j := by
  unfold jacobianGradient
  rw [hJi.rows]
  refine ⟨by simp, fun j => ?_⟩
  rw [List.getElem?_map, List.getElem?_range j.2]
  simp only [Option.map_some, List.getD_nil]
  have h0 : Rep ((⟨0, 0, []⟩ : Mat ℝ).resize d d false) (0 : Matrix (Fin d) (Fin d) ℝ) := by
    have hdd : 0 < d * d := Nat.mul_pos hd hd
    have e : ((⟨0, 0, []⟩ : Mat ℝ).resize d d false) = ⟨d, d, List.replicate (d * d) 0⟩ := by
      unfold Mat.resize
      simp only [Bool.false_eq_true, if_false]
      rw [if_neg (by omega), if_neg (by omega)]
      simp
    rw [e]
    refine ⟨rfl, rfl, by simp, fun i k => ?_⟩
    have := rep_idx i.2 k.2
    simp [List.getElem?_replicate, this]
  have hS : ∀ k : Nat, ∀ hk : k < d, Rep (⟨d, d, (Mat.pairs d d).map fun q => H.get (q.2 + 1) (k + 1) (q.1 + 1)⟩ : Mat ℝ)
      (Matrix.of fun i l => pd (pd (fun v => x v i) l) ⟨k, hk⟩ u) := by
    intro k hk
    have hlen : (Mat.pairs d d).length = d * d := by
      unfold Mat.pairs
      exact flatMap_range_length _ d d fun k _ => by simp
    refine ⟨rfl, rfl, by simp [hlen], fun i l => ?_⟩
    rw [List.getElem?_map]
    have hp : (Mat.pairs d d)[i.1 + d * l.1]? = some (l.1, i.1) := by
      have := flatMap_range_get (fun i => (List.range d).map fun j => (i, j)) d d (fun k _ => by simp) l.1 i.1 l.2 i.2
      unfold Mat.pairs
      rw [show i.1 + d * l.1 = l.1 * d + i.1 by ring, this]
      simp [List.getElem?_range i.2]
    rw [hp]
    simp only [Option.map_some]
    congr 1
    exact hH.2.2.2 i ⟨k, hk⟩ l
  have hloop : ∀ m : Nat, m ≤ d → ∃ M', Rep ((List.range m).foldl (fun (dJ : Mat ℝ) k => dJ.add ⟨d, d, (Mat.pairs d d).map fun q => H.get (q.2 + 1) (k + 1) (q.1 + 1)⟩ (dudX.val ((k : Int) + 1) ((j.1 + 1 : Nat) : Int)))
      ((⟨0, 0, []⟩ : Mat ℝ).resize d d false)) M' ∧ ∀ i l, M' i l = ∑ k : Fin m, (if hk : k.1 < d then pd (pd (fun v => x v i) l) ⟨k.1, hk⟩ u * B ⟨k.1, hk⟩ j else 0) := by
    intro m
    induction m with
    | zero => exact fun _ => ⟨0, h0, fun i l => by simp⟩
    | succ m ih =>
      intro hm
      obtain ⟨M', h1, h2⟩ := ih (by omega)
      rw [List.range_succ, List.foldl_append]
      simp only [List.foldl_cons, List.foldl_nil]
      refine ⟨_, (C60_add h1 (hS m (by omega)) _).1, fun i l => ?_⟩
      rw [Fin.sum_univ_castSucc]
      have hb := rep_val hJi m j.1 (by omega) j.2
      push_cast
      rw [Matrix.add_apply, h2 i l, Matrix.smul_apply, hb, dif_pos (show m < d by omega)]
      simp only [smul_eq_mul, Matrix.of_apply]
      congr 1
      exact mul_comm _ _
  obtain ⟨M', h1, h2⟩ := hloop d (le_refl _)
  refine ⟨_, M', rfl, ?_, fun i l => ?_⟩
  · unfold jacGradStep
    rw [hJi.rows]
    exact h1
  · rw [h2 i l]
    exact Finset.sum_congr rfl fun k _ => by rw [dif_pos k.2]; rfl

/-- The derivative of the Jacobian matrix with respect to the physical coordinates. -/
theorem C61_jacobian_gradient {dudX : Mat ℝ} {H : Arr3} {x : Pt d → Pt d} {u : Pt d} (hd : 0 < d) (hx : ∀ i, ContDiffAt ℝ 2 (fun v => x v i) u) {B : Matrix (Fin d) (Fin d) ℝ} (hB : jac x u * B = 1)
    (hJi : Rep dudX B) (hH : Holds3 H fun i k l => pd (pd (fun v => x v i) l) k u) :
    (jacobianGradient dudX H []).length = d ∧ ∀ j : Fin d, ∃ M M', (jacobianGradient dudX H [])[j.1]? = some M ∧ Rep M M' ∧
      ∀ (i l : Fin d) (G : Pt d → ℝ), DifferentiableAt ℝ G (x u) → Pulls x u (fun v => jac x v i l) G → M' i l = pd G j (x u) := by
  obtain ⟨h1, h2⟩ := jacobianGradient_raw (x := x) (u := u) hd hJi hH
  refine ⟨h1, fun j => ?_⟩
  obtain ⟨M, M', m1, m2, m3⟩ := h2 j
  refine ⟨M, M', m1, m2, fun i l G hG hP => ?_⟩
  rw [m3 i l]
  exact pulled_gradient_inv (fun i => (hx i).differentiableAt (by simp)) hG hP hB j

theorem jac_diff {x : Pt d → Pt s} {u : Pt d} (hx : ∀ i, ContDiffAt ℝ 2 (fun v => x v i) u) (i : Fin s) (l : Fin d) : DifferentiableAt ℝ (fun v => jac x v i l) u :=
  (pd_contDiffAt (m := 1) (cd_one (hx i)) l).differentiableAt (by simp)

theorem detGrad2 {x : Pt 2 → Pt 2} {u : Pt 2} (hx : ∀ i, ContDiffAt ℝ 2 (fun v => x v i) u) (k : Fin 2) :
    pd (fun v => (jac x v).det) k u =
      pd (pd (fun v => x v 0) 0) k u * jac x u 1 1 + jac x u 0 0 * pd (pd (fun v => x v 1) 1) k u - pd (pd (fun v => x v 0) 1) k u * jac x u 1 0 - jac x u 0 1 * pd (pd (fun v => x v 1) 0) k u := by
  have hj := jac_diff hx
  have e : (fun v => (jac x v).det) = fun v => jac x v 0 0 * jac x v 1 1 - jac x v 0 1 * jac x v 1 0 := by funext v; rw [Matrix.det_fin_two]
  rw [e, pd_sub ((hj 0 0).fun_mul (hj 1 1)) ((hj 0 1).fun_mul (hj 1 0)), pd_mul (hj 0 0) (hj 1 1), pd_mul (hj 0 1) (hj 1 0)]
  show jac x u 0 0 * pd (pd (fun v => x v 1) 1) k u + jac x u 1 1 * pd (pd (fun v => x v 0) 0) k u - (jac x u 0 1 * pd (pd (fun v => x v 1) 0) k u + jac x u 1 0 * pd (pd (fun v => x v 0) 1) k u) = _
  ring

theorem detGrad3 {x : Pt 3 → Pt 3} {u : Pt 3} (hx : ∀ i, ContDiffAt ℝ 2 (fun v => x v i) u) (k : Fin 3) :
    pd (fun v => (jac x v).det) k u =
      (pd (pd (fun v => x v 0) 0) k u * (jac x u 1 1 * jac x u 2 2 - jac x u 1 2 * jac x u 2 1) +
        jac x u 0 0 * (pd (pd (fun v => x v 1) 1) k u * jac x u 2 2 + jac x u 1 1 * pd (pd (fun v => x v 2) 2) k u - pd (pd (fun v => x v 1) 2) k u * jac x u 2 1 - jac x u 1 2 * pd (pd (fun v => x v 2) 1) k u)) -
      (pd (pd (fun v => x v 0) 1) k u * (jac x u 1 0 * jac x u 2 2 - jac x u 1 2 * jac x u 2 0) +
        jac x u 0 1 * (pd (pd (fun v => x v 1) 0) k u * jac x u 2 2 + jac x u 1 0 * pd (pd (fun v => x v 2) 2) k u - pd (pd (fun v => x v 1) 2) k u * jac x u 2 0 - jac x u 1 2 * pd (pd (fun v => x v 2) 0) k u)) +
      (pd (pd (fun v => x v 0) 2) k u * (jac x u 1 0 * jac x u 2 1 - jac x u 1 1 * jac x u 2 0) +
        jac x u 0 2 * (pd (pd (fun v => x v 1) 0) k u * jac x u 2 1 + jac x u 1 0 * pd (pd (fun v => x v 2) 1) k u - pd (pd (fun v => x v 1) 1) k u * jac x u 2 0 - jac x u 1 1 * pd (pd (fun v => x v 2) 0) k u)) := by
  have hj := jac_diff hx
  have e : (fun v => (jac x v).det) = fun v => (jac x v 0 0 * (jac x v 1 1 * jac x v 2 2 - jac x v 1 2 * jac x v 2 1) - jac x v 0 1 * (jac x v 1 0 * jac x v 2 2 - jac x v 1 2 * jac x v 2 0)) +
      jac x v 0 2 * (jac x v 1 0 * jac x v 2 1 - jac x v 1 1 * jac x v 2 0) := by
    funext v; rw [Matrix.det_fin_three]; ring
  have hm : ∀ a b c f : Fin 3, DifferentiableAt ℝ (fun v => jac x v 1 a * jac x v 2 b - jac x v 1 c * jac x v 2 f) u := fun a b c f =>
    ((hj 1 a).fun_mul (hj 2 b)).fun_sub ((hj 1 c).fun_mul (hj 2 f))
  have hp : ∀ i l, pd (fun v => jac x v i l) k u = pd (pd (fun v => x v i) l) k u := fun i l => rfl
  have h2 : ∀ a b c f : Fin 3, pd (fun v => jac x v 1 a * jac x v 2 b - jac x v 1 c * jac x v 2 f) k u =
      jac x u 1 a * pd (pd (fun v => x v 2) b) k u + jac x u 2 b * pd (pd (fun v => x v 1) a) k u - (jac x u 1 c * pd (pd (fun v => x v 2) f) k u + jac x u 2 f * pd (pd (fun v => x v 1) c) k u) := by
    intro a b c f
    rw [pd_sub ((hj 1 a).fun_mul (hj 2 b)) ((hj 1 c).fun_mul (hj 2 f)), pd_mul (hj 1 a) (hj 2 b), pd_mul (hj 1 c) (hj 2 f), hp, hp, hp, hp]
  rw [e, pd_add (((hj 0 0).fun_mul (hm 1 2 2 1)).fun_sub ((hj 0 1).fun_mul (hm 0 2 2 0))) ((hj 0 2).fun_mul (hm 0 1 1 0)),
    pd_sub ((hj 0 0).fun_mul (hm 1 2 2 1)) ((hj 0 1).fun_mul (hm 0 2 2 0)), pd_mul (hj 0 0) (hm 1 2 2 1), pd_mul (hj 0 1) (hm 0 2 2 0), pd_mul (hj 0 2) (hm 0 1 1 0),
    h2, h2, h2, hp, hp, hp]
  ring

theorem detJacGradient_raw {J Ji : Mat ℝ} {H : Arr3} {x : Pt d → Pt d} {u : Pt d} (hd : d = 2 ∨ d = 3) (hx : ∀ i, ContDiffAt ℝ 2 (fun v => x v i) u) {B : Matrix (Fin d) (Fin d) ℝ}
    (hJ : Rep J (jac x u)) (hJi : Rep Ji B) (hH : Holds3 H fun i k l => pd (pd (fun v => x v i) l) k u) (old : List ℝ) :
    ∃ r : Pt d, detJacGradient J Ji H old = some (List.ofFn r) ∧ ∀ j, r j = ∑ k, pd (fun v => (jac x v).det) k u * B k j := by
  have hent : ∀ k : Fin d, detGradEntry J H (k.1 + 1) = pd (fun v => (jac x v).det) k u := by
    intro k
    have hsym : ∀ i l, H.get (i.1 + 1) (l.1 + 1) (k.1 + 1) = pd (pd (fun v => x v i) l) k u := by
      intro i l
      rw [hH.2.2.2 i l k]; exact pd_symm (hx i) l k
    have hv : ∀ i l : Fin d, J.val ((i.1 : Int) + 1) ((l.1 : Int) + 1) = jac x u i l := fun i l => rep_val hJ i.1 l.1 i.2 l.2
    unfold detGradEntry
    rcases hd with rfl | rfl
    · rw [if_pos hJ.rows, detGrad2 hx k, ← hsym 0 0, ← hsym 1 1, ← hsym 0 1, ← hsym 1 0, ← hv 1 1, ← hv 0 0, ← hv 1 0, ← hv 0 1]; rfl
    · rw [if_neg (by rw [hJ.rows]; decide), if_pos hJ.rows, detGrad3 hx k]
      simp only [← hsym, ← hv]
      simp
      ring
  refine ⟨(B.transpose).mulVec fun k => pd (fun v => (jac x v).det) k u, ?_, fun j => ?_⟩
  · unfold detJacGradient
    have hl : (List.range J.nrow).map (fun k => detGradEntry J H (k + 1)) = List.ofFn fun k : Fin d => pd (fun v => (jac x v).det) k u := by
      rw [hJ.rows]
      apply List.ext_getElem
      · simp
      · intro i h1 h2
        simp only [List.getElem_map, List.getElem_range, List.getElem_ofFn]
        exact hent ⟨i, by simpa using h1⟩
    rw [hl]
    have hR : RepOp Ji true B.transpose := by
      unfold RepOp
      rw [if_pos rfl, Matrix.transpose_transpose]; exact hJi
    rw [(C60_mulVec hR (by omega) (by omega) _).1]; rfl
  · unfold Matrix.mulVec dotProduct
    exact Finset.sum_congr rfl fun k _ => mul_comm _ _

/-- The gradient of the Jacobian determinant with respect to the physical coordinates, in two and three dimensions. -/
theorem C61_det_gradient {J Ji : Mat ℝ} {H : Arr3} {x : Pt d → Pt d} {u : Pt d} (hd : d = 2 ∨ d = 3) (hx : ∀ i, ContDiffAt ℝ 2 (fun v => x v i) u) {B : Matrix (Fin d) (Fin d) ℝ} (hB : jac x u * B = 1)
    (hJ : Rep J (jac x u)) (hJi : Rep Ji B) (hH : Holds3 H fun i k l => pd (pd (fun v => x v i) l) k u) (old : List ℝ) :
    ∃ r : Pt d, detJacGradient J Ji H old = some (List.ofFn r) ∧
      ∀ G : Pt d → ℝ, DifferentiableAt ℝ G (x u) → Pulls x u (fun v => (jac x v).det) G → ∀ j, r j = pd G j (x u) := by
  obtain ⟨r, r1, r2⟩ := detJacGradient_raw hd hx hJ hJi hH old
  refine ⟨r, r1, fun G hG hP j => ?_⟩
  rw [r2 j]
  exact pulled_gradient_inv (fun i => (hx i).differentiableAt (by simp)) hG hP hB j

/-- The metric matrix of an element with parameter extents `du`: `G_ij = Σ_k ∂u_k/∂X_i ∂u_k/∂X_j 2^d/(du_i du_j)`. -/
theorem C61_gmat {Ji G : Mat ℝ} {B : Matrix (Fin d) (Fin d) ℝ} (hJi : Rep Ji B) (hG : G.WF) (du : Pt d) :
    ∃ R, ∃ R' : Matrix (Fin d) (Fin d) ℝ, getGmat Ji (List.ofFn du) G = some R ∧ Rep R R' ∧ ∀ i j, R' i j = ∑ k, B k i * B k j * (2 ^ d / (du i * du j)) := by
  unfold getGmat
  have h0 := C60_resize_clear G hG d d
  have hdu : ∀ i, ∀ hi : i < d, (List.ofFn du)[i]? = some (du ⟨i, hi⟩) := fun i hi => by
    rw [List.getElem?_eq_getElem (by simpa using hi), List.getElem_ofFn]
  have hdg : ∀ i, ∀ hi : i < d, (List.ofFn du).getD i 0 = du ⟨i, hi⟩ := fun i hi => by
    rw [List.getD_eq_getElem?_getD, hdu i hi]; rfl
  rw [hJi.cols]
  obtain ⟨R, r1, r2⟩ := rep_fold (m := G.resize d d true) h0 (Mat.triples d d d) (fun (G : Mat ℝ) q => do
    let a ← (List.ofFn du)[q.1]?
    let b ← (List.ofFn du)[q.2.1]?
    let x ← Ji.get? (q.2.2 + 1) (q.1 + 1)
    let y ← Ji.get? (q.2.2 + 1) (q.2.1 + 1)
    G.addAt? (q.1 + 1) (q.2.1 + 1) (x * y * (2 ^ d / (a * b))))
    (fun q => q.1 + d * q.2.1) (fun q z => z + Ji.val ((q.2.2 : Int) + 1) ((q.1 : Int) + 1) * Ji.val ((q.2.2 : Int) + 1) ((q.2.1 : Int) + 1) * (2 ^ d / ((List.ofFn du).getD q.1 0 * (List.ofFn du).getD q.2.1 0)))
    (fun m' a b e q hq => by
      obtain ⟨q1, q2, q3⟩ := (mem_triples _ _ _ _).mp hq
      rw [rep_get hJi _ _ q3 q1, rep_get hJi _ _ q3 q2, rep_val hJi _ _ q3 q1, rep_val hJi _ _ q3 q2, hdu q.1 q1, hdu q.2.1 q2, hdg q.1 q1, hdg q.2.1 q2]
      simp only [Option.bind_eq_bind, Option.bind_some]
      have := addAt_modify m' (q.1 + 1) (q.2.1 + 1) (B ⟨q.2.2, q3⟩ ⟨q.1, q1⟩ * B ⟨q.2.2, q3⟩ ⟨q.2.1, q2⟩ * (2 ^ d / (du ⟨q.1, q1⟩ * du ⟨q.2.1, q2⟩)))
        ⟨by omega, by omega, by omega, by omega⟩ (by rw [a, b]; exact e)
      simp only [Nat.add_sub_cancel, Nat.cast_add, Nat.cast_one] at this
      rw [this, a])
  refine ⟨R, Matrix.of fun i j => ∑ k, B k i * B k j * (2 ^ d / (du i * du j)), r1, ?_, fun i j => rfl⟩
  refine ⟨r2.rows, r2.cols, r2.size, fun i j => (r2.ent i j).trans (congrArg some ?_)⟩
  rw [foldl_add_sum, sum_filter, sum_triples, Matrix.zero_apply, zero_add, Finset.sum_eq_single i, Finset.sum_eq_single j]
  · refine Finset.sum_congr rfl fun l _ => ?_
    rw [if_pos rfl, rep_val hJi _ _ l.2 i.2, rep_val hJi _ _ l.2 j.2, hdg i.1 i.2, hdg j.1 j.2]
  · intro j' _ hne
    refine Finset.sum_eq_zero fun l _ => if_neg fun e => hne ?_
    have hr : 0 < d := Nat.lt_of_le_of_lt (Nat.zero_le _) i.2
    exact Fin.ext (Nat.eq_of_mul_eq_mul_left hr (Nat.add_left_cancel e))
  · simp
  · intro i' _ hne
    refine Finset.sum_eq_zero fun j' _ => Finset.sum_eq_zero fun l _ => if_neg fun e => hne ?_
    have := congrArg (· % d) e
    simp [Nat.add_mul_mod_self_left, Nat.mod_eq_of_lt i'.2, Nat.mod_eq_of_lt i.2] at this
    exact Fin.ext this
  · simp

/-- The gradient of a function of the physical coordinates, for a mapping with constant Jacobian. -/
theorem pulls_pd {x : Pt d → Pt d} {u : Pt d} {N F : Pt d → ℝ} {A B : Matrix (Fin d) (Fin d) ℝ} (hx : ∀ᶠ v in 𝓝 u, (∀ i, DifferentiableAt ℝ (fun w => x w i) v) ∧ jac x v = A)
    (hB : A * B = 1) (hF : ∀ᶠ y in 𝓝 (x u), DifferentiableAt ℝ F y) (h : Pulls x u N F) (j : Fin d) : Pulls x u (fun v => ∑ k, pd N k v * B k j) (pd F j) := by
  have hc : ContinuousAt x u := continuousAt_pi.mpr fun i => (hx.self_of_nhds.1 i).continuousAt
  have h1 : ∀ᶠ v in 𝓝 u, Pulls x v N F := h.eventually_nhds
  filter_upwards [hx, hc.eventually hF, h1] with v a b c
  exact (pulled_gradient_inv a.1 b c (by rw [a.2]; exact hB) j).symm

theorem cd_nat {f : Pt d → ℝ} {u : Pt d} {m : ℕ} {q : WithTop ℕ∞} (hq : ((m : ℕ∞) : WithTop ℕ∞) + 1 = q) (h : ContDiffAt ℝ q f u) : ContDiffAt ℝ ((m : ℕ∞) + 1) f u := by
  rw [hq]; exact h

theorem cd_diff {f : Pt d → ℝ} {u : Pt d} {q : WithTop ℕ∞} (h : ContDiffAt ℝ q f u) (h1 : 1 ≤ q) (h2 : q ≠ (⊤ : ℕ∞)) : ∀ᶠ v in 𝓝 u, DifferentiableAt ℝ f v := by
  filter_upwards [h.eventually h2] with v hv
  exact hv.differentiableAt (by intro e; rw [e] at h1; simp at h1)

/-- The third derivatives of a function of the physical coordinates, for a mapping with constant Jacobian. -/
theorem third_affine {x : Pt d → Pt d} {u : Pt d} {N F : Pt d → ℝ} {A B : Matrix (Fin d) (Fin d) ℝ} (hx : ∀ᶠ v in 𝓝 u, (∀ i, DifferentiableAt ℝ (fun w => x w i) v) ∧ jac x v = A)
    (hB : A * B = 1) (hN : ContDiffAt ℝ 3 N u) (hF : ContDiffAt ℝ 3 F (x u)) (h : Pulls x u N F) (a b c : Fin d) :
    pd (pd (pd F c) b) a (x u) = ∑ k, (∑ l, (∑ m, pd (pd (pd N m) l) k u * B m c) * B l b) * B k a := by
  have F1 : ContDiffAt ℝ ((2 : ℕ) : ℕ∞) (pd F c) (x u) := pd_contDiffAt (cd_nat (by norm_num) hF) c
  have F2 : ContDiffAt ℝ ((1 : ℕ) : ℕ∞) (pd (pd F c) b) (x u) := pd_contDiffAt (cd_nat (by norm_num) F1) b
  have N1 : ∀ m, ContDiffAt ℝ ((2 : ℕ) : ℕ∞) (pd N m) u := fun m => pd_contDiffAt (cd_nat (by norm_num) hN) m
  have N2 : ∀ m l, ContDiffAt ℝ ((1 : ℕ) : ℕ∞) (pd (pd N m) l) u := fun m l => pd_contDiffAt (cd_nat (by norm_num) (N1 m)) l
  have p1 := pulls_pd hx hB (cd_diff hF (by norm_num) (by simp)) h c
  have p2 := pulls_pd hx hB (cd_diff F1 (by norm_num) (by simp)) p1 b
  have hxu := hx.self_of_nhds
  rw [← pulled_gradient_inv hxu.1 (cd_diff F2 (by norm_num) (by simp)).self_of_nhds p2 (by rw [hxu.2]; exact hB) a]
  refine Finset.sum_congr rfl fun k _ => ?_
  congr 1
  have e1 : ∀ l, pd (fun v => ∑ m, pd N m v * B m c) l =ᶠ[𝓝 u] fun v => ∑ m, pd (pd N m) l v * B m c := by
    intro l
    have : ∀ᶠ v in 𝓝 u, ∀ m, DifferentiableAt ℝ (pd N m) v := by
      rw [Filter.eventually_all]
      exact fun m => cd_diff (N1 m) (by norm_num) (by simp)
    filter_upwards [this] with v hv
    rw [pd_sum _ fun m _ => (hv m).mul_const _]
    refine Finset.sum_congr rfl fun m _ => ?_
    have := pd_const_mul (hv m) (B m c) l
    rw [mul_comm, ← this]
    congr 1
    funext w
    exact mul_comm _ _
  have hd2 : ∀ m l, DifferentiableAt ℝ (pd (pd N m) l) u := fun m l => (cd_diff (N2 m l) (by norm_num) (by simp)).self_of_nhds
  have hd3 : ∀ l, DifferentiableAt ℝ (fun v => ∑ m, pd (pd N m) l v * B m c) u := fun l => DifferentiableAt.fun_sum fun m _ => (hd2 m l).mul_const _
  have e2 : (fun v => ∑ l, pd (fun v => ∑ m, pd N m v * B m c) l v * B l b) =ᶠ[𝓝 u] fun v => ∑ l, (∑ m, pd (pd N m) l v * B m c) * B l b := by
    have : ∀ᶠ v in 𝓝 u, ∀ l, pd (fun v => ∑ m, pd N m v * B m c) l v = ∑ m, pd (pd N m) l v * B m c := by
      rw [Filter.eventually_all]
      exact fun l => e1 l
    filter_upwards [this] with v hv
    exact Finset.sum_congr rfl fun l _ => by rw [hv l]
  rw [pd_congr e2 k, pd_sum _ fun l _ => (hd3 l).mul_const _]
  refine Finset.sum_congr rfl fun l _ => ?_
  have s1 := pd_const_mul (hd3 l) (B l b) k
  rw [mul_comm (∑ m, _), show (fun v => (∑ m, pd (pd N m) l v * B m c) * B l b) = fun v => B l b * ∑ m, pd (pd N m) l v * B m c from funext fun v => mul_comm _ _, s1,
    pd_sum _ fun m _ => (hd2 m l).mul_const _]
  congr 1
  refine Finset.sum_congr rfl fun m _ => ?_
  have s2 := pd_const_mul (hd2 m l) (B m c) k
  rw [mul_comm (pd (pd (pd N m) l) k u), ← s2]
  congr 1
  funext w
  exact mul_comm _ _

/-- An array with four indices holds the values `f`. -/
def Holds4 (T : Arr4) (f : Fin n → Fin d → Fin d → Fin d → ℝ) : Prop :=
  T.n1 = n ∧ T.n2 = d ∧ T.n3 = d ∧ T.n4 = d ∧ ∀ a k l m, T.get (a.1 + 1) (k.1 + 1) (l.1 + 1) (m.1 + 1) = f a k l m

/-- `Hessian2` returns the third derivatives with respect to the physical coordinates in one and two dimensions, for geometry mappings whose Jacobian is constant near the point. -/
theorem C61_hessian2 {D0 T : Arr4} {Ji : Mat ℝ} {x : Pt d → Pt d} {A B : Matrix (Fin d) (Fin d) ℝ} {N : Fin n → Pt d → ℝ} {u : Pt d} (hd : d = 1 ∨ d = 2)
    (hx : ∀ᶠ v in 𝓝 u, (∀ i, DifferentiableAt ℝ (fun w => x w i) v) ∧ jac x v = A) (hN : ∀ a, ContDiffAt ℝ 3 (N a) u)
    (hT : Holds4 T fun a k l m => pd (pd (pd (N a) m) l) k u) (hJi : Rep Ji B) (hB : A * B = 1) :
    ∃ R, ∃ r : Fin n → Fin d → Fin d → Fin d → ℝ, hessian2 D0 Ji T = (true, R) ∧ Holds4 R r ∧
      ∀ a F, ContDiffAt ℝ 3 F (x u) → Pulls x u (N a) F → ∀ p q t, r a p q t = pd (pd (pd F t) q) p (x u) := by
  have hv : ∀ i l : Fin d, Ji.val ((i.1 : Int) + 1) ((l.1 : Int) + 1) = B i l := fun i l => rep_val hJi i.1 l.1 i.2 l.2
  have hsym : ∀ a : Fin n, ∀ k l m, pd (pd (pd (N a) m) l) k u = pd (pd (pd (N a) m) k) l u ∧ pd (pd (pd (N a) m) l) k u = pd (pd (pd (N a) l) m) k u := by
    intro a k l m
    have N1 : ContDiffAt ℝ ((2 : ℕ) : ℕ∞) (pd (N a) m) u := pd_contDiffAt (cd_nat (by norm_num) (hN a)) m
    refine ⟨pd_symm N1 k l, pd_congr ?_ k⟩
    have : ∀ᶠ v in 𝓝 u, ContDiffAt ℝ 3 (N a) v := (hN a).eventually (by simp)
    filter_upwards [this] with v hv
    exact pd_symm (hv.of_le (by norm_num)) l m
  rcases hd with rfl | rfl
  · refine ⟨⟨n, 1, 1, 1, fun i _ _ _ => T.get i 1 1 1 * Ji.val 1 1 * Ji.val 1 1 * Ji.val 1 1⟩, _, ?_, ⟨rfl, rfl, rfl, rfl, fun a k l m => rfl⟩, ?_⟩
    · unfold hessian2
      rw [if_neg (by rw [hJi.cols, hJi.rows]; omega), if_neg (by rw [hJi.cols, hJi.rows]; omega), if_pos hJi.rows, hT.1]
    · intro a F hF hP p q t
      rw [third_affine hx hB (hN a) hF hP p q t]
      have h0 := hT.2.2.2.2 a 0 0 0
      have h1 := hv 0 0
      simp only [Fin.val_zero, Nat.zero_add, Nat.cast_zero, zero_add] at h0 h1
      rw [Subsingleton.elim p 0, Subsingleton.elim q 0, Subsingleton.elim t 0]
      simp [h0, h1]
  · refine ⟨⟨n, 2, 2, 2, fun i a b c => hess2Entry T Ji i a b c⟩, _, ?_, ⟨rfl, rfl, rfl, rfl, fun a k l m => rfl⟩, ?_⟩
    · unfold hessian2
      rw [if_neg (by rw [hJi.cols, hJi.rows]; omega), if_neg (by rw [hJi.cols, hJi.rows]; omega), if_neg (by rw [hJi.rows]; omega), if_neg (by rw [hJi.rows]; omega), hT.1]
    · intro a F hF hP p q t
      rw [third_affine hx hB (hN a) hF hP p q t]
      have hg := hT.2.2.2.2 a
      have g111 := hg 0 0 0
      have g112 := hg 0 0 1
      have g122 := hg 0 1 1
      have g222 := hg 1 1 1
      have v11 := hv 0 0
      have v12 := hv 0 1
      have v21 := hv 1 0
      have v22 := hv 1 1
      have s1 := (hsym a 0 1 0).1
      have s2 := (hsym a 0 1 0).2
      have s3 := (hsym a 1 0 1).2
      have s4 := (hsym a 1 0 1).1
      have s5 := (hsym a 1 0 0).1
      have s6 := (hsym a 1 1 0).1
      have s7 := (hsym a 1 1 0).2
      simp only [Fin.val_zero, Fin.val_one, Nat.zero_add, Nat.reduceAdd, Nat.cast_zero, zero_add, Nat.cast_one, Int.reduceAdd] at g111 g112 g122 g222 v11 v12 v21 v22
      simp only [Fin.sum_univ_two]
      generalize pd (pd (pd (N a) 0) 0) 0 u = t000 at *
      generalize pd (pd (pd (N a) 0) 0) 1 u = t001 at *
      generalize pd (pd (pd (N a) 0) 1) 0 u = t010 at *
      generalize pd (pd (pd (N a) 0) 1) 1 u = t011 at *
      generalize pd (pd (pd (N a) 1) 0) 0 u = t100 at *
      generalize pd (pd (pd (N a) 1) 0) 1 u = t101 at *
      generalize pd (pd (pd (N a) 1) 1) 0 u = t110 at *
      generalize pd (pd (pd (N a) 1) 1) 1 u = t111 at *
      have z1 : t001 = t100 := s1.symm.trans s2
      have z2 : t101 = t110 := s4
      have z3 : t011 = t110 := s7.trans s4
      rw [z1, z2, z3, s2]
      clear s1 s2 s3 s4 s5 s6 s7 z1 z2 z3
      fin_cases p <;> fin_cases q <;> fin_cases t <;> simp [hess2Entry, g111, g112, g122, g222, v11, v12, v21, v22]
      all_goals ring

end IFEM.Props
