import Verif.Lemmas.WeakOps
/-!
# C72: weak operators
-/
namespace IFEM.Props
open IFEM IFEM.Spec IFEM.Spec.Weak IFEM.Lem IFEM.Mat IFEM.Weak

variable {R : Type} [Field R] {n c d p : Nat} {fe : FE R} {b tb : Nat} {N : Fin n → R} {D : Matrix (Fin n) (Fin d) R}

theorem ncmp_eq (hb : IsBasis fe b N D) (hn : 0 < n) {EM : Mat R} {s : Nat} {E : Matrix (Fin (n * c)) (Fin s) R} (h : Rep EM E) : ncmp EM fe b = c := by
  unfold ncmp
  rw [h.rows, hb.values, List.length_ofFn, Nat.mul_div_cancel_left _ hn]

theorem vcmp_eq (hb : IsBasis fe b N D) (hn : 0 < n) (e : Fin (n * c) → R) : vcmp (List.ofFn e) fe b = c := by
  unfold vcmp
  rw [List.length_ofFn, hb.values, List.length_ofFn, Nat.mul_div_cancel_left _ hn]

theorem getCol (hb : IsBasis fe b N D) (k : Fin d) : (fe.grad b).getColumn (k.1 + 1) = some (List.ofFn fun i => D i k) := C60_getColumn hb.grads k

theorem cast_form {r s : Nat} (er : r = n) (es : s = p) {f : Mat R → Option (Mat R)} {T : (Fin n → R) → (Fin p → R) → R} (h : AddsForm n p f T) :
    AddsForm r s f (fun v u => T (fun i => v (Fin.cast er.symm i)) (fun j => u (Fin.cast es.symm j))) := by
  subst er; subst es; exact h

theorem cast_vec {r : Nat} (er : r = n) {f : List R → Option (List R)} {T : (Fin n → R) → R} (h : AddsVec n f T) :
    AddsVec r f (fun v => T (fun i => v (Fin.cast er.symm i))) := by
  subst er; exact h

theorem nodal_one (e : n * 1 = n) (v : Fin (n * 1) → R) (k : Fin 1) : (fun i => v (Fin.cast e.symm i)) = fun i => nodal v i k := by
  funext i
  unfold nodal
  congr 1
  apply Fin.ext
  show i.1 = k.1 + 1 * i.1
  omega

/-- An operator that adds a scalar matrix for every component, or directly if there is only one. -/
theorem components {f : Mat R → Option (Mat R)} {A : Mat R} {A' : Matrix (Fin n) (Fin p) R} {T : (Fin n → R) → (Fin p → R) → R} (hc : 0 < c)
    (h1 : 1 < c → Rep A A' ∧ (∀ v u, bil A' v u = T v u) ∧ ∀ m : Mat R, f m = addDiagonal m A c) (h2 : c = 1 → AddsForm n p f T) :
    AddsForm (n * c) (p * c) f (fun v u => ∑ k : Fin c, T (fun i => nodal v i k) (fun j => nodal u j k)) := by
  by_cases hc1 : c = 1
  · subst hc1
    refine AddsForm.congr (cast_form (Nat.mul_one n) (Nat.mul_one p) (h2 rfl)) (fun v u => ?_)
    rw [Fin.sum_univ_one, nodal_one (Nat.mul_one n) v 0, nodal_one (Nat.mul_one p) u 0]
  · obtain ⟨hA, hT, hf⟩ := h1 (by omega)
    refine AddsForm.congr (f := f) (T := fun v u => ∑ k : Fin c, bil A' (fun i => nodal v i k) (fun j => nodal u j k)) ?_ (fun v u => Finset.sum_congr rfl fun k _ => hT _ _)
    have := addDiagonal_spec (c := c) hA
    rw [show f = fun m => addDiagonal m A c from funext hf]
    exact this

theorem AddsForm.of_eq {r s : Nat} {f g : Mat R → Option (Mat R)} {T : (Fin r → R) → (Fin s → R) → R} (h : AddsForm r s f T)
    (e : ∀ (m : Mat R) (E : Matrix (Fin r) (Fin s) R), Rep m E → g m = f m) : AddsForm r s g T := by
  intro m E hm
  obtain ⟨m', E', a, b, hh⟩ := h m E hm
  exact ⟨m', E', (e m E hm).trans a, b, hh⟩

theorem AddsVec.of_eq {r : Nat} {f g : List R → Option (List R)} {T : (Fin r → R) → R} (h : AddsVec r f T) (e : ∀ x : Fin r → R, g (List.ofFn x) = f (List.ofFn x)) :
    AddsVec r g T := by
  intro x
  obtain ⟨x', a, hh⟩ := h x
  exact ⟨x', (e x).trans a, hh⟩

/-! ## Matrices -/

/-- `Mass` adds the scalar product of the test and the trial field. -/
theorem C72_mass (hb : IsBasis fe b N D) (hn : 0 < n) (hc : 0 < c) (scale : R) :
    AddsForm (n * c) (n * c) (fun m => mass m fe scale b) (fun v u => scale * fe.detJxW * ∑ k : Fin c, fval N (nodal v) k * fval N (nodal u) k) := by
  obtain ⟨A, hA1, hA2⟩ := outerTo_new (empty : Mat R) empty_wf N N (scale * fe.detJxW)
  have key := components (n := n) (p := n) (c := c)
    (f := fun m => if c > 1 then addDiagonal m A c else outerTo m (List.ofFn N) (List.ofFn N) true (scale * fe.detJxW))
    (T := fun v u => scale * fe.detJxW * (∑ i, N i * v i) * ∑ j, N j * u j) hc
    (fun h => ⟨hA2, fun v u => bil_outer _ _ _ _ _, fun m => if_pos h⟩)
    (fun h => AddsForm.of_eq (outerTo_add N N (scale * fe.detJxW)) fun m E hm => if_neg (by omega))
  refine AddsForm.congr (AddsForm.of_eq key fun m E hm => ?_) (fun v u => ?_)
  · show mass m fe scale b = _
    unfold mass
    rw [ncmp_eq hb hn hm, hb.values, hA1]
    rfl
  · dsimp only
    rw [Finset.mul_sum]
    exact Finset.sum_congr rfl fun k _ => by unfold fval; ring

/-- `Stress` adds `∑ ∂v_k/∂x_l ∂u_l/∂x_k`. -/
theorem C72_stress (hb : IsBasis fe b N D) (hn : 0 < n) (hc : c ≤ d) (scale : R) :
    AddsForm (n * c) (n * c) (fun m => stress m fe scale b) (fun v u => scale * fe.detJxW *
      ∑ k : Fin c, ∑ l : Fin c, der D (nodal v) k (Fin.castLE hc l) * der D (nodal u) l (Fin.castLE hc k)) := by
  have key : AddsForm (n * c) (n * c) (fun m => (pairs c c).foldlM (fun (EM' : Mat R) (q : Nat × Nat) => do
      let Dl ← (fe.grad b).getColumn (q.2+1)
      let Dk ← (fe.grad b).getColumn (q.1+1)
      let A ← outerTo empty Dl Dk false (scale * fe.detJxW)
      addComponent EM' A (q.1+1) (q.2+1) c) m) (fun v u => scale * fe.detJxW *
      ∑ k : Fin c, ∑ l : Fin c, der D (nodal v) k (Fin.castLE hc l) * der D (nodal u) l (Fin.castLE hc k)) := by
    refine AddsForm.congr (AddsForm.fold (pairs c c) _ (fun q v u => if h : q.1 < c ∧ q.2 < c then scale * fe.detJxW *
      (der D (nodal v) ⟨q.1, h.1⟩ (Fin.castLE hc ⟨q.2, h.2⟩) * der D (nodal u) ⟨q.2, h.2⟩ (Fin.castLE hc ⟨q.1, h.1⟩)) else 0) (fun q hq => ?_)) (fun v u => ?_)
    · obtain ⟨h1, h2⟩ := (mem_pairs _ _ _).1 hq
      obtain ⟨A, hA1, hA2⟩ := outerTo_new (empty : Mat R) empty_wf (fun i => D i (Fin.castLE hc ⟨q.2, h2⟩)) (fun i => D i (Fin.castLE hc ⟨q.1, h1⟩)) (scale * fe.detJxW)
      refine AddsForm.congr (AddsForm.of_eq (addComponent_spec hA2 ⟨q.1, h1⟩ ⟨q.2, h2⟩) fun m E hm => ?_) (fun v u => ?_)
      · have e1 := getCol hb (Fin.castLE hc ⟨q.2, h2⟩)
        have e2 := getCol hb (Fin.castLE hc ⟨q.1, h1⟩)
        simp only [Fin.val_castLE] at e1 e2
        dsimp only
        rw [e1, e2]
        simp only [Option.bind_eq_bind, Option.bind_some, hA1]
      · rw [dif_pos ⟨h1, h2⟩, bil_outer]
        unfold der
        ring
    · rw [sum_pairs, Finset.mul_sum]
      refine Finset.sum_congr rfl fun k _ => ?_
      rw [Finset.mul_sum]
      exact Finset.sum_congr rfl fun l _ => by rw [dif_pos ⟨k.2, l.2⟩]
  refine AddsForm.of_eq key fun m E hm => ?_
  show stress m fe scale b = _
  unfold stress
  rw [ncmp_eq hb hn hm]

theorem laplacian0_form (hb : IsBasis fe b N D) (hn : 0 < n) (hc : 0 < c) (scale : R) :
    AddsForm (n * c) (n * c) (fun m => laplacian0 m fe scale b) (fun v u => scale * fe.detJxW * ∑ k : Fin c, ∑ l : Fin d, der D (nodal v) k l * der D (nodal u) k l) := by
  have hbil : ∀ (v u : Fin n → R), bil ((scale * fe.detJxW) • (D * D.transpose)) v u = scale * fe.detJxW * ∑ l : Fin d, (∑ i, D i l * v i) * ∑ i, D i l * u i := by
    intro v u
    rw [bil_smul, bil_mul]
    rfl
  have hD1 : RepOp (fe.grad b) false D := hb.grads
  have hD2 : RepOp (fe.grad b) true D.transpose := by
    show Rep _ D.transpose.transpose
    rw [Matrix.transpose_transpose]; exact hb.grads
  obtain ⟨A, hA1, hA2⟩ := C60_multiply (C := empty) hD1 hD2 empty_wf (scale * fe.detJxW)
  have key := components (n := n) (p := n) (c := c)
    (f := fun m => if c > 1 then addDiagonal m A c else m.multiply (fe.grad b) (fe.grad b) false true true (scale * fe.detJxW))
    (T := fun v u => scale * fe.detJxW * ∑ l : Fin d, (∑ i, D i l * v i) * ∑ i, D i l * u i) hc
    (fun h => ⟨hA2, hbil, fun m => if_pos h⟩)
    (fun h m E hm => by
      obtain ⟨m', h1, h2⟩ := C60_multiply_add hD1 hD2 hm (scale * fe.detJxW)
      refine ⟨m', _, (if_neg (by omega)).trans h1, h2, fun v u => ?_⟩
      rw [bil_add, hbil])
  refine AddsForm.congr (AddsForm.of_eq key fun m E hm => ?_) (fun v u => ?_)
  · show laplacian0 m fe scale b = _
    unfold laplacian0
    rw [ncmp_eq hb hn hm, hA1]
    rfl
  · dsimp only
    rw [Finset.mul_sum]
    exact Finset.sum_congr rfl fun k _ => by unfold der; rfl

/-- `Laplacian` adds `∇v:∇u`, with the stress terms `∇v:(∇u+∇uᵀ)`. -/
theorem C72_laplacian (hb : IsBasis fe b N D) (hn : 0 < n) (hc : 0 < c) (scale : R) :
    AddsForm (n * c) (n * c) (fun m => laplacian m fe scale false b)
      (fun v u => scale * fe.detJxW * ∑ k : Fin c, ∑ l : Fin d, der D (nodal v) k l * der D (nodal u) k l) ∧
    ∀ hd : c = d, AddsForm (n * c) (n * c) (fun m => laplacian m fe scale true b)
      (fun v u => scale * fe.detJxW * ∑ k : Fin c, ∑ l : Fin c, der D (nodal v) k (Fin.cast hd l) *
        (der D (nodal u) k (Fin.cast hd l) + der D (nodal u) l (Fin.cast hd k))) := by
  constructor
  · refine AddsForm.of_eq (laplacian0_form hb hn hc scale) fun m E hm => ?_
    show (laplacian0 m fe scale b).bind _ = _
    simp
  · intro hd
    subst hd
    refine AddsForm.congr (AddsForm.of_eq (AddsForm.comp (laplacian0_form hb hn hc scale) (C72_stress hb hn (le_refl _) scale)) fun m E hm => ?_) (fun v u => ?_)
    · show (laplacian0 m fe scale b).bind _ = _
      simp
    · rw [← mul_add, ← Finset.sum_add_distrib]
      congr 1
      refine Finset.sum_congr rfl fun k _ => ?_
      rw [← Finset.sum_add_distrib]
      exact Finset.sum_congr rfl fun l _ => (mul_add _ _ _).symm

/-- `LaplacianCoeff` adds `∇v·K∇u`, with a matrix or with its diagonal. -/
theorem C72_laplacian_coeff (hb : IsBasis fe b N D) (scale : R) :
    (∀ (K : Mat R) (K' : Matrix (Fin d) (Fin d) R), Rep K K' → AddsForm n n (fun m => laplacianCoeff m K fe scale b)
      (fun v u => scale * fe.detJxW * ∑ k : Fin d, ∑ l : Fin d, (∑ i, D i k * v i) * K' k l * ∑ i, D i l * u i)) ∧
    ∀ K : Nat → R, AddsForm n n (fun m => laplacianDiag m K fe scale b)
      (fun v u => scale * fe.detJxW * ∑ k : Fin d, K k * (∑ i, D i k * v i) * ∑ i, D i k * u i) := by
  have hD1 : RepOp (fe.grad b) false D := hb.grads
  have hD2 : RepOp (fe.grad b) true D.transpose := by
    show Rep _ D.transpose.transpose
    rw [Matrix.transpose_transpose]; exact hb.grads
  constructor
  · intro K K' hK m E hm
    obtain ⟨KB, h1, h2⟩ := C60_multiply (C := empty) (tA := false) (A := K) (A' := K') hK hD2 empty_wf 1
    have h3 : RepOp (KB.scalar (scale * fe.detJxW)) false ((scale * fe.detJxW) • ((1 : R) • (K' * D.transpose))) := (C60_add h2 h2 _).2
    obtain ⟨m', h4, h5⟩ := C60_multiply_add hD1 h3 hm 1
    refine ⟨m', _, ?_, h5, fun v u => ?_⟩
    · show (laplacianCoeff m K fe scale b) = _
      unfold laplacianCoeff
      rw [h1]; exact h4
    · rw [bil_add, one_smul, one_smul, bil_mul]
      congr 1
      dsimp only
      rw [Finset.mul_sum]
      refine Finset.sum_congr rfl fun k _ => ?_
      simp only [Matrix.smul_apply, Matrix.mul_apply, Matrix.transpose_apply, smul_eq_mul]
      have : (∑ j : Fin n, (scale * fe.detJxW * ∑ l : Fin d, K' k l * D j l) * u j) = scale * fe.detJxW * ∑ l : Fin d, K' k l * ∑ j : Fin n, D j l * u j := by
        simp only [Finset.mul_sum, Finset.sum_mul]
        rw [Finset.sum_comm]
        exact Finset.sum_congr rfl fun l _ => Finset.sum_congr rfl fun j _ => by ring
      rw [this, mul_left_comm, Finset.mul_sum]
      congr 1
      exact Finset.sum_congr rfl fun l _ => by ring
  · intro K m E hm
    obtain ⟨BK, h1, h2⟩ := C60_scale hb.grads (fun k : Fin d => K k * scale * fe.detJxW)
    have h2' : RepOp BK false (D * Matrix.diagonal fun k : Fin d => K k * scale * fe.detJxW) := h2
    obtain ⟨m', h4, h5⟩ := C60_multiply_add h2' hD2 hm 1
    refine ⟨m', _, ?_, h5, fun v u => ?_⟩
    · show (laplacianDiag m K fe scale b) = _
      unfold laplacianDiag
      rw [hb.grads.cols, show ((List.range d).map fun k => K k * scale * fe.detJxW) = List.ofFn fun k : Fin d => K k * scale * fe.detJxW by
        rw [List.ofFn_eq_map, ← List.map_coe_finRange_eq_range, List.map_map]; rfl, h1]
      exact h4
    · rw [bil_add, one_smul, bil_mul]
      congr 1
      dsimp only
      rw [Finset.mul_sum]
      refine Finset.sum_congr rfl fun k _ => ?_
      simp only [Matrix.mul_diagonal, Matrix.transpose_apply]
      have : (∑ i : Fin n, D i k * (K k * scale * fe.detJxW) * v i) = scale * fe.detJxW * (K k * ∑ i, D i k * v i) := by
        rw [Finset.mul_sum, Finset.mul_sum]
        exact Finset.sum_congr rfl fun i _ => by ring
      rw [this]
      ring

/-- `ItgConstraint` adds the scalar product of a field and a constant vector (one multiplier per
component). -/
theorem C72_constraint (hb : IsBasis fe b N D) (hn : 0 < n) (scale : R) :
    AddsForm (n * c) (1 * c) (fun m => itgConstraint m fe scale b) (fun v q => scale * fe.detJxW * ∑ k : Fin c, fval N (nodal v) k * nodal q 0 k) := by
  have hA : Rep ((⟨(fe.basis b).length, 1, fe.basis b⟩ : Mat R).scalar (scale * fe.detJxW)) (Matrix.of fun (i : Fin n) (_ : Fin 1) => N i * (scale * fe.detJxW)) := by
    rw [hb.values]
    refine ⟨by simp [Mat.scalar], rfl, by simp [Mat.scalar], fun i j => ?_⟩
    simp [Mat.scalar, List.getElem?_ofFn]
  refine AddsForm.congr (AddsForm.of_eq (addDiagonal_spec (c := c) hA) fun m E hm => ?_) (fun v q => ?_)
  · show itgConstraint m fe scale b = _
    unfold itgConstraint
    rw [ncmp_eq hb hn hm]
  · rw [Finset.mul_sum]
    refine Finset.sum_congr rfl fun k _ => ?_
    unfold bil fval
    simp only [Fin.sum_univ_one, Matrix.of_apply]
    rw [Finset.sum_mul, Finset.mul_sum]
    exact Finset.sum_congr rfl fun i _ => by ring

/-- `Divergence` adds the product of a scalar test function and the divergence of the field. -/
theorem C72_divergence {n2 : Nat} {N2 : Fin n2 → R} {D2 : Matrix (Fin n2) (Fin d) R} (hb : IsBasis fe b N D) (ht : IsBasis fe tb N2 D2) (scale : R) :
    AddsForm n (n2 * d) (fun m => divergence m fe scale b tb) (fun q u => scale * fe.detJxW * ((∑ i, N i * q i) * ∑ k : Fin d, der D2 (nodal u) k k)) := by
  have key : AddsForm n (n2 * d) (fun m => divergence m fe scale b tb) (fun q u => ((triples n2 n d).map fun x : Nat × Nat × Nat =>
      if h : x.2.1 < n ∧ x.1 * d + x.2.2 < n2 * d then q ⟨x.2.1, h.1⟩ *
        (if h' : x.1 < n2 ∧ x.2.1 < n ∧ x.2.2 < d then scale * (N ⟨x.2.1, h'.2.1⟩ * D2 ⟨x.1, h'.1⟩ ⟨x.2.2, h'.2.2⟩ * fe.detJxW) else 0) *
        u ⟨x.1 * d + x.2.2, h.2⟩ else 0).sum) := by
    unfold divergence divGrad
    rw [ht.values, hb.values, hb.grads.cols, List.length_ofFn, List.length_ofFn]
    refine addEntries (triples n2 n d) _ (fun x => x.2.1) (fun x => x.1 * d + x.2.2) _ (fun x hx => ((mem_triples _ _ _ _).1 hx).2.1) (fun x hx => ?_) (fun m' _ _ x hx => ?_)
    · obtain ⟨h1, h2, h3⟩ := (mem_triples _ _ _ _).1 hx
      have := comp_lt (c := d) h1 h3
      rw [Nat.mul_comm x.1]; exact this
    · obtain ⟨h1, h2, h3⟩ := (mem_triples _ _ _ _).1 hx
      rw [List.getElem?_ofFn, dif_pos h2, rep_get1 ht.grads ⟨x.1, h1⟩ ⟨x.2.2, h3⟩]
      simp only [Option.bind_eq_bind, Option.bind_some]
      rw [if_neg (by decide), dif_pos ⟨h1, h2, h3⟩]
      push_cast
      rfl
  refine AddsForm.congr key (fun q u => ?_)
  rw [sum_triples]
  have h1 : ∀ (j : Fin n2) (i : Fin n) (k : Fin d), (if h : i.1 < n ∧ j.1 * d + k.1 < n2 * d then q ⟨i.1, h.1⟩ *
        (if h' : j.1 < n2 ∧ i.1 < n ∧ k.1 < d then scale * (N ⟨i.1, h'.2.1⟩ * D2 ⟨j.1, h'.1⟩ ⟨k.1, h'.2.2⟩ * fe.detJxW) else 0) *
        u ⟨j.1 * d + k.1, h.2⟩ else 0) = scale * fe.detJxW * ((N i * q i) * (D2 j k * nodal u j k)) := by
    intro j i k
    have hlt : j.1 * d + k.1 < n2 * d := by rw [Nat.mul_comm j.1]; exact comp_lt j.2 k.2
    rw [dif_pos ⟨i.2, hlt⟩, dif_pos ⟨j.2, i.2, k.2⟩, nodal_mk u j k _ _ (by rw [Nat.mul_comm d])]
    ring
  simp only [h1]
  unfold der
  rw [Finset.sum_comm, Finset.sum_mul, Finset.mul_sum]
  refine Finset.sum_congr rfl fun i _ => ?_
  rw [Finset.mul_sum, Finset.mul_sum, Finset.sum_comm]
  refine Finset.sum_congr rfl fun k _ => ?_
  rw [Finset.mul_sum, Finset.mul_sum]

/-- `Gradient` adds the opposite of the transpose of `Divergence`: minus the divergence of the
test field times a scalar trial function. -/
theorem C72_gradient {n2 : Nat} {N2 : Fin n2 → R} {D2 : Matrix (Fin n2) (Fin d) R} (hb : IsBasis fe b N D) (ht : IsBasis fe tb N2 D2) (scale : R) :
    AddsForm (n2 * d) n (fun m => gradient m fe scale b tb) (fun v q => -(scale * fe.detJxW * ((∑ k : Fin d, der D2 (nodal v) k k) * ∑ i, N i * q i))) := by
  have key : AddsForm (n2 * d) n (fun m => gradient m fe scale b tb) (fun v q => ((triples n2 n d).map fun x : Nat × Nat × Nat =>
      if h : x.1 * d + x.2.2 < n2 * d ∧ x.2.1 < n then v ⟨x.1 * d + x.2.2, h.1⟩ *
        (if h' : x.1 < n2 ∧ x.2.1 < n ∧ x.2.2 < d then -(scale * (N ⟨x.2.1, h'.2.1⟩ * D2 ⟨x.1, h'.1⟩ ⟨x.2.2, h'.2.2⟩ * fe.detJxW)) else 0) *
        q ⟨x.2.1, h.2⟩ else 0).sum) := by
    unfold gradient divGrad
    rw [ht.values, hb.values, hb.grads.cols, List.length_ofFn, List.length_ofFn]
    refine addEntries (triples n2 n d) _ (fun x => x.1 * d + x.2.2) (fun x => x.2.1) _ (fun x hx => ?_) (fun x hx => ((mem_triples _ _ _ _).1 hx).2.1) (fun m' _ _ x hx => ?_)
    · obtain ⟨h1, h2, h3⟩ := (mem_triples _ _ _ _).1 hx
      have := comp_lt (c := d) h1 h3
      rw [Nat.mul_comm x.1]; exact this
    · obtain ⟨h1, h2, h3⟩ := (mem_triples _ _ _ _).1 hx
      rw [List.getElem?_ofFn, dif_pos h2, rep_get1 ht.grads ⟨x.1, h1⟩ ⟨x.2.2, h3⟩]
      simp only [Option.bind_eq_bind, Option.bind_some]
      rw [if_pos trivial, dif_pos ⟨h1, h2, h3⟩]
      push_cast
      rfl
  refine AddsForm.congr key (fun v q => ?_)
  rw [sum_triples]
  have h1 : ∀ (j : Fin n2) (i : Fin n) (k : Fin d), (if h : j.1 * d + k.1 < n2 * d ∧ i.1 < n then v ⟨j.1 * d + k.1, h.1⟩ *
        (if h' : j.1 < n2 ∧ i.1 < n ∧ k.1 < d then -(scale * (N ⟨i.1, h'.2.1⟩ * D2 ⟨j.1, h'.1⟩ ⟨k.1, h'.2.2⟩ * fe.detJxW)) else 0) *
        q ⟨i.1, h.2⟩ else 0) = -(scale * fe.detJxW) * ((N i * q i) * (D2 j k * nodal v j k)) := by
    intro j i k
    have hlt : j.1 * d + k.1 < n2 * d := by rw [Nat.mul_comm j.1]; exact comp_lt j.2 k.2
    rw [dif_pos ⟨hlt, i.2⟩, dif_pos ⟨j.2, i.2, k.2⟩, nodal_mk v j k _ _ (by rw [Nat.mul_comm d])]
    ring
  simp only [h1]
  unfold der
  rw [show ∀ a b : R, -(scale * fe.detJxW * (a * b)) = -(scale * fe.detJxW) * (b * a) from fun a b => by ring, Finset.sum_comm, Finset.sum_mul, Finset.mul_sum]
  refine Finset.sum_congr rfl fun i _ => ?_
  rw [Finset.mul_sum, Finset.mul_sum, Finset.sum_comm]
  refine Finset.sum_congr rfl fun k _ => ?_
  rw [Finset.mul_sum, Finset.mul_sum]

end IFEM.Props
