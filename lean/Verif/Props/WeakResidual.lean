import Verif.Props.WeakConvect
import Mathlib.Tactic.LinearCombination
/-!
# C72: element vectors, and residuals against matrices
-/
namespace IFEM.Props
open IFEM IFEM.Spec IFEM.Spec.Weak IFEM.Lem IFEM.Mat IFEM.Weak

variable {R : Type} [Field R] {n c d p : Nat} {fe : FE R} {b tb : Nat} {N : Fin n → R} {D : Matrix (Fin n) (Fin d) R}

theorem range_ofFn (m : Nat) (f : Nat → R) : (List.range m).map f = List.ofFn fun k : Fin m => f k := by
  rw [List.ofFn_eq_map, ← List.map_coe_finRange_eq_range, List.map_map]; rfl

/-- A loop over the components that adds a multiple of a vector for each. -/
theorem comp_loop (hn : 0 < n) (X : Nat → List R) (α : Nat → R) (X' : Fin c → Fin n → R) (hX : ∀ k : Fin c, X k = List.ofFn (X' k)) :
    AddsVec (n * c) (fun e => some ((List.range c).foldl (fun (E : List R) (k : Nat) => addStr E (X k) (α k) k c) e))
      (fun v => ∑ k : Fin c, α k * ∑ i, X' k i * nodal v i k) := by
  have key : AddsVec (n * c) (fun e => (List.range c).foldlM (fun (E : List R) (k : Nat) => some (addStr E (X k) (α k) k c)) e)
      (fun v => ∑ k : Fin c, α k * ∑ i, X' k i * nodal v i k) := by
    refine AddsVec.congr (AddsVec.fold (List.range c) _ (fun k v => if h : k < c then α k * ∑ i, X' ⟨k, h⟩ i * nodal v i ⟨k, h⟩ else 0) (fun k hk => ?_)) (fun v => ?_)
    · have hk := List.mem_range.1 hk
      refine AddsVec.congr (AddsVec.of_eq (addStr_spec hn (X' ⟨k, hk⟩) (α k) ⟨k, hk⟩) fun e => ?_) (fun v => ?_)
      · show some (addStr _ (X k) _ _ _) = _
        rw [show X k = _ from hX ⟨k, hk⟩]
      · rw [dif_pos hk]
    · rw [sum_range_fin]
      exact Finset.sum_congr rfl fun k _ => by rw [dif_pos k.2]
  refine AddsVec.of_eq key fun e => ?_
  rw [foldlM_some']

theorem addStr_one (hn : 0 < n) (X : Fin n → R) (α : R) : AddsVec n (fun E => some (addStr E (List.ofFn X) α 0 1)) (fun v => α * ∑ i, X i * v i) := by
  have := cast_vec (Nat.mul_one n).symm (addStr_spec (c := 1) hn X α 0)
  refine AddsVec.congr this (fun v => ?_)
  congr 1
  refine Finset.sum_congr rfl fun i _ => ?_
  congr 1
  show v (Fin.cast _ (finProdFinEquiv (i, (0 : Fin 1)))) = v i
  congr 1
  apply Fin.ext
  show 0 + 1 * i.1 = i.1
  omega

/-- `Source` adds the test field times a constant, for one component or for all of them; with a
vector it adds the scalar product. -/
theorem C72_source (hb : IsBasis fe b N D) (hn : 0 < n) (scale : R) :
    (∀ k : Fin c, AddsVec (n * c) (fun e => some (source e fe scale (k+1) b)) (fun v => scale * fe.detJxW * fval N (nodal v) k)) ∧
    AddsVec (n * c) (fun e => some (source e fe scale 0 b)) (fun v => scale * fe.detJxW * ∑ k : Fin c, fval N (nodal v) k) ∧
    ∀ f : Nat → R, AddsVec (n * c) (fun e => some (vectorSource e fe f scale b)) (fun v => scale * fe.detJxW * ∑ k : Fin c, f k * fval N (nodal v) k) := by
  refine ⟨fun k => ?_, ?_, fun f => ?_⟩
  · refine AddsVec.of_eq (addStr_spec hn N (scale * fe.detJxW) k) fun e => ?_
    congr 1
    unfold source
    rw [vcmp_eq hb hn e, hb.values]
    by_cases h : k.1 + 1 = 1 ∧ c = 1
    · rw [if_pos h]
      have h1 : k.1 = 0 := by omega
      have h2 := h.2
      simp only [h1]
      congr 1
      exact h2.symm
    · rw [if_neg h, if_pos (by omega)]
      rfl
  · refine AddsVec.congr (AddsVec.of_eq (comp_loop hn (fun _ => List.ofFn N) (fun _ => scale * fe.detJxW) (fun _ => N) fun k => rfl) fun e => ?_) (fun v => ?_)
    · congr 1
      unfold source
      rw [vcmp_eq hb hn e, hb.values, if_neg (by omega), if_neg (by omega)]
    · rw [Finset.mul_sum]; rfl
  · refine AddsVec.congr (AddsVec.of_eq (comp_loop hn (fun _ => List.ofFn N) (fun k => scale * f k * fe.detJxW) (fun _ => N) fun k => rfl) fun e => ?_) (fun v => ?_)
    · congr 1
      unfold vectorSource
      rw [vcmp_eq hb hn e, hb.values]
    · rw [Finset.mul_sum]
      exact Finset.sum_congr rfl fun k _ => by unfold fval; ring

/-- `Residual::Divergence` subtracts the scalar test function times the divergence of the field. -/
theorem C72_residual_divergence (hb : IsBasis fe b N D) (hn : 0 < n) (dU : Nat → Nat → R) (scale : R) :
    AddsVec n (fun e => some (resDivergence e fe dU d scale b)) (fun q => -(scale * fe.detJxW * ((∑ i, N i * q i) * ∑ k : Fin d, dU (k+1) (k+1)))) := by
  refine AddsVec.congr (AddsVec.of_eq (addStr_one hn N (-(scale * ((List.range d).map fun k => dU (k+1) (k+1)).sum * fe.detJxW))) fun e => ?_) (fun v => ?_)
  · show some (addStr _ (fe.basis b) _ 0 1) = _
    rw [hb.values]
  · rw [sum_range_fin]
    ring

/-- `Residual::Gradient` adds the divergence of the test field. -/
theorem C72_residual_gradient (hb : IsBasis fe b N D) (hn : 0 < n) (scale : R) :
    AddsVec (n * d) (fun e => resGradient e fe scale b) (fun v => scale * fe.detJxW * ∑ k : Fin d, der D (nodal v) k k) := by
  have key := AddsVec.fold (r := n * d) (List.range d) (fun (E : List R) (k : Nat) => do
      let Dk ← (fe.grad b).getColumn (k+1)
      some (addStr E Dk (scale * fe.detJxW) k d))
    (fun k v => if h : k < d then scale * fe.detJxW * der D (nodal v) ⟨k, h⟩ ⟨k, h⟩ else 0) (fun k hk => ?_)
  refine AddsVec.congr (AddsVec.of_eq (g := fun e => resGradient e fe scale b) key fun e => ?_) (fun v => ?_)
  rotate_left 2
  · have hk := List.mem_range.1 hk
    refine AddsVec.congr (AddsVec.of_eq (addStr_spec hn (fun i => D i ⟨k, hk⟩) (scale * fe.detJxW) ⟨k, hk⟩) fun e => ?_) (fun v => ?_)
    · show ((fe.grad b).getColumn (k+1)).bind _ = _
      rw [getCol hb ⟨k, hk⟩]; rfl
    · rw [dif_pos hk]; rfl
  · show resGradient _ fe scale b = _
    unfold resGradient
    rw [hb.grads.cols]
  · rw [sum_range_fin, Finset.mul_sum]
    exact Finset.sum_congr rfl fun k _ => by rw [dif_pos k.2]

theorem lapDiff_eq (hb : IsBasis fe b N D) (hn : 0 < n) (hd : 0 < d) (g h : Fin d → R) (str : Bool) :
    lapDiff (fe.grad b) (List.ofFn g) (List.ofFn h) str = some (List.ofFn fun i => ∑ l, D i l * (g l + if str then h l else 0)) := by
  have hD : RepOp (fe.grad b) false D := hb.grads
  obtain ⟨h1, _⟩ := C60_mulVec hD hn hd g
  obtain ⟨_, h2⟩ := C60_mulVec hD hn hd h
  unfold lapDiff
  rw [h1]
  simp only [Option.bind_eq_bind, Option.bind_some]
  cases str with
  | false =>
    rw [if_neg (by decide)]
    congr 1
    simp only [Bool.false_eq_true, if_false, add_zero]
    rfl
  | true =>
    rw [if_pos rfl, h2 _ 1 (by decide)]
    simp only [Option.map_some, if_true]
    congr 2
    funext i
    rw [if_pos (by decide)]
    unfold Matrix.mulVec dotProduct
    rw [← Finset.sum_add_distrib]
    exact Finset.sum_congr rfl fun l _ => by ring

/-- `Residual::Laplacian` subtracts `∇v:∇U`, with the stress terms `∇v:(∇U+∇Uᵀ)`. -/
theorem C72_residual_laplacian (hb : IsBasis fe b N D) (h1 : (fe.grad 1).ncol = d) (hn : 0 < n) (hd : 0 < d) (dU : Nat → Nat → R) (scale : R) (str : Bool) :
    AddsVec (n * d) (fun e => resLaplacian e fe dU scale str b) (fun v => -(scale * fe.detJxW *
      ∑ k : Fin d, ∑ l : Fin d, der D (nodal v) k l * (dU (k+1) (l+1) + if str then dU (l+1) (k+1) else 0))) := by
  have hdiff : ∀ k, lapDiff (fe.grad b) ((List.range d).map fun l => dU (k+1) (l+1)) ((List.range d).map fun l => dU (l+1) (k+1)) str =
      some (List.ofFn fun i => ∑ l : Fin d, D i l * (dU (k+1) (l+1) + if str then dU (l+1) (k+1) else 0)) := by
    intro k
    rw [range_ofFn, range_ofFn, lapDiff_eq hb hn hd]
  have key := comp_loop (c := d) hn (fun k => List.ofFn fun i : Fin n => ∑ l : Fin d, D i l * (dU (k+1) (l+1) + if str then dU (l+1) (k+1) else 0))
    (fun _ => -(scale * fe.detJxW)) (fun k i => ∑ l : Fin d, D i l * (dU (k+1) (l+1) + if str then dU (l+1) (k+1) else 0)) (fun k => rfl)
  refine AddsVec.congr (AddsVec.of_eq key fun e => ?_) (fun v => ?_)
  · show resLaplacian _ fe dU scale str b = _
    unfold resLaplacian
    rw [h1, ← foldlM_some']
    simp only [hdiff]
    rfl
  · rw [show ∀ a : R, -(scale * fe.detJxW * a) = -(scale * fe.detJxW) * a from fun a => by ring, Finset.mul_sum]
    refine Finset.sum_congr rfl fun k _ => ?_
    congr 1
    unfold der
    simp only [Finset.sum_mul]
    rw [Finset.sum_comm (γ := Fin n)]
    exact Finset.sum_congr rfl fun l _ => Finset.sum_congr rfl fun i _ => by ring

/-- The scalar Laplace residual and the divergence of a given vector: `∇v·d` is added with the
factor. -/
theorem C72_grad_vector [DecidableEq R] (hb : IsBasis fe b N D) (hn : 0 < n) (hd : 0 < d) (g : Nat → R) (factor : R) :
    AddsVec n (fun e => gradVector e fe g factor b) (fun v => factor * fe.detJxW * ∑ k : Fin d, g k * ∑ i, D i k * v i) := by
  intro e
  have hD : RepOp (fe.grad b) false D := hb.grads
  have h := (C60_gemv hD hn hd (fun k : Fin d => g k) (factor * fe.detJxW)).2 e 1
  refine ⟨(factor * fe.detJxW) • D.mulVec (fun k : Fin d => g k) + (1 : R) • e, ?_, fun v => ?_⟩
  · show gradVector _ fe g factor b = _
    unfold gradVector
    rw [hb.grads.cols, range_ofFn, h]; rfl
  · rw [lin_add, one_smul, add_comm]
    congr 1
    unfold lin
    dsimp only
    simp only [Pi.smul_apply, smul_eq_mul, Matrix.mulVec, dotProduct, Finset.mul_sum]
    rw [Finset.sum_comm]
    exact Finset.sum_congr rfl fun l _ => Finset.sum_congr rfl fun i _ => by ring

/-- `Residual::Advection` takes the transposed gradient: `∑ g_lk a_l` is tested with the
component `k`. -/
theorem C72_residual_advection (hb : IsBasis fe b N D) (hn : 0 < n) (AC : Nat → R) (g : Nat → Nat → R) (scale : R) :
    AddsVec (n * d) (fun e => some (resAdvection e fe AC g scale b)) (fun v => scale * fe.detJxW *
      ∑ k : Fin d, (∑ l : Fin d, g (l+1) (k+1) * AC l) * fval N (nodal v) k) := by
  have key := comp_loop (c := d) hn (fun _ => List.ofFn N)
    (fun k => ((List.range d).map fun l => g (l+1) (k+1) * AC l).sum * scale * fe.detJxW) (fun _ => N) (fun k => rfl)
  refine AddsVec.congr (AddsVec.of_eq key fun e => ?_) (fun v => ?_)
  · congr 1
    unfold resAdvection
    rw [hb.grads.cols, hb.values]
  · rw [Finset.mul_sum]
    refine Finset.sum_congr rfl fun k _ => ?_
    rw [sum_range_fin]
    unfold fval
    ring

/-! ## Residuals and matrices -/

theorem adds_result {r s : Nat} {f : Mat R → Option (Mat R)} {T : (Fin r → R) → (Fin s → R) → R} (h : AddsForm r s f T) {m m' : Mat R}
    {E E' : Matrix (Fin r) (Fin s) R} (hm : Rep m E) (hf : f m = some m') (hm' : Rep m' E') (v : Fin r → R) (u : Fin s → R) : bil E' v u = bil E v u + T v u := by
  obtain ⟨m2, E2, a, b', hh⟩ := h m E hm
  have : m' = m2 := Option.some.inj (hf.symm.trans a)
  subst this
  rw [rep_unique hm' b', hh]

theorem addsVec_result {r : Nat} {f : List R → Option (List R)} {T : (Fin r → R) → R} (h : AddsVec r f T) {e e' : Fin r → R}
    (hf : f (List.ofFn e) = some (List.ofFn e')) (v : Fin r → R) : lin e' v = lin e v + T v := by
  obtain ⟨e2, a, hh⟩ := h e
  have : e' = e2 := List.ofFn_injective (Option.some.inj (hf.symm.trans a))
  rw [this, hh]

/-- `Convection` is the exact tangent of `Residual::Convection`, for each of the three forms: for
a field with the nodal values `x` and an increment `δ`, the residual at `x + δ` is the residual
at `x`, minus the matrix at `x` applied to the increment, plus the residual of the increment
alone. -/
theorem C72_tangent {D : Matrix (Fin n) (Fin d) R} (hb : IsBasis fe b N D) (hn : 0 < n) (scale : R) (form : Form) (x δ : Fin (n * d) → R)
    {U V W : Nat → R} {dU dV dW : Nat → Nat → R} (hU : ∀ k : Fin d, U k = fval N (nodal x) k) (hdU : ∀ k l : Fin d, dU (k+1) (l+1) = der D (nodal x) k l)
    (hV : ∀ k : Fin d, V k = fval N (nodal δ) k) (hdV : ∀ k l : Fin d, dV (k+1) (l+1) = der D (nodal δ) k l)
    (hW : ∀ k : Fin d, W k = fval N (nodal (x + δ)) k) (hdW : ∀ k l : Fin d, dW (k+1) (l+1) = der D (nodal (x + δ)) k l)
    {m m' : Mat R} {E E' : Matrix (Fin (n * d)) (Fin (n * d)) R} (hm : Rep m E) (hm' : Rep m' E') (hC : convection m fe U dU scale form b = some m')
    {e eU eV eW : Fin (n * d) → R} (h1 : resConvection (List.ofFn e) fe U dU U scale form b = some (List.ofFn eU))
    (h2 : resConvection (List.ofFn e) fe V dV V scale form b = some (List.ofFn eV))
    (h3 : resConvection (List.ofFn e) fe W dW W scale form b = some (List.ofFn eW)) (v : Fin (n * d) → R) :
    lin eW v - lin e v = (lin eU v - lin e v) - (bil E' v δ - bil E v δ) + (lin eV v - lin e v) := by
  have a1 := addsVec_result (C72_residual_convection hb hn U dU U scale form) h1 v
  have a2 := addsVec_result (C72_residual_convection hb hn V dV V scale form) h2 v
  have a3 := addsVec_result (C72_residual_convection hb hn W dW W scale form) h3 v
  have a4 := adds_result (C72_convection hb hn U dU scale form) hm hC hm' v δ
  rw [a1, a2, a3, a4]
  have fv : ∀ k : Fin d, fval N (nodal (x + δ)) k = fval N (nodal x) k + fval N (nodal δ) k := by
    intro k
    unfold fval nodal
    rw [← Finset.sum_add_distrib]
    exact Finset.sum_congr rfl fun i _ => by rw [Pi.add_apply]; ring
  have fd : ∀ k l : Fin d, der D (nodal (x + δ)) k l = der D (nodal x) k l + der D (nodal δ) k l := by
    intro k l
    unfold der nodal
    rw [← Finset.sum_add_distrib]
    exact Finset.sum_congr rfl fun i _ => by rw [Pi.add_apply]; ring
  have t : transport form (fun l : Fin d => W l) (fun k : Fin d => W k) (fun k l => dW (k+1) (l+1)) (fval N (nodal v : Fin n → Fin d → R)) (der D (nodal v)) =
      transport form (fun l : Fin d => U l) (fun k : Fin d => U k) (fun k l => dU (k+1) (l+1)) (fval N (nodal v : Fin n → Fin d → R)) (der D (nodal v)) +
      (transport form (fun l : Fin d => U l) (fval N (nodal δ : Fin n → Fin d → R)) (der D (nodal δ)) (fval N (nodal v)) (der D (nodal v)) +
       transport form (fval N (nodal δ : Fin n → Fin d → R)) (fun k : Fin d => U k) (fun k l => dU (k+1) (l+1)) (fval N (nodal v)) (der D (nodal v))) +
      transport form (fun l : Fin d => V l) (fun k : Fin d => V k) (fun k l => dV (k+1) (l+1)) (fval N (nodal v : Fin n → Fin d → R)) (der D (nodal v)) := by
    simp only [hU, hdU, hV, hdV, hW, hdW, fv, fd]
    cases form with
    | convective =>
      unfold transport
      simp only [← Finset.sum_add_distrib]
      exact Finset.sum_congr rfl fun k _ => Finset.sum_congr rfl fun l _ => by ring
    | conservative =>
      unfold transport
      simp only [← Finset.sum_neg_distrib, ← Finset.sum_add_distrib]
      exact Finset.sum_congr rfl fun k _ => Finset.sum_congr rfl fun l _ => by ring
    | skew =>
      unfold transport
      simp only [← Finset.sum_sub_distrib, div_eq_mul_inv, Finset.sum_mul, ← Finset.sum_add_distrib]
      exact Finset.sum_congr rfl fun k _ => Finset.sum_congr rfl fun l _ => by ring
  rw [t]
  ring

/-- The Laplace residual is the opposite of the Laplace matrix applied to the field. -/
theorem C72_residual_matches {D : Matrix (Fin n) (Fin d) R} (hb : IsBasis fe b N D) (hcol : (fe.grad 1).ncol = d) (hn : 0 < n) (hd : 0 < d) (scale : R) (str : Bool)
    (x : Fin (n * d) → R) {dU : Nat → Nat → R} (hdU : ∀ k l : Fin d, dU (k+1) (l+1) = der D (nodal x) k l)
    {m m' : Mat R} {E E' : Matrix (Fin (n * d)) (Fin (n * d)) R} (hm : Rep m E) (hm' : Rep m' E') (hL : laplacian m fe scale str b = some m')
    {e e' : Fin (n * d) → R} (h : resLaplacian (List.ofFn e) fe dU scale str b = some (List.ofFn e')) (v : Fin (n * d) → R) :
    lin e' v - lin e v = -(bil E' v x - bil E v x) := by
  have a1 := addsVec_result (C72_residual_laplacian hb hcol hn hd dU scale str) h v
  rw [a1]
  simp only [hdU]
  cases str with
  | false =>
    have a2 := adds_result (C72_laplacian hb hn hd scale).1 hm hL hm' v x
    rw [a2]
    simp
  | true =>
    have a2 := adds_result ((C72_laplacian hb hn hd scale).2 rfl) hm hL hm' v x
    rw [a2]
    simp

end IFEM.Props
