import Verif.Props.WeakOps
/-!
# C72: advection and convection
-/
namespace IFEM.Props
open IFEM IFEM.Spec IFEM.Spec.Weak IFEM.Lem IFEM.Mat IFEM.Weak

variable {R : Type} [Field R] {n c d p : Nat} {fe : FE R} {b tb : Nat} {N : Fin n → R} {D : Matrix (Fin n) (Fin d) R}

/-- The form of one direction of the advection. -/
def dirForm (form : Form) (a : R) (v x u y : R) : R :=
  match form with
  | .convective => a * v * y
  | .conservative => -a * x * u
  | .skew => a / 2 * v * y - a / 2 * x * u

theorem dir_add (form : Form) (X : Fin n → R) (a : R) :
    AddsForm n n (fun m => advectionDir m (List.ofFn N) (List.ofFn X) true a form)
      (fun v u => dirForm form a (∑ i, N i * v i) (∑ i, X i * v i) (∑ i, N i * u i) (∑ i, X i * u i)) := by
  cases form with
  | convective => exact outerTo_add N X a
  | conservative => exact outerTo_add X N (-a)
  | skew =>
    refine AddsForm.congr (AddsForm.of_eq (AddsForm.comp (outerTo_add N X (a/2)) (outerTo_add X N (-(a/2)))) fun m E hm => rfl) (fun v u => ?_)
    unfold dirForm
    ring

theorem dir_new (form : Form) (X : Fin n → R) (a : R) :
    ∃ m' E', advectionDir (empty : Mat R) (List.ofFn N) (List.ofFn X) false a form = some m' ∧ Rep m' E' ∧
      ∀ v u : Fin n → R, bil E' v u = dirForm form a (∑ i, N i * v i) (∑ i, X i * v i) (∑ i, N i * u i) (∑ i, X i * u i) := by
  cases form with
  | convective =>
    obtain ⟨m', h1, h2⟩ := outerTo_new (empty : Mat R) empty_wf N X a
    exact ⟨m', _, h1, h2, fun v u => bil_outer _ _ _ _ _⟩
  | conservative =>
    obtain ⟨m', h1, h2⟩ := outerTo_new (empty : Mat R) empty_wf X N (-a)
    exact ⟨m', _, h1, h2, fun v u => bil_outer _ _ _ _ _⟩
  | skew =>
    obtain ⟨m', h1, h2⟩ := outerTo_new (empty : Mat R) empty_wf N X (a/2)
    obtain ⟨m2, E2, h3, h4, h5⟩ := outerTo_add X N (-(a/2)) m' _ h2
    refine ⟨m2, E2, ?_, h4, fun v u => ?_⟩
    · show (outerTo _ _ _ _ _).bind _ = _
      rw [h1]; exact h3
    · rw [h5, bil_outer]
      unfold dirForm
      ring

theorem dir_sum (form : Form) (w : R) (a : Fin d → R) (v u : Fin c → R) (dv du : Fin c → Fin d → R) :
    (∑ k : Fin c, ∑ l : Fin d, dirForm form (w * a l) (v k) (dv k l) (u k) (du k l)) = w * transport form a u du v dv := by
  cases form with
  | convective =>
    unfold transport dirForm
    simp only [Finset.mul_sum]
    exact Finset.sum_congr rfl fun k _ => Finset.sum_congr rfl fun l _ => by ring
  | conservative =>
    unfold transport dirForm
    rw [mul_neg]
    simp only [Finset.mul_sum, ← Finset.sum_neg_distrib]
    exact Finset.sum_congr rfl fun k _ => Finset.sum_congr rfl fun l _ => by ring
  | skew =>
    unfold transport dirForm
    rw [← Finset.sum_sub_distrib]
    simp only [← Finset.sum_sub_distrib, div_eq_mul_inv, Finset.mul_sum, Finset.sum_mul]
    exact Finset.sum_congr rfl fun k _ => Finset.sum_congr rfl fun l _ => by ring

/-- `Advection` adds the transport of the trial field by the given velocity, in the chosen form,
tested with the test field. -/
theorem C72_advection (hb : IsBasis fe b N D) (hn : 0 < n) (hc : 0 < c) (hd : 0 < d) (AC : Nat → R) (scale : R) (form : Form) :
    AddsForm (n * c) (n * c) (fun m => advection m fe AC scale form b) (fun v u => scale * fe.detJxW *
      transport form (fun l : Fin d => AC l) (fval N (nodal u : Fin n → Fin c → R)) (der D (nodal u)) (fval N (nodal v)) (der D (nodal v))) := by
  obtain ⟨d, rfl⟩ : ∃ d', d = d' + 1 := ⟨d - 1, by omega⟩
  have hcols : (fe.grad b).ncol = d + 1 := hb.grads.cols
  let T : (Fin n → R) → (Fin n → R) → R := fun v u => ∑ l : Fin (d+1), dirForm form (scale * fe.detJxW * AC l) (∑ i, N i * v i) (∑ i, D i l * v i) (∑ i, N i * u i) (∑ i, D i l * u i)
  have ha : ∀ l, scale * AC l * fe.detJxW = scale * fe.detJxW * AC l := fun l => by ring
  let step : Bool → Nat → Mat R → Option (Mat R) := fun add k C => do
    let Dk ← (fe.grad b).getColumn (k+1)
    advectionDir C (List.ofFn N) Dk add (scale * AC k * fe.detJxW) form
  let g : Nat → (Fin n → R) → (Fin n → R) → R := fun k v u => if h : k < d+1 then
    dirForm form (scale * fe.detJxW * AC k) (∑ i, N i * v i) (∑ i, D i ⟨k, h⟩ * v i) (∑ i, N i * u i) (∑ i, D i ⟨k, h⟩ * u i) else 0
  have hstep : ∀ k, k < d+1 → AddsForm n n (fun m => step true k m) (g k) := by
    intro k hk
    refine AddsForm.congr (AddsForm.of_eq (dir_add (N := N) form (fun i => D i ⟨k, hk⟩) (scale * AC k * fe.detJxW)) fun m E hm => ?_) (fun v u => ?_)
    · show ((fe.grad b).getColumn (k+1)).bind _ = _
      rw [getCol hb ⟨k, hk⟩]; rfl
    · show _ = dite _ _ _
      rw [dif_pos hk, ha]
  have hsum : ∀ v u, ((List.range (d+1)).map fun k => g k v u).sum = T v u := by
    intro v u
    rw [sum_range_fin]
    refine Finset.sum_congr rfl fun l _ => ?_
    show dite _ _ _ = _
    rw [dif_pos l.2]
  -- the matrix of one component
  have hA : ∃ A E', (List.range (d+1)).foldlM (fun (C : Mat R) (k : Nat) => step (decide (k > 0) || false) k C) empty = some A ∧ Rep A E' ∧ ∀ v u, bil E' v u = T v u := by
    obtain ⟨m0, E0, h1, h2, h3⟩ := dir_new (N := N) form (fun i => D i (0 : Fin (d+1))) (scale * AC 0 * fe.detJxW)
    obtain ⟨A, E', h4, h5, h6⟩ := AddsForm.fold (r := n) (s := n) ((List.range d).map Nat.succ) (fun (C : Mat R) (k : Nat) => step (decide (k > 0) || false) k C) g
      (fun k hk => by
        obtain ⟨j, hj, rfl⟩ := List.mem_map.1 hk
        exact AddsForm.of_eq (hstep (j+1) (by have := List.mem_range.1 hj; omega)) fun m E hm => by simp [step]) m0 E0 h2
    refine ⟨A, E', ?_, h5, fun v u => ?_⟩
    · rw [List.range_succ_eq_map, List.foldlM_cons]
      have : step (decide (0 > 0) || false) 0 empty = some m0 := by
        show ((fe.grad b).getColumn (0+1)).bind _ = _
        rw [show (0 : Nat) + 1 = (0 : Fin (d+1)).1 + 1 from rfl, getCol hb (0 : Fin (d+1))]; exact h1
      rw [this]; exact h4
    · rw [h6, h3, ← hsum, List.range_succ_eq_map, List.map_cons, List.sum_cons]
      congr 1
      show _ = dite _ _ _
      rw [dif_pos (Nat.succ_pos d), ha]
      rfl
  obtain ⟨A, E', hA1, hA2, hA3⟩ := hA
  have key := components (n := n) (p := n) (c := c) (f := fun m => if c > 1 then addDiagonal m A c else
      (List.range (d+1)).foldlM (fun (C : Mat R) (k : Nat) => step true k C) m) (T := T) hc
    (fun h => ⟨hA2, hA3, fun m => if_pos h⟩)
    (fun h => AddsForm.congr (AddsForm.of_eq (AddsForm.fold (List.range (d+1)) _ g fun k hk => hstep k (List.mem_range.1 hk)) fun m E hm => if_neg (by omega)) hsum)
  refine AddsForm.congr (AddsForm.of_eq key fun m E hm => ?_) (fun v u => ?_)
  · show advection m fe AC scale form b = _
    unfold advection
    rw [ncmp_eq hb hn hm, hcols, hb.values]
    by_cases h1 : c > 1
    · simp only [if_pos h1, show (decide (c = 1)) = false by simp; omega]
      show ((List.range (d+1)).foldlM (fun (C : Mat R) (k : Nat) => step (decide (k > 0) || false) k C) empty).bind _ = _
      rw [hA1]; rfl
    · have hc1 : c = 1 := by omega
      simp only [if_neg h1, hc1, decide_true, Bool.or_true]
      show ((List.range (d+1)).foldlM (fun (C : Mat R) (k : Nat) => step true k C) m).bind _ = _
      simp
  · rw [← dir_sum]
    rfl

/-- The conservative form is the opposite of the transpose of the convective form, and the
skew-symmetric form vanishes when the test field equals the trial field. -/
theorem C72_advection_forms (hb : IsBasis fe b N D) (hn : 0 < n) (hc : 0 < c) (hd : 0 < d) (AC : Nat → R) (scale : R)
    {m : Mat R} {E : Matrix (Fin (n * c)) (Fin (n * c)) R} (hm : Rep m E) :
    ∃ m1 m2 m3 E1 E2 E3, advection m fe AC scale .convective b = some m1 ∧ Rep m1 E1 ∧ advection m fe AC scale .conservative b = some m2 ∧ Rep m2 E2 ∧
      advection m fe AC scale .skew b = some m3 ∧ Rep m3 E3 ∧ E2 - E = -(E1 - E).transpose ∧ ∀ v, bil E3 v v = bil E v v := by
  obtain ⟨m1, E1, a1, r1, h1⟩ := C72_advection hb hn hc hd AC scale .convective m E hm
  obtain ⟨m2, E2, a2, r2, h2⟩ := C72_advection hb hn hc hd AC scale .conservative m E hm
  obtain ⟨m3, E3, a3, r3, h3⟩ := C72_advection hb hn hc hd AC scale .skew m E hm
  refine ⟨m1, m2, m3, E1, E2, E3, a1, r1, a2, r2, a3, r3, ?_, fun v => ?_⟩
  · have : E2 = E + -(E1 - E).transpose := by
      apply bil_inj
      intro v u
      have ht : ∀ (F : Matrix (Fin (n*c)) (Fin (n*c)) R), bil (-F.transpose) v u = -bil F u v := by
        intro F
        unfold bil
        rw [← Finset.sum_neg_distrib, Finset.sum_comm]
        refine Finset.sum_congr rfl fun i _ => ?_
        rw [← Finset.sum_neg_distrib]
        exact Finset.sum_congr rfl fun j _ => by simp; ring
      have hs : bil (E1 - E) u v = bil E1 u v - bil E u v := by
        have := bil_add (E1 - E) E u v
        rw [sub_add_cancel] at this
        rw [this]; ring
      rw [h2, bil_add, ht, hs, h1]
      unfold transport
      ring
    rw [this]; simp
  · rw [h3]
    unfold transport
    simp

theorem rep_zero (a b : Nat) : Rep (Mat.zero a b : Mat R) (0 : Matrix (Fin a) (Fin b) R) := by
  refine ⟨rfl, rfl, by simp [Mat.zero], fun i j => ?_⟩
  simp only [Mat.zero, List.getElem?_replicate]
  rw [if_pos (rep_idx i.2 j.2)]; rfl

theorem bil_zero {r s : Nat} (v : Fin r → R) (u : Fin s → R) : bil (0 : Matrix (Fin r) (Fin s) R) v u = 0 := by
  unfold bil
  exact Finset.sum_eq_zero fun i _ => Finset.sum_eq_zero fun j _ => by simp

/-- The form of the first terms of a block of the convection matrix. -/
def crossForm (form : Form) (du w v x u : R) : R :=
  match form with
  | .convective => du * v * u
  | .conservative => -w * x * u
  | .skew => du / 2 * v * u - w / 2 * x * u

/-- The first terms of a block of the convection matrix. -/
theorem convBlock_form {D : Matrix (Fin n) (Fin d) R} (hb : IsBasis fe b N D) (U : Nat → R) (dU : Nat → Nat → R) (form : Form) (k l : Fin d) :
    ∃ C E', convBlock fe U dU form b k l = some C ∧ Rep C E' ∧ ∀ v u : Fin n → R, bil E' v u =
      crossForm form (dU (k+1) (l+1)) (U k) (∑ i, N i * v i) (∑ i, D i l * v i) (∑ i, N i * u i) := by
  obtain ⟨B, hB1, hB2⟩ := outerTo_new (empty : Mat R) empty_wf N N 1
  have h0 := rep_zero (R := R) n n
  have hw : (Mat.zero n n : Mat R).WF := by
    show List.length _ = _
    simp [Mat.zero]
  unfold convBlock
  rw [hb.values, hB1, List.length_ofFn]
  simp only [Option.bind_eq_bind, Option.bind_some]
  rw [getCol hb l]
  simp only [Option.bind_some]
  cases form with
  | convective =>
    refine ⟨_, _, rfl, (C60_add h0 hB2 (dU (k+1) (l+1))).1, fun v u => ?_⟩
    rw [bil_add, bil_smul, bil_outer, bil_zero]
    unfold crossForm
    ring
  | conservative =>
    obtain ⟨m', h1, h2⟩ := outerTo_new _ hw (fun i => D i l) N (-(U k))
    exact ⟨m', _, h1, h2, fun v u => bil_outer _ _ _ _ _⟩
  | skew =>
    obtain ⟨m', E', h1, h2, h3⟩ := outerTo_add (fun i => D i l) N (-(U k / 2)) _ _ (C60_add h0 hB2 (dU (k+1) (l+1) / 2)).1
    refine ⟨m', E', h1, h2, fun v u => ?_⟩
    rw [h3, bil_add, bil_smul, bil_outer, bil_zero]
    unfold crossForm
    ring

theorem convDiag_form {D : Matrix (Fin n) (Fin d) R} (hb : IsBasis fe b N D) (U : Nat → R) (form : Form) :
    AddsForm n n (fun m => convDiag m fe U form b d) (fun v u => ∑ l : Fin d, dirForm form (U l) (∑ i, N i * v i) (∑ i, D i l * v i) (∑ i, N i * u i) (∑ i, D i l * u i)) := by
  unfold convDiag
  refine AddsForm.congr (AddsForm.fold (List.range d) _ (fun k v u => if h : k < d then
    dirForm form (U k) (∑ i, N i * v i) (∑ i, D i ⟨k, h⟩ * v i) (∑ i, N i * u i) (∑ i, D i ⟨k, h⟩ * u i) else 0) (fun k hk => ?_)) (fun v u => ?_)
  · have hk := List.mem_range.1 hk
    refine AddsForm.congr (AddsForm.of_eq (dir_add (N := N) form (fun i => D i ⟨k, hk⟩) (U k)) fun m E hm => ?_) (fun v u => ?_)
    · show ((fe.grad b).getColumn (k+1)).bind _ = _
      rw [getCol hb ⟨k, hk⟩, hb.values]
      cases form <;> rfl
    · rw [dif_pos hk]
  · rw [sum_range_fin]
    refine Finset.sum_congr rfl fun l _ => ?_
    rw [dif_pos l.2]

/-- `Convection` adds the transport of the trial field by the current velocity plus the transport
of the current field by the trial field. -/
theorem C72_convection {D : Matrix (Fin n) (Fin d) R} (hb : IsBasis fe b N D) (hn : 0 < n) (U : Nat → R) (dU : Nat → Nat → R) (scale : R) (form : Form) :
    AddsForm (n * d) (n * d) (fun m => convection m fe U dU scale form b) (fun v u => scale * fe.detJxW *
      (transport form (fun l : Fin d => U l) (fval N (nodal u : Fin n → Fin d → R)) (der D (nodal u)) (fval N (nodal v)) (der D (nodal v)) +
       transport form (fval N (nodal u : Fin n → Fin d → R)) (fun k : Fin d => U k) (fun k l => dU (k+1) (l+1)) (fval N (nodal v)) (der D (nodal v)))) := by
  let B : Fin d → Fin d → (Fin n → R) → (Fin n → R) → R := fun k l v u =>
    crossForm form (dU (k+1) (l+1)) (U k) (∑ i, N i * v i) (∑ i, D i l * v i) (∑ i, N i * u i) +
    if k = l then ∑ l : Fin d, dirForm form (U l) (∑ i, N i * v i) (∑ i, D i l * v i) (∑ i, N i * u i) (∑ i, D i l * u i) else 0
  have hblk : ∀ k l : Fin d, AddsForm (n * d) (n * d) (fun m => convAdd m fe U dU scale form b d k l)
      (fun v u => scale * fe.detJxW * B k l (fun i => nodal v i k) (fun i => nodal u i l)) := by
    intro k l
    obtain ⟨C0, E0, h1, h2, h3⟩ := convBlock_form hb U dU form k l
    have hC : convC fe U dU form b d k l = if k.1 = l.1 then convDiag C0 fe U form b d else some C0 := by
      show (convBlock fe U dU form b k l).bind _ = _
      rw [h1]; rfl
    have : ∃ C E', (if k.1 = l.1 then convDiag C0 fe U form b d else some C0) = some C ∧ Rep C E' ∧ ∀ v u, bil E' v u = B k l v u := by
      by_cases e : k = l
      · obtain ⟨C, E', a, b', hh⟩ := convDiag_form hb U form C0 E0 h2
        refine ⟨C, E', (if_pos (congrArg Fin.val e)).trans a, b', fun v u => ?_⟩
        rw [hh, h3]
        show _ = _ + ite _ _ _
        rw [if_pos e]
      · refine ⟨C0, E0, if_neg (fun h => e (Fin.ext h)), h2, fun v u => ?_⟩
        rw [h3]
        show _ = _ + ite _ _ _
        rw [if_neg e, add_zero]
    obtain ⟨C, E', a, r, hh⟩ := this
    refine AddsForm.congr (AddsForm.of_eq (addComponent_spec (c := d) (C60_add r r (scale * fe.detJxW)).2 k l) fun m E hm => ?_) (fun v u => ?_)
    · show (convC fe U dU form b d k l).bind _ = _
      rw [hC, a]; rfl
    · rw [bil_smul, hh]
  have key : AddsForm (n * d) (n * d) (fun m => (pairs d d).foldlM (fun (EM' : Mat R) (q : Nat × Nat) => convAdd EM' fe U dU scale form b d q.1 q.2) m)
      (fun v u => ∑ k : Fin d, ∑ l : Fin d, scale * fe.detJxW * B k l (fun i => nodal v i k) (fun i => nodal u i l)) := by
    refine AddsForm.congr (AddsForm.fold (pairs d d) _ (fun q v u => if h : q.1 < d ∧ q.2 < d then
      scale * fe.detJxW * B ⟨q.1, h.1⟩ ⟨q.2, h.2⟩ (fun i => nodal v i ⟨q.1, h.1⟩) (fun i => nodal u i ⟨q.2, h.2⟩) else 0) (fun q hq => ?_)) (fun v u => ?_)
    · obtain ⟨h1, h2⟩ := (mem_pairs _ _ _).1 hq
      refine AddsForm.congr (hblk ⟨q.1, h1⟩ ⟨q.2, h2⟩) (fun v u => ?_)
      rw [dif_pos ⟨h1, h2⟩]
    · rw [sum_pairs]
      exact Finset.sum_congr rfl fun k _ => Finset.sum_congr rfl fun l _ => by rw [dif_pos ⟨k.2, l.2⟩]
  refine AddsForm.congr (AddsForm.of_eq key fun m E hm => ?_) (fun v u => ?_)
  · show convection m fe U dU scale form b = _
    unfold convection
    rw [ncmp_eq hb hn hm]
  · simp only [← Finset.mul_sum]
    congr 1
    have hdiag : (∑ k : Fin d, ∑ l : Fin d, if k = l then ∑ l' : Fin d, dirForm form (U l') (fval N (nodal v) k) (der D (nodal v) k l') (fval N (nodal u) l) (der D (nodal u) l l') else 0) =
        transport form (fun l : Fin d => U l) (fval N (nodal u : Fin n → Fin d → R)) (der D (nodal u)) (fval N (nodal v)) (der D (nodal v)) := by
      rw [← one_mul (transport _ _ _ _ _ _), ← dir_sum]
      refine Finset.sum_congr rfl fun k _ => ?_
      rw [Finset.sum_ite_eq, if_pos (Finset.mem_univ _)]
      simp only [one_mul]
    rw [← hdiag, add_comm]
    show (∑ k : Fin d, ∑ l : Fin d, (crossForm form (dU (k+1) (l+1)) (U k) (fval N (nodal v) k) (der D (nodal v) k l) (fval N (nodal u) l) +
      if k = l then ∑ l' : Fin d, dirForm form (U l') (fval N (nodal v) k) (der D (nodal v) k l') (fval N (nodal u) l) (der D (nodal u) l l') else 0)) = _
    simp only [Finset.sum_add_distrib]
    congr 1
    cases form with
    | convective =>
      unfold transport crossForm
      exact Finset.sum_congr rfl fun k _ => Finset.sum_congr rfl fun l _ => by ring
    | conservative =>
      unfold transport crossForm
      simp only [← Finset.sum_neg_distrib]
      exact Finset.sum_congr rfl fun k _ => Finset.sum_congr rfl fun l _ => by ring
    | skew =>
      unfold transport crossForm
      simp only [← Finset.sum_sub_distrib, div_eq_mul_inv, Finset.sum_mul]
      exact Finset.sum_congr rfl fun k _ => Finset.sum_congr rfl fun l _ => by ring

/-- `Residual::Convection` subtracts the transport of the given field by the given velocity. -/
theorem C72_residual_convection {D : Matrix (Fin n) (Fin d) R} (hb : IsBasis fe b N D) (hn : 0 < n) (U : Nat → R) (dU : Nat → Nat → R) (UC : Nat → R) (scale : R) (form : Form) :
    AddsVec (n * d) (fun e => resConvection e fe U dU UC scale form b) (fun v => -(scale * fe.detJxW *
      transport form (fun l : Fin d => UC l) (fun k : Fin d => U k) (fun k l => dU (k+1) (l+1)) (fval N (nodal v : Fin n → Fin d → R)) (der D (nodal v)))) := by
  have key : AddsVec (n * d) (fun e => (triples n d d).foldlM (fun (E : List R) (q : Nat × Nat × Nat) => do
      let N ← (List.ofFn N)[q.1]?
      let G ← (fe.grad b).get? ((q.1 : Int) + 1) ((q.2.2 : Int) + 1)
      let old ← E[q.1 * d + q.2.1]?
      some (E.set (q.1 * d + q.2.1) (old + scale * fe.detJxW * convTerm U dU UC form N G q.2.1 q.2.2))) e)
      (fun v => ∑ i : Fin n, ∑ k : Fin d, ∑ l : Fin d, nodal v i k * (scale * fe.detJxW * convTerm U dU UC form (N i) (D i l) k l)) := by
    have hb' : ∀ x ∈ triples n d d, x.1 * d + x.2.1 < n * d := by
      intro x hx
      obtain ⟨h1, h2, h3⟩ := (mem_triples _ _ _ _).1 hx
      rw [Nat.mul_comm x.1]; exact comp_lt h1 h2
    refine AddsVec.congr (addEntriesV (triples n d d) _ (fun x => x.1 * d + x.2.1) (fun x => if h : x.1 < n ∧ x.2.2 < d then
      scale * fe.detJxW * convTerm U dU UC form (N ⟨x.1, h.1⟩) (D ⟨x.1, h.1⟩ ⟨x.2.2, h.2⟩) x.2.1 x.2.2 else 0) hb' (fun e x hx => ?_)) (fun v => ?_)
    · have hlt := hb' x hx
      obtain ⟨h1, h2, h3⟩ := (mem_triples _ _ _ _).1 hx
      rw [List.getElem?_ofFn, dif_pos h1, rep_get1 hb.grads ⟨x.1, h1⟩ ⟨x.2.2, h3⟩, dif_pos ⟨h1, h3⟩]
      have hget : (List.ofFn e)[x.1 * d + x.2.1]? = some (e ⟨x.1 * d + x.2.1, hlt⟩) := by rw [List.getElem?_ofFn, dif_pos hlt]
      rw [← set_modify (List.ofFn e) _ _ _ hget]
      simp only [Option.bind_eq_bind, Option.bind_some, hget]
    · rw [sum_triples]
      refine Finset.sum_congr rfl fun i _ => Finset.sum_congr rfl fun k _ => Finset.sum_congr rfl fun l _ => ?_
      have hlt : i.1 * d + k.1 < n * d := by rw [Nat.mul_comm i.1]; exact comp_lt i.2 k.2
      rw [dif_pos hlt, dif_pos ⟨i.2, l.2⟩, nodal_mk v i k _ _ (by rw [Nat.mul_comm d])]
  refine AddsVec.congr (AddsVec.of_eq key fun e => ?_) (fun v => ?_)
  · show resConvection _ fe U dU UC scale form b = _
    unfold resConvection
    rw [vcmp_eq hb hn e, hb.values, List.length_ofFn]
  · have h1 : ∀ k l : Fin d, (∑ i : Fin n, nodal v i k * (scale * fe.detJxW * convTerm U dU UC form (N i) (D i l) k l)) =
        -dirForm form (scale * fe.detJxW * UC l) (fval N (nodal v) k) (der D (nodal v) k l) (U k) (dU (k+1) (l+1)) := by
      intro k l
      unfold fval der
      cases form with
      | convective =>
        dsimp only [convTerm, dirForm]
        rw [Finset.mul_sum, Finset.sum_mul, ← Finset.sum_neg_distrib]
        exact Finset.sum_congr rfl fun i _ => by ring
      | conservative =>
        dsimp only [convTerm, dirForm]
        rw [Finset.mul_sum, Finset.sum_mul, ← Finset.sum_neg_distrib]
        exact Finset.sum_congr rfl fun i _ => by ring
      | skew =>
        dsimp only [convTerm, dirForm]
        rw [Finset.mul_sum, Finset.sum_mul, Finset.mul_sum, Finset.sum_mul, ← Finset.sum_sub_distrib, ← Finset.sum_neg_distrib]
        exact Finset.sum_congr rfl fun i _ => by ring
    rw [← dir_sum, ← Finset.sum_neg_distrib, Finset.sum_comm]
    refine Finset.sum_congr rfl fun k _ => ?_
    rw [Finset.sum_comm, ← Finset.sum_neg_distrib]
    exact Finset.sum_congr rfl fun l _ => h1 k l

end IFEM.Props
