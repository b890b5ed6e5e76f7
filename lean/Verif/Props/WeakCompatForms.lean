import Verif.Props.WeakCompat
/-!
# C72: the block convection in all three forms

The blocks of different components are right in every form; those of equal components are right in
the convective form only (see `C72_compatible_convection_counterexample`).  Here is exactly what is
added.
-/
namespace IFEM.Props
open IFEM IFEM.Spec IFEM.Spec.Weak IFEM.Lem IFEM.Mat IFEM.Weak

variable {R : Type} [Field R] {d : Nat}

/-- The linearised convection of the components `k`, `l` without the transport of the trial component:
`w` the current velocity `k`, `du` its derivative in direction `l`, `v` the test component, `x` its
derivative in direction `l`, `u` the trial component. -/
def crossTerm : Form → R → R → R → R → R → R
  | .convective, _, du, v, _, u => du * v * u
  | .conservative, w, _, _, x, u => -(w * x * u)
  | .skew, w, du, v, x, u => (du * v * u - w * x * u) / 2

/-- The factor of the transport of the trial component in the code. -/
def transportFactor : Form → R
  | .convective => 1
  | .conservative => -1
  | .skew => 0

theorem compConvOff_coded {fe : FE R} {nn : Fin d → Nat} {N : (k : Fin d) → Fin (nn k) → R} {D : (k : Fin d) → Fin (nn k) → Fin d → R}
    (hb : Bases fe N D) (U : Nat → R) (dU : Nat → Nat → R) (scale : R) (form : Form) (k l : Fin d) :
    AddsForm (nn k) (nn l) (fun M => compConvOff M fe U dU scale form k l)
      (fun v u => scale * fe.detJxW * crossTerm form (U k) (dU (k+1) (l+1)) (∑ i, N k i * v i) (∑ i, D k i l * v i) (∑ i, N l i * u i)) := by
  cases form with
  | convective =>
    refine AddsForm.congr (AddsForm.of_eq (outerTo_add (N k) (N l) (scale * fe.detJxW * dU (k+1) (l+1))) fun m E hm => ?_) (fun v u => ?_)
    · show ((fe.grad (k.1+1)).getColumn (l.1+1)).bind _ = _
      rw [getCol (hb.2 k) l, (hb.2 k).values, (hb.2 l).values]
      rfl
    · unfold crossTerm; ring
  | conservative =>
    refine AddsForm.congr (AddsForm.of_eq (outerTo_add (fun i => D k i l) (N l) (-(U k) * scale * fe.detJxW)) fun m E hm => ?_) (fun v u => ?_)
    · show ((fe.grad (k.1+1)).getColumn (l.1+1)).bind _ = _
      rw [getCol (hb.2 k) l, (hb.2 l).values]
      rfl
    · unfold crossTerm; ring
  | skew =>
    refine AddsForm.congr (AddsForm.of_eq (AddsForm.comp (outerTo_add (N k) (N l) (scale * fe.detJxW * dU (k+1) (l+1) / 2)) (outerTo_add (fun i => D k i l) (N l) (-(U k) * scale * fe.detJxW / 2))) fun m E hm => ?_) (fun v u => ?_)
    · show ((fe.grad (k.1+1)).getColumn (l.1+1)).bind _ = _
      rw [getCol (hb.2 k) l, (hb.2 k).values, (hb.2 l).values]
      rfl
    · unfold crossTerm; ring

theorem compConvDiag_coded {fe : FE R} {nn : Fin d → Nat} {N : (k : Fin d) → Fin (nn k) → R} {D : (k : Fin d) → Fin (nn k) → Fin d → R}
    (hb : Bases fe N D) (U : Nat → R) (scale : R) (form : Form) (k : Fin d) :
    AddsForm (nn k) (nn k) (fun M => compConvDiag M fe U scale form k d)
      (fun v u => scale * fe.detJxW * (transportFactor form * ((∑ i, N k i * v i) * ∑ m : Fin d, U m * ∑ i, D k i m * u i))) := by
  unfold compConvDiag
  refine AddsForm.congr (AddsForm.fold (List.range d) _ (fun j v u => if h : j < d then scale * fe.detJxW * (transportFactor form * ((∑ i, N k i * v i) * (U j * ∑ i, D k i ⟨j, h⟩ * u i))) else 0) (fun j hj => ?_)) (fun v u => ?_)
  · have hj := List.mem_range.1 hj
    have hB := hb.2 k
    cases form with
    | convective =>
      refine AddsForm.congr (AddsForm.of_eq (outerTo_add (N k) (fun i => D k i ⟨j, hj⟩) (scale * fe.detJxW * U j)) fun m E hm => ?_) (fun v u => ?_)
      · show ((fe.grad (k.1+1)).getColumn (j+1)).bind _ = _
        rw [getCol hB ⟨j, hj⟩, hB.values]
        rfl
      · rw [dif_pos hj]; unfold transportFactor; ring
    | conservative =>
      refine AddsForm.congr (AddsForm.of_eq (outerTo_add (N k) (fun i => D k i ⟨j, hj⟩) (-(U j) * scale * fe.detJxW)) fun m E hm => ?_) (fun v u => ?_)
      · show ((fe.grad (k.1+1)).getColumn (j+1)).bind _ = _
        rw [getCol hB ⟨j, hj⟩, hB.values]
        rfl
      · rw [dif_pos hj]; unfold transportFactor; ring
    | skew =>
      refine AddsForm.congr (AddsForm.of_eq (AddsForm.comp (outerTo_add (N k) (fun i => D k i ⟨j, hj⟩) (scale * fe.detJxW * U j / 2)) (outerTo_add (N k) (fun i => D k i ⟨j, hj⟩) (-(U j) * scale * fe.detJxW / 2))) fun m E hm => ?_) (fun v u => ?_)
      · show ((fe.grad (k.1+1)).getColumn (j+1)).bind _ = _
        rw [getCol hB ⟨j, hj⟩, hB.values]
        rfl
      · rw [dif_pos hj]; unfold transportFactor; ring
  · rw [sum_range_fin, Finset.mul_sum, Finset.mul_sum, Finset.mul_sum]
    exact Finset.sum_congr rfl fun l _ => by rw [dif_pos l.2]

theorem compConvBlock_coded {fe : FE R} {nn : Fin d → Nat} {N : (k : Fin d) → Fin (nn k) → R} {D : (k : Fin d) → Fin (nn k) → Fin d → R}
    (hb : Bases fe N D) (U : Nat → R) (dU : Nat → Nat → R) (scale : R) (form : Form) (k l : Fin d) :
    AddsForm (nn k) (nn l) (fun M => compConvBlock M fe U dU scale form k l d)
      (fun v u => scale * fe.detJxW * (crossTerm form (U k) (dU (k+1) (l+1)) (∑ i, N k i * v i) (∑ i, D k i l * v i) (∑ i, N l i * u i) +
        if k = l then transportFactor form * ((∑ i, N k i * v i) * ∑ m : Fin d, U m * ∑ i, D l i m * u i) else 0)) := by
  have hoff := compConvOff_coded hb U dU scale form k l
  by_cases e : k = l
  · subst e
    refine AddsForm.congr (AddsForm.of_eq (AddsForm.comp hoff (compConvDiag_coded hb U scale form k)) fun m E hm => ?_) (fun v u => ?_)
    · show (compConvOff m fe U dU scale form k k).bind _ = _
      simp only [if_true]
    · rw [if_pos rfl, mul_add]
  · refine AddsForm.congr (AddsForm.of_eq hoff fun m E hm => ?_) (fun v u => ?_)
    · show (compConvOff m fe U dU scale form k l).bind _ = _
      simp only [if_neg (fun h => e (Fin.ext h))]
      simp
    · rw [if_neg e, add_zero]

/-- **C72.** `Convection` in any form: the blocks of different components get the named form, those of
equal components get in addition the transport of the trial component with factor 1, -1 and 0 (where
the conservative form asks for minus the transport of the test component). -/
theorem C72_compatible_convection_coded {fe : FE R} {nn : Fin d → Nat} {N : (k : Fin d) → Fin (nn k) → R} {D : (k : Fin d) → Fin (nn k) → Fin d → R}
    (hb : Bases fe N D) (idx : Nat → Nat → Nat) (hi : Function.Injective fun q : Fin d × Fin d => idx q.1 q.2) (U : Nat → R) (dU : Nat → Nat → R) (scale : R) (form : Form) :
    AddsBlocks (fun q => nn q.1) (fun q => nn q.2) (fun q : Fin d × Fin d => idx q.1 q.2) (fun EM => compConvection EM fe U dU idx scale form)
      (fun q v u => scale * fe.detJxW * (crossTerm form (U q.1) (dU (q.1+1) (q.2+1)) (∑ i, N q.1 i * v i) (∑ i, D q.1 i q.2 * v i) (∑ i, N q.2 i * u i) +
        if q.1 = q.2 then transportFactor form * ((∑ i, N q.1 i * v i) * ∑ m : Fin d, U m * ∑ i, D q.2 i m * u i) else 0)) := by
  have key := AddsBlocks.fold (rr := fun q : Fin d × Fin d => nn q.1) (cc := fun q : Fin d × Fin d => nn q.2) (pos := fun q : Fin d × Fin d => idx q.1 q.2) (pairs d d)
    (fun EM q => atBlock EM (idx q.1 q.2) fun M => compConvBlock M fe U dU scale form q.1 q.2 d)
    (fun p q v u => if p.1 = q.1.1 ∧ p.2 = q.2.1 then scale * fe.detJxW * (crossTerm form (U q.1) (dU (q.1+1) (q.2+1)) (∑ i, N q.1 i * v i) (∑ i, D q.1 i q.2 * v i) (∑ i, N q.2 i * u i) +
        if q.1 = q.2 then transportFactor form * ((∑ i, N q.1 i * v i) * ∑ m : Fin d, U m * ∑ i, D q.2 i m * u i) else 0) else 0)
    (fun p hp => by
      obtain ⟨h1, h2⟩ := (mem_pairs _ _ _).1 hp
      refine atBlock_form (pos := fun q : Fin d × Fin d => idx q.1 q.2) hi (⟨p.1, h1⟩, ⟨p.2, h2⟩) _ _ (compConvBlock_coded hb U dU scale form ⟨p.1, h1⟩ ⟨p.2, h2⟩) _ ?_ ?_
      · funext v u
        rw [if_pos ⟨rfl, rfl⟩]
      · intro q hq v u
        rw [if_neg (fun h => hq (Prod.ext (Fin.ext h.1.symm) (Fin.ext h.2.symm)))])
  refine AddsBlocks.congr (AddsBlocks.of_eq key fun EM => ?_) (fun q v u => pair_sum q.1 q.2 _)
  unfold compConvection
  rw [hb.1]

end IFEM.Props
