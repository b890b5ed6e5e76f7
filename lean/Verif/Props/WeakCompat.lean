import Verif.Props.WeakResidual
/-!
# C72: operators with one basis per component
-/
namespace IFEM.Props
open IFEM IFEM.Spec IFEM.Spec.Weak IFEM.Lem IFEM.Mat IFEM.Weak

variable {R : Type} [Field R] {d : Nat} {fe : FE R} {ι : Type} {rr cc : ι → Nat} {pos : ι → Nat}

theorem AddsBlocks.fold {X : Type} (L : List X) (f : List (Mat R) → X → Option (List (Mat R))) (T : X → ∀ i, (Fin (rr i) → R) → (Fin (cc i) → R) → R)
    (h : ∀ x ∈ L, AddsBlocks rr cc pos (fun m => f m x) (T x)) : AddsBlocks rr cc pos (fun m => L.foldlM f m) (fun i v u => (L.map fun x => T x i v u).sum) := by
  induction L with
  | nil =>
    intro EM E hE
    refine ⟨EM, rfl, fun p _ => rfl, fun i => ?_⟩
    obtain ⟨m, h1, h2⟩ := hE i
    exact ⟨m, E i, h1, h2, fun v u => (add_zero _).symm⟩
  | cons x L ih =>
    intro EM E hE
    obtain ⟨EM1, a1, b1, c1⟩ := h x List.mem_cons_self EM E hE
    choose m1 E1 g1 g2 g3 using c1
    obtain ⟨EM2, a2, b2, c2⟩ := ih (fun y hy => h y (List.mem_cons_of_mem _ hy)) EM1 E1 (fun i => ⟨m1 i, g1 i, g2 i⟩)
    refine ⟨EM2, ?_, fun p hp => (b2 p hp).trans (b1 p hp), fun i => ?_⟩
    · show (f EM x).bind _ = _
      rw [show f EM x = some EM1 from a1]
      exact a2
    · obtain ⟨m2, E2, d1, d2, d3⟩ := c2 i
      exact ⟨m2, E2, d1, d2, fun v u => by dsimp only at d3 ⊢; rw [d3, g3, List.map_cons, List.sum_cons, add_assoc]⟩

theorem AddsBlocks.congr {f : List (Mat R) → Option (List (Mat R))} {T T' : ∀ i, (Fin (rr i) → R) → (Fin (cc i) → R) → R} (h : AddsBlocks rr cc pos f T)
    (e : ∀ i v u, T i v u = T' i v u) : AddsBlocks rr cc pos f T' := by
  have : T = T' := by funext i v u; exact e i v u
  rw [← this]; exact h

theorem AddsBlocks.of_eq {f g : List (Mat R) → Option (List (Mat R))} {T : ∀ i, (Fin (rr i) → R) → (Fin (cc i) → R) → R} (h : AddsBlocks rr cc pos f T)
    (e : ∀ m, g m = f m) : AddsBlocks rr cc pos g T := by
  rw [show g = f from funext e]; exact h

theorem AddsBlocks.comp {f g : List (Mat R) → Option (List (Mat R))} {T S : ∀ i, (Fin (rr i) → R) → (Fin (cc i) → R) → R} (hf : AddsBlocks rr cc pos f T)
    (hg : AddsBlocks rr cc pos g S) : AddsBlocks rr cc pos (fun m => (f m).bind g) (fun i v u => T i v u + S i v u) := by
  have := AddsBlocks.fold (rr := rr) (cc := cc) (pos := pos) [true, false] (fun m (b : Bool) => if b then f m else g m) (fun b => if b then T else S)
    (fun b _ => by cases b <;> assumption)
  refine AddsBlocks.congr (AddsBlocks.of_eq this fun m => ?_) (fun i v u => by simp)
  simp [List.foldlM]

open Classical in
/-- An operation on one of the blocks. -/
theorem atBlock_form (hpos : Function.Injective pos) (i : ι) (f : Mat R → Option (Mat R)) (T : (Fin (rr i) → R) → (Fin (cc i) → R) → R) (hf : AddsForm (rr i) (cc i) f T)
    (T' : ∀ j, (Fin (rr j) → R) → (Fin (cc j) → R) → R) (h1 : T' i = T) (h2 : ∀ j, j ≠ i → ∀ v u, T' j v u = 0) :
    AddsBlocks rr cc pos (fun EM => atBlock EM (pos i) f) T' := by
  intro EM E hE
  obtain ⟨m, g1, g2⟩ := hE i
  obtain ⟨m', E', k1, k2, k3⟩ := hf m (E i) g2
  refine ⟨EM.set (pos i) m', ?_, fun p hp => ?_, fun j => ?_⟩
  · show (EM[pos i]?).bind _ = _
    rw [g1]
    simp only [Option.bind_eq_bind, Option.bind_some, k1]
  · rw [List.getElem?_set_ne (hp i)]
  · by_cases e : j = i
    · subst e
      refine ⟨m', E', ?_, k2, fun v u => by rw [k3, h1]⟩
      rw [List.getElem?_set_self]
      exact (List.getElem?_eq_some_iff.1 g1).1
    · obtain ⟨mj, q1, q2⟩ := hE j
      refine ⟨mj, E j, ?_, q2, fun v u => by rw [h2 j e, add_zero]⟩
      rw [List.getElem?_set_ne (fun h => e (hpos h.symm)), q1]

variable {nn : Fin d → Nat} {N : ∀ k, Fin (nn k) → R} {D : ∀ k, Matrix (Fin (nn k)) (Fin d) R}

theorem nodal_cast {n : Nat} (e : n * 1 = n) (v : Fin n → R) (i : Fin n) (k : Fin 1) : nodal (fun i => v (Fin.cast e i)) i k = v i := by
  show v (Fin.cast _ (finProdFinEquiv (i, k))) = v i
  congr 1
  apply Fin.ext
  show k.1 + 1 * i.1 = i.1
  omega

/-- A sum over a range in which the terms are the diagonal forms. -/
theorem diag_sum (k : Fin d) (x : R) : ((List.range d).map fun j => if j = k.1 then x else 0).sum = x := by
  rw [sum_range_fin, Finset.sum_eq_single k (fun b _ hb => if_neg fun h => hb (Fin.ext h)) (fun h => absurd (Finset.mem_univ _) h), if_pos rfl]

/-- `Mass` adds the product of the components, in the diagonal blocks. -/
theorem C72_compatible_mass (hb : Bases fe N D) (hn : ∀ k, 0 < nn k) (idx : Nat → Nat → Nat) (hi : Function.Injective fun k : Fin d => idx k k) (scale : R) :
    AddsBlocks nn nn (fun k : Fin d => idx k k) (fun EM => compMass EM fe idx scale)
      (fun k v u => scale * fe.detJxW * ((∑ i, N k i * v i) * ∑ i, N k i * u i)) := by
  refine AddsBlocks.congr (AddsBlocks.of_eq (AddsBlocks.fold (rr := nn) (cc := nn) (pos := fun k : Fin d => idx k k) (List.range d)
    (fun EM k => atBlock EM (idx k k) fun M => mass M fe scale (k+1))
    (fun j k v u => if j = k.1 then scale * fe.detJxW * ((∑ i, N k i * v i) * ∑ i, N k i * u i) else 0) (fun j hj => ?_)) fun EM => ?_) (fun k v u => diag_sum k _)
  · have hj := List.mem_range.1 hj
    refine atBlock_form (pos := fun k : Fin d => idx k k) hi ⟨j, hj⟩ (fun M => mass M fe scale (j+1))
      (fun v u => scale * fe.detJxW * ((∑ i, N ⟨j, hj⟩ i * v i) * ∑ i, N ⟨j, hj⟩ i * u i)) ?_ _ ?_ ?_
    · have := cast_form (Nat.mul_one _).symm (Nat.mul_one _).symm (C72_mass (c := 1) (hb.2 ⟨j, hj⟩) (hn _) (by omega) scale)
      refine AddsForm.congr this (fun v u => ?_)
      rw [Fin.sum_univ_one]
      unfold fval
      simp only [nodal_cast]
    · funext v u; rw [if_pos rfl]
    · intro k hk v u
      rw [if_neg (fun h => hk (Fin.ext h.symm))]
  · unfold compMass
    rw [hb.1]

/-- The two-index version of `diag_sum`. -/
theorem pair_sum (k l : Fin d) (x : R) : ((pairs d d).map fun q : Nat × Nat => if q.1 = k.1 ∧ q.2 = l.1 then x else 0).sum = x := by
  rw [sum_pairs, Finset.sum_eq_single k, Finset.sum_eq_single l, if_pos ⟨rfl, rfl⟩]
  · exact fun b _ hb => if_neg fun h => hb (Fin.ext h.2)
  · exact fun h => absurd (Finset.mem_univ _) h
  · exact fun b _ hb => Finset.sum_eq_zero fun c _ => if_neg fun h => hb (Fin.ext h.1)
  · exact fun h => absurd (Finset.mem_univ _) h

theorem row_sum (k : Fin d) (x : Fin d → R) : ((pairs d d).map fun q : Nat × Nat => if h : q.1 = k.1 ∧ q.2 < d then x ⟨q.2, h.2⟩ else 0).sum = ∑ l, x l := by
  rw [sum_pairs, Finset.sum_eq_single k]
  · exact Finset.sum_congr rfl fun l _ => dif_pos ⟨rfl, l.2⟩
  · exact fun b _ hb => Finset.sum_eq_zero fun c _ => dif_neg fun h => hb (Fin.ext h.1)
  · exact fun h => absurd (Finset.mem_univ _) h

theorem dir_sum1 (form : Form) (w : R) (a : Fin d → R) (v u : R) (dv du : Fin d → R) :
    (∑ l : Fin d, dirForm form (w * a l) v (dv l) u (du l)) = w * transport1 form a u du v dv := by
  unfold transport1
  rw [← dir_sum, Fin.sum_univ_one]

/-- `Advection` adds the transport of every component by the given velocity, in the diagonal
blocks. -/
theorem C72_compatible_advection (hb : Bases fe N D) (idx : Nat → Nat → Nat) (hi : Function.Injective fun k : Fin d => idx k k) (AC : Nat → R) (scale : R) (form : Form) :
    AddsBlocks nn nn (fun k : Fin d => idx k k) (fun EM => compAdvection EM fe AC idx scale form)
      (fun k v u => scale * fe.detJxW * transport1 form (fun l : Fin d => AC l) (∑ i, N k i * u i) (fun l => ∑ i, D k i l * u i) (∑ i, N k i * v i) (fun l => ∑ i, D k i l * v i)) := by
  have key := AddsBlocks.fold (rr := nn) (cc := nn) (pos := fun k : Fin d => idx k k) (pairs d d)
    (fun EM q => do
      let Dk ← (fe.grad (q.1+1)).getColumn (q.2+1)
      atBlock EM (idx q.1 q.1) fun M => advectionDir M (fe.basis (q.1+1)) Dk true (scale * AC q.2 * fe.detJxW) form)
    (fun q k v u => if h : q.1 = k.1 ∧ q.2 < d then dirForm form (scale * fe.detJxW * AC q.2) (∑ i, N k i * v i) (∑ i, D k i ⟨q.2, h.2⟩ * v i) (∑ i, N k i * u i) (∑ i, D k i ⟨q.2, h.2⟩ * u i) else 0)
    (fun q hq => by
      obtain ⟨h1, h2⟩ := (mem_pairs _ _ _).1 hq
      have hB := hb.2 ⟨q.1, h1⟩
      refine AddsBlocks.of_eq (f := fun EM => atBlock EM (idx q.1 q.1) fun M => advectionDir M (List.ofFn (N ⟨q.1, h1⟩)) (List.ofFn fun i => D ⟨q.1, h1⟩ i ⟨q.2, h2⟩) true (scale * AC q.2 * fe.detJxW) form)
        ?_ (fun EM => ?_)
      · refine atBlock_form (pos := fun k : Fin d => idx k k) hi ⟨q.1, h1⟩ _ _ (dir_add (N := N ⟨q.1, h1⟩) form (fun i => D ⟨q.1, h1⟩ i ⟨q.2, h2⟩) (scale * AC q.2 * fe.detJxW)) _ ?_ ?_
        · funext v u
          rw [dif_pos ⟨rfl, h2⟩, show scale * AC q.2 * fe.detJxW = scale * fe.detJxW * AC q.2 by ring]
        · intro k hk v u
          rw [dif_neg (fun h => hk (Fin.ext h.1.symm))]
      · have e1 := getCol hB ⟨q.2, h2⟩
        have e2 := hB.values
        dsimp only at e1 e2
        rw [e1, e2]; rfl)
  refine AddsBlocks.congr (AddsBlocks.of_eq key fun EM => ?_) (fun k v u => ?_)
  · unfold compAdvection
    rw [hb.1]
  · rw [← dir_sum1]
    exact row_sum k fun l => dirForm form (scale * fe.detJxW * AC l) (∑ i, N k i * v i) (∑ i, D k i l * v i) (∑ i, N k i * u i) (∑ i, D k i l * u i)

/-- `Gradient` adds minus the derivative of the component in its own direction times the scalar
trial function, in the block of each component. -/
theorem C72_compatible_gradient (hb : Bases fe N D) {np : Nat} {Np : Fin np → R} (hp : fe.basis (d+1) = List.ofFn Np) (idx : Nat → Nat) (hi : Function.Injective fun k : Fin d => idx k) (scale : R) :
    AddsBlocks nn (fun _ => np) (fun k : Fin d => idx k) (fun EM => compGradient EM fe idx scale)
      (fun k v q => -(scale * fe.detJxW * ((∑ i, D k i k * v i) * ∑ i, Np i * q i))) := by
  have key := AddsBlocks.fold (rr := nn) (cc := fun _ => np) (pos := fun k : Fin d => idx k) (List.range d)
    (fun EM j => do
      let Dn ← (fe.grad (j+1)).getColumn (j+1)
      atBlock EM (idx j) fun M => outerTo M Dn (fe.basis (d + 1)) true (-(scale * fe.detJxW)))
    (fun j k v q => if j = k.1 then -(scale * fe.detJxW * ((∑ i, D k i k * v i) * ∑ i, Np i * q i)) else 0)
    (fun j hj => by
      have hj := List.mem_range.1 hj
      have hB := hb.2 ⟨j, hj⟩
      refine AddsBlocks.of_eq (f := fun EM => atBlock EM (idx j) fun M => outerTo M (List.ofFn fun i => D ⟨j, hj⟩ i ⟨j, hj⟩) (List.ofFn Np) true (-(scale * fe.detJxW))) ?_ (fun EM => ?_)
      · refine atBlock_form (pos := fun k : Fin d => idx k) hi ⟨j, hj⟩ _ _ (outerTo_add (fun i => D ⟨j, hj⟩ i ⟨j, hj⟩) Np (-(scale * fe.detJxW))) _ ?_ ?_
        · funext v u
          rw [if_pos rfl]
          ring
        · intro k hk v u
          rw [if_neg (fun h => hk (Fin.ext h.symm))]
      · have e1 := getCol hB ⟨j, hj⟩
        dsimp only at e1
        rw [e1, hp]; rfl)
  refine AddsBlocks.congr (AddsBlocks.of_eq key fun EM => ?_) (fun k v u => diag_sum k _)
  unfold compGradient
  rw [hb.1]

/-- The terms of the convection for equal components, in the convective form. -/
theorem compConvDiag_form (hb : Bases fe N D) (U : Nat → R) (scale : R) (k : Fin d) :
    AddsForm (nn k) (nn k) (fun M => compConvDiag M fe U scale .convective k d)
      (fun v u => scale * fe.detJxW * ∑ l : Fin d, U l * (∑ i, N k i * v i) * ∑ i, D k i l * u i) := by
  unfold compConvDiag
  refine AddsForm.congr (AddsForm.fold (List.range d) _ (fun j v u => if h : j < d then scale * fe.detJxW * (U j * (∑ i, N k i * v i) * ∑ i, D k i ⟨j, h⟩ * u i) else 0) (fun j hj => ?_)) (fun v u => ?_)
  · have hj := List.mem_range.1 hj
    have hB := hb.2 k
    refine AddsForm.congr (AddsForm.of_eq (outerTo_add (N k) (fun i => D k i ⟨j, hj⟩) (scale * fe.detJxW * U j)) fun m E hm => ?_) (fun v u => ?_)
    · show ((fe.grad (k.1+1)).getColumn (j+1)).bind _ = _
      rw [getCol hB ⟨j, hj⟩, hB.values]
      rfl
    · rw [dif_pos hj]
      ring
  · rw [sum_range_fin, Finset.mul_sum]
    exact Finset.sum_congr rfl fun l _ => by rw [dif_pos l.2]

theorem compConvBlock_form (hb : Bases fe N D) (U : Nat → R) (dU : Nat → Nat → R) (scale : R) (k l : Fin d) :
    AddsForm (nn k) (nn l) (fun M => compConvBlock M fe U dU scale .convective k l d)
      (fun v u => scale * fe.detJxW * (dU (k+1) (l+1) * (∑ i, N k i * v i) * (∑ i, N l i * u i) +
        if k = l then (∑ i, N k i * v i) * ∑ m : Fin d, U m * ∑ i, D l i m * u i else 0)) := by
  have hoff : AddsForm (nn k) (nn l) (fun M => compConvOff M fe U dU scale .convective k l)
      (fun v u => scale * fe.detJxW * dU (k+1) (l+1) * (∑ i, N k i * v i) * ∑ i, N l i * u i) := by
    refine AddsForm.of_eq (outerTo_add (N k) (N l) _) fun m E hm => ?_
    show ((fe.grad (k.1+1)).getColumn (l.1+1)).bind _ = _
    rw [getCol (hb.2 k) l, (hb.2 k).values, (hb.2 l).values]
    rfl
  by_cases e : k = l
  · subst e
    refine AddsForm.congr (AddsForm.of_eq (AddsForm.comp hoff (compConvDiag_form hb U scale k)) fun m E hm => ?_) (fun v u => ?_)
    · show (compConvOff m fe U dU scale .convective k k).bind _ = _
      simp only [if_true]
    · have : (∑ l : Fin d, U l * (∑ i, N k i * v i) * ∑ i, D k i l * u i) = (∑ i, N k i * v i) * ∑ m : Fin d, U m * ∑ i, D k i m * u i := by
        rw [Finset.mul_sum]
        exact Finset.sum_congr rfl fun l _ => by ring
      rw [if_pos rfl, this]
      ring
  · refine AddsForm.congr (AddsForm.of_eq hoff fun m E hm => ?_) (fun v u => ?_)
    · show (compConvOff m fe U dU scale .convective k l).bind _ = _
      simp only [if_neg (fun h => e (Fin.ext h))]
      simp
    · rw [if_neg e]
      ring

/-- `Convection` in the convective form adds the transport of the trial component by the current
velocity, plus the current derivative times the trial component. -/
theorem C72_compatible_convection (hb : Bases fe N D) (idx : Nat → Nat → Nat) (hi : Function.Injective fun q : Fin d × Fin d => idx q.1 q.2) (U : Nat → R) (dU : Nat → Nat → R) (scale : R) :
    AddsBlocks (fun q => nn q.1) (fun q => nn q.2) (fun q : Fin d × Fin d => idx q.1 q.2) (fun EM => compConvection EM fe U dU idx scale .convective)
      (fun q v u => scale * fe.detJxW * (dU (q.1+1) (q.2+1) * (∑ i, N q.1 i * v i) * (∑ i, N q.2 i * u i) +
        if q.1 = q.2 then (∑ i, N q.1 i * v i) * ∑ m : Fin d, U m * ∑ i, D q.2 i m * u i else 0)) := by
  have key := AddsBlocks.fold (rr := fun q : Fin d × Fin d => nn q.1) (cc := fun q : Fin d × Fin d => nn q.2) (pos := fun q : Fin d × Fin d => idx q.1 q.2) (pairs d d)
    (fun EM q => atBlock EM (idx q.1 q.2) fun M => compConvBlock M fe U dU scale .convective q.1 q.2 d)
    (fun p q v u => if p.1 = q.1.1 ∧ p.2 = q.2.1 then scale * fe.detJxW * (dU (q.1+1) (q.2+1) * (∑ i, N q.1 i * v i) * (∑ i, N q.2 i * u i) +
        if q.1 = q.2 then (∑ i, N q.1 i * v i) * ∑ m : Fin d, U m * ∑ i, D q.2 i m * u i else 0) else 0)
    (fun p hp => by
      obtain ⟨h1, h2⟩ := (mem_pairs _ _ _).1 hp
      refine atBlock_form (pos := fun q : Fin d × Fin d => idx q.1 q.2) hi (⟨p.1, h1⟩, ⟨p.2, h2⟩) _ _ (compConvBlock_form hb U dU scale ⟨p.1, h1⟩ ⟨p.2, h2⟩) _ ?_ ?_
      · funext v u
        rw [if_pos ⟨rfl, rfl⟩]
      · intro q hq v u
        rw [if_neg (fun h => hq (Prod.ext (Fin.ext h.1.symm) (Fin.ext h.2.symm)))])
  refine AddsBlocks.congr (AddsBlocks.of_eq key fun EM => ?_) (fun q v u => pair_sum q.1 q.2 _)
  unfold compConvection
  rw [hb.1]

theorem blocks_empty {m : Mat R} {r s : Nat} {E : Matrix (Fin r) (Fin s) R} (h : Rep m E) (hr : 0 < r) (hs : 0 < s) : m.elem.isEmpty = false := by
  rw [List.isEmpty_eq_false_iff_exists_mem]
  have := h.size
  have hp : 0 < r * s := Nat.mul_pos hr hs
  exact ⟨m.elem[0], List.getElem_mem (by omega)⟩

/-- `Laplacian` adds the product of the gradients of every component in the diagonal blocks, and
with the stress terms `∂v_k/∂x_l ∂u_l/∂x_k` in every block, provided that the diagonal block of
the component `k` is stored at the position `k`. -/
theorem C72_compatible_laplacian (hb : Bases fe N D) (hn : ∀ k, 0 < nn k) (idx : Nat → Nat → Nat) (hi : Function.Injective fun q : Fin d × Fin d => idx q.1 q.2)
    (hdiag : ∀ k : Fin d, idx k k = k + 1) (scale : R) (str : Bool) :
    AddsBlocks (fun q => nn q.1) (fun q => nn q.2) (fun q : Fin d × Fin d => idx q.1 q.2) (fun EM => compLaplacian EM fe idx scale str)
      (fun q v u => scale * fe.detJxW * ((if q.1 = q.2 then ∑ l : Fin d, (∑ i, D q.1 i l * v i) * ∑ i, D q.2 i l * u i else 0) +
        if str then (∑ i, D q.1 i q.2 * v i) * ∑ i, D q.2 i q.1 * u i else 0)) := by
  let rr : Fin d × Fin d → Nat := fun q => nn q.1
  let cc : Fin d × Fin d → Nat := fun q => nn q.2
  have h1 : AddsBlocks rr cc (fun q : Fin d × Fin d => idx q.1 q.2) (fun EM => (List.range d).foldlM (fun (EM : List (Mat R)) (n : Nat) =>
      atBlock EM (n+1) fun M => laplacian M fe scale false (n+1)) EM)
      (fun q v u => if q.1 = q.2 then scale * fe.detJxW * ∑ l : Fin d, (∑ i, D q.1 i l * v i) * ∑ i, D q.2 i l * u i else 0) := by
    have key := AddsBlocks.fold (rr := rr) (cc := cc) (pos := fun q : Fin d × Fin d => idx q.1 q.2) (List.range d)
      (fun (EM : List (Mat R)) (n : Nat) => atBlock EM (n+1) fun M => laplacian M fe scale false (n+1))
      (fun j q v u => if j = q.1.1 then if q.1 = q.2 then scale * fe.detJxW * ∑ l : Fin d, (∑ i, D q.1 i l * v i) * ∑ i, D q.2 i l * u i else 0 else 0)
      (fun j hj => by
        have hj := List.mem_range.1 hj
        have hB := hb.2 ⟨j, hj⟩
        refine AddsBlocks.of_eq (f := fun EM => atBlock EM (idx j j) fun M => laplacian M fe scale false (j+1)) ?_ (fun EM => by rw [show idx j j = j + 1 from hdiag ⟨j, hj⟩])
        have hd : 0 < d := by omega
        have := cast_form (Nat.mul_one _).symm (Nat.mul_one _).symm (C72_laplacian (c := 1) hB (hn _) (by omega) scale).1
        refine atBlock_form (rr := rr) (cc := cc) (pos := fun q : Fin d × Fin d => idx q.1 q.2) hi (⟨j, hj⟩, ⟨j, hj⟩) _ _ this _ ?_ ?_
        · funext v u
          rw [if_pos rfl, if_pos rfl, Fin.sum_univ_one]
          unfold der
          simp only [nodal_cast]
        · intro q hq v u
          by_cases e1 : j = q.1.1
          · rw [if_pos e1, if_neg]
            intro e2
            exact hq (Prod.ext (Fin.ext e1.symm) (Fin.ext (by rw [← e2]; exact e1.symm)))
          · rw [if_neg e1])
    exact AddsBlocks.congr key (fun q v u => diag_sum q.1 _)
  by_cases hs : str = true
  · subst hs
    have h2 : AddsBlocks rr cc (fun q : Fin d × Fin d => idx q.1 q.2) (fun EM => ((pairs d d).filter fun q => decide (q.1 ≤ q.2)).foldlM
        (fun (EM : List (Mat R)) (q : Nat × Nat) => compStress EM fe idx scale q.1 q.2) EM)
        (fun q v u => scale * fe.detJxW * ((∑ i, D q.1 i q.2 * v i) * ∑ i, D q.2 i q.1 * u i)) := by
      let S : ∀ q : Fin d × Fin d, (Fin (rr q) → R) → (Fin (cc q) → R) → R := fun q v u => scale * fe.detJxW * ((∑ i, D q.1 i q.2 * v i) * ∑ i, D q.2 i q.1 * u i)
      have hone : ∀ (k l : Fin d), AddsBlocks rr cc (fun q : Fin d × Fin d => idx q.1 q.2)
          (fun EM => atBlock EM (idx k l) fun M => if M.elem.isEmpty then some M else outerTo M (List.ofFn fun i => D k i l) (List.ofFn fun i => D l i k) true (scale * fe.detJxW))
          (fun q v u => if q = (k, l) then S q v u else 0) := by
        intro k l
        refine atBlock_form (rr := rr) (cc := cc) (pos := fun q : Fin d × Fin d => idx q.1 q.2) hi (k, l) _ (S (k, l)) ?_ _ (by funext v u; rw [if_pos rfl]) (fun q hq v u => if_neg hq)
        refine AddsForm.congr (AddsForm.of_eq (outerTo_add (fun i => D k i l) (fun i => D l i k) (scale * fe.detJxW)) fun m E hm => ?_) (fun v u => ?_)
        · rw [if_neg (by rw [blocks_empty hm (hn k) (hn l)]; decide)]
        · show _ = scale * fe.detJxW * _
          ring
      have hone' : ∀ (k l : Fin d), AddsBlocks rr cc (fun q : Fin d × Fin d => idx q.1 q.2)
          (fun EM => atBlock EM (idx k l) fun M => outerTo M (List.ofFn fun i => D k i l) (List.ofFn fun i => D l i k) true (scale * fe.detJxW))
          (fun q v u => if q = (k, l) then S q v u else 0) := by
        intro k l
        refine atBlock_form (rr := rr) (cc := cc) (pos := fun q : Fin d × Fin d => idx q.1 q.2) hi (k, l) _ (S (k, l)) ?_ _ (by funext v u; rw [if_pos rfl]) (fun q hq v u => if_neg hq)
        refine AddsForm.congr (outerTo_add (fun i => D k i l) (fun i => D l i k) (scale * fe.detJxW)) (fun v u => ?_)
        show _ = scale * fe.detJxW * _
        ring
      have key := AddsBlocks.fold (rr := rr) (cc := cc) (pos := fun q : Fin d × Fin d => idx q.1 q.2) ((pairs d d).filter fun q => decide (q.1 ≤ q.2))
        (fun (EM : List (Mat R)) (q : Nat × Nat) => compStress EM fe idx scale q.1 q.2)
        (fun p q v u => (if p.1 = q.1.1 ∧ p.2 = q.2.1 then S q v u else 0) + if p.1 ≠ p.2 ∧ p.2 = q.1.1 ∧ p.1 = q.2.1 then S q v u else 0)
        (fun p hp => by
          obtain ⟨h1, h2⟩ := (mem_pairs _ _ _).1 (List.mem_filter.1 hp).1
          have e1 := getCol (hb.2 ⟨p.1, h1⟩) ⟨p.2, h2⟩
          have e2 := getCol (hb.2 ⟨p.2, h2⟩) ⟨p.1, h1⟩
          dsimp only at e1 e2
          by_cases e : p.1 = p.2
          · refine AddsBlocks.congr (AddsBlocks.of_eq (hone' ⟨p.1, h1⟩ ⟨p.2, h2⟩) fun EM => ?_) (fun q v u => ?_)
            · unfold compStress
              rw [e1, e2]
              simp only [Option.bind_eq_bind, Option.bind_some, ne_eq, e, not_true_eq_false, if_false]
              simp
            · rw [if_neg (fun h : p.1 ≠ p.2 ∧ p.2 = q.1.1 ∧ p.1 = q.2.1 => h.1 e), add_zero]
              congr 1
              rw [Prod.ext_iff, Fin.ext_iff, Fin.ext_iff]
              exact propext ⟨fun h => ⟨h.1.symm, h.2.symm⟩, fun h => ⟨h.1.symm, h.2.symm⟩⟩
          · refine AddsBlocks.congr (AddsBlocks.of_eq (AddsBlocks.comp (hone' ⟨p.1, h1⟩ ⟨p.2, h2⟩) (hone ⟨p.2, h2⟩ ⟨p.1, h1⟩)) fun EM => ?_) (fun q v u => ?_)
            · unfold compStress
              rw [e1, e2]
              simp only [Option.bind_eq_bind, Option.bind_some, ne_eq, e, not_false_eq_true, if_true]
            · congr 1
              · congr 1
                rw [Prod.ext_iff, Fin.ext_iff, Fin.ext_iff]
                exact propext ⟨fun h => ⟨h.1.symm, h.2.symm⟩, fun h => ⟨h.1.symm, h.2.symm⟩⟩
              · congr 1
                rw [Prod.ext_iff, Fin.ext_iff, Fin.ext_iff]
                exact propext ⟨fun h => ⟨e, h.1.symm, h.2.symm⟩, fun h => ⟨h.2.1.symm, h.2.2.symm⟩⟩)
      refine AddsBlocks.congr key (fun q v u => ?_)
      rw [show (fun p : Nat × Nat => (if p.1 = q.1.1 ∧ p.2 = q.2.1 then S q v u else 0) + if p.1 ≠ p.2 ∧ p.2 = q.1.1 ∧ p.1 = q.2.1 then S q v u else 0) =
        fun p => _ from rfl, sum_filter]
      show _ = S q v u
      rcases Nat.le_total q.1.1 q.2.1 with hle | hle
      · refine Eq.trans ?_ (pair_sum q.1 q.2 (S q v u))
        congr 1
        apply List.map_congr_left
        intro p hp
        by_cases e : p.1 = q.1.1 ∧ p.2 = q.2.1
        · rw [if_pos (by omega), if_pos e, if_neg (by omega), add_zero]
        · rw [if_neg e]
          by_cases e3 : p.1 ≤ p.2
          · rw [if_pos e3, if_neg (by omega), add_zero]
          · rw [if_neg e3]
      · by_cases heq : q.1.1 = q.2.1
        · refine Eq.trans ?_ (pair_sum q.1 q.2 (S q v u))
          congr 1
          apply List.map_congr_left
          intro p hp
          by_cases e : p.1 = q.1.1 ∧ p.2 = q.2.1
          · rw [if_pos (by omega), if_pos e, if_neg (by omega), add_zero]
          · rw [if_neg e]
            by_cases e3 : p.1 ≤ p.2
            · rw [if_pos e3, if_neg (by omega), add_zero]
            · rw [if_neg e3]
        · refine Eq.trans ?_ (pair_sum q.2 q.1 (S q v u))
          congr 1
          apply List.map_congr_left
          intro p hp
          by_cases e : p.1 = q.2.1 ∧ p.2 = q.1.1
          · rw [if_pos (by omega), if_pos e, if_neg (by omega), if_pos (by omega), zero_add]
          · rw [if_neg e]
            by_cases e3 : p.1 ≤ p.2
            · rw [if_pos e3, if_neg (by omega), if_neg (by omega), add_zero]
            · rw [if_neg e3]
    refine AddsBlocks.congr (AddsBlocks.of_eq (AddsBlocks.comp h1 h2) fun EM => ?_) (fun q v u => ?_)
    · unfold compLaplacian
      rw [hb.1]; rfl
    · rw [if_pos rfl, mul_add, mul_ite, mul_zero]
  · refine AddsBlocks.congr (AddsBlocks.of_eq h1 fun EM => ?_) (fun q v u => ?_)
    · unfold compLaplacian
      rw [hb.1]
      simp [hs]
    · rw [if_neg hs, add_zero, mul_ite, mul_zero]

end IFEM.Props
