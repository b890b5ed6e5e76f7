import Verif.Props.WeakCompat
import Mathlib.Algebra.Field.Rat
/-!
# C72: element vectors with one basis per component, examples and defects
-/
namespace IFEM.Props
open IFEM IFEM.Spec IFEM.Spec.Weak IFEM.Lem IFEM.Mat IFEM.Weak

variable {R : Type} [Field R] {d : Nat} {fe : FE R} {nn : Fin d → Nat} {N : ∀ k, Fin (nn k) → R} {D : ∀ k, Matrix (Fin (nn k)) (Fin d) R}

/-- A loop over the components, each of which changes its own vector. -/
theorem vecs_loop (idx : Nat → Nat) (hi : Function.Injective fun k : Fin d => idx k) (f : Nat → List R → Option (List R)) (T : ∀ k : Fin d, (Fin (nn k) → R) → R)
    (hf : ∀ k : Fin d, AddsVec (nn k) (f k) (T k)) :
    AddsVecs nn (fun k : Fin d => idx k) (fun EV => (List.range d).foldlM (fun EV k => atBlock EV (idx k) (f k)) EV) T := by
  suffices h : ∀ c, c ≤ d → ∀ (EV : List (List R)) (e : ∀ k : Fin d, Fin (nn k) → R), (∀ k : Fin d, EV[idx k]? = some (List.ofFn (e k))) →
      ∃ EV', (List.range c).foldlM (fun EV k => atBlock EV (idx k) (f k)) EV = some EV' ∧ (∀ p, (∀ k : Fin d, idx k ≠ p) → EV'[p]? = EV[p]?) ∧
        ∀ k : Fin d, ∃ e', EV'[idx k]? = some (List.ofFn e') ∧ ∀ v, lin e' v = lin (e k) v + if k.1 < c then T k v else 0 by
    intro EV e hE
    obtain ⟨EV', a, b, hh⟩ := h d (le_refl _) EV e hE
    refine ⟨EV', a, b, fun k => ?_⟩
    obtain ⟨e', h1, h2⟩ := hh k
    exact ⟨e', h1, fun v => by rw [h2, if_pos k.2]⟩
  intro c
  induction c with
  | zero =>
    intro _ EV e hE
    exact ⟨EV, rfl, fun _ _ => rfl, fun k => ⟨e k, hE k, fun v => by simp⟩⟩
  | succ c ih =>
    intro hc EV e hE
    obtain ⟨EV1, a1, b1, h1⟩ := ih (by omega) EV e hE
    choose e1 g1 g2 using h1
    obtain ⟨e2, k1, k2⟩ := hf ⟨c, by omega⟩ (e1 ⟨c, by omega⟩)
    have hg := g1 ⟨c, by omega⟩
    dsimp only at hg k1
    refine ⟨EV1.set (idx c) (List.ofFn e2), ?_, fun p hp => ?_, fun k => ?_⟩
    · rw [List.range_succ, List.foldlM_append, a1]
      simp only [Option.bind_eq_bind, Option.bind_some, List.foldlM_cons, List.foldlM_nil, atBlock, hg, k1]
      rfl
    · rw [List.getElem?_set_ne (hp ⟨c, by omega⟩), b1 p hp]
    · by_cases ek : k.1 = c
      · subst ek
        refine ⟨e2, ?_, fun v => ?_⟩
        · rw [List.getElem?_set_self]
          exact (List.getElem?_eq_some_iff.1 hg).1
        · rw [k2, g2, if_neg (by simp), if_pos (by simp), add_zero]
      · refine ⟨e1 k, ?_, fun v => ?_⟩
        · rw [List.getElem?_set_ne, g1]
          intro h
          exact ek (congrArg Fin.val (hi (a₁ := k) (a₂ := ⟨c, by omega⟩) h.symm))
        · rw [g2]
          congr 1
          by_cases h' : k.1 < c
          · rw [if_pos h', if_pos (by omega)]
          · rw [if_neg h', if_neg (by omega)]

theorem AddsVecs.of_eq {ι : Type} {rr : ι → Nat} {pos : ι → Nat} {f g : List (List R) → Option (List (List R))} {T : ∀ i, (Fin (rr i) → R) → R} (h : AddsVecs rr pos f T)
    (e : ∀ m, g m = f m) : AddsVecs rr pos g T := by
  rw [show g = f from funext e]; exact h

theorem foldlM_congr_mem {X Y : Type} (L : List X) (f g : Y → X → Option Y) (h : ∀ x ∈ L, ∀ y, f y x = g y x) (y : Y) : L.foldlM f y = L.foldlM g y := by
  induction L generalizing y with
  | nil => rfl
  | cons x L ih =>
    rw [List.foldlM_cons, List.foldlM_cons, h x List.mem_cons_self]
    congr 1
    funext z
    exact ih (fun x hx => h x (List.mem_cons_of_mem _ hx)) z

/-- `Source` adds the component of the source times the component of the test field. -/
theorem C72_compatible_source (hb : Bases fe N D) (hn : ∀ k, 0 < nn k) (idx : Nat → Nat) (hi : Function.Injective fun k : Fin d => idx k) (f : Nat → R) (scale : R) :
    AddsVecs nn (fun k : Fin d => idx k) (fun EV => compSource EV fe f idx scale) (fun k v => scale * fe.detJxW * (f k * ∑ i, N k i * v i)) := by
  refine AddsVecs.of_eq (vecs_loop idx hi (fun k E => some (source E fe (scale * f k) 1 (k+1))) _ fun k => ?_) fun EV => ?_
  · refine AddsVec.congr (AddsVec.of_eq (addStr_one (hn k) (N k) (scale * f k * fe.detJxW)) fun e => ?_) (fun v => by ring)
    congr 1
    unfold source
    have : vcmp (List.ofFn e) fe (k.1+1) = 1 := by
      unfold vcmp
      rw [List.length_ofFn, (hb.2 k).values, List.length_ofFn, Nat.div_self (hn k)]
    rw [this, if_pos ⟨rfl, rfl⟩, (hb.2 k).values]
  · unfold compSource
    rw [hb.1]

/-- `Residual::Gradient` adds the derivative of every component in its own direction. -/
theorem C72_compatible_residual_gradient (hb : Bases fe N D) (hn : ∀ k, 0 < nn k) (idx : Nat → Nat) (hi : Function.Injective fun k : Fin d => idx k) (scale : R) :
    AddsVecs nn (fun k : Fin d => idx k) (fun EV => compResGradient EV fe idx scale) (fun k v => scale * fe.detJxW * ∑ i, D k i k * v i) := by
  refine AddsVecs.of_eq (vecs_loop idx hi (fun k E => ((fe.grad (k+1)).getColumn (k+1)).bind fun Dk => some (addStr E Dk (scale * fe.detJxW) 0 1)) _ fun k => ?_) fun EV => ?_
  · refine AddsVec.of_eq (addStr_one (hn k) (fun i => D k i k) (scale * fe.detJxW)) fun e => ?_
    rw [getCol (hb.2 k) k]; rfl
  · unfold compResGradient
    rw [hb.1]
    refine foldlM_congr_mem _ _ _ (fun k hk EV => ?_) EV
    have hk := List.mem_range.1 hk
    have e1 := getCol (hb.2 ⟨k, hk⟩) ⟨k, hk⟩
    dsimp only at e1
    rw [e1]; rfl

/-- `Residual::Laplacian` subtracts the product of the gradients, with the stress terms the
product with the symmetric gradient. -/
theorem C72_compatible_residual_laplacian (hb : Bases fe N D) (hn : ∀ k, 0 < nn k) (idx : Nat → Nat) (hi : Function.Injective fun k : Fin d => idx k) (dU : Nat → Nat → R) (scale : R) (str : Bool) :
    AddsVecs nn (fun k : Fin d => idx k) (fun EV => compResLaplacian EV fe dU idx scale str)
      (fun k v => -(scale * fe.detJxW * ∑ l : Fin d, (∑ i, D k i l * v i) * (dU (k+1) (l+1) + if str then dU (l+1) (k+1) else 0))) := by
  have hdiff : ∀ k : Fin d, lapDiff (fe.grad (k.1+1)) ((List.range d).map fun l => dU (k.1+1) (l+1)) ((List.range d).map fun l => dU (l+1) (k.1+1)) str =
      some (List.ofFn fun i => ∑ l : Fin d, D k i l * (dU (k+1) (l+1) + if str then dU (l+1) (k+1) else 0)) := by
    intro k
    rw [range_ofFn, range_ofFn, lapDiff_eq (hb.2 k) (hn k) (by have := k.2; omega)]
  refine AddsVecs.of_eq (vecs_loop idx hi (fun k E => (lapDiff (fe.grad (k+1)) ((List.range d).map fun l => dU (k+1) (l+1)) ((List.range d).map fun l => dU (l+1) (k+1)) str).bind
    fun diff => some (addStr E diff (-(scale * fe.detJxW)) 0 1)) _ fun k => ?_) fun EV => ?_
  · refine AddsVec.congr (AddsVec.of_eq (addStr_one (hn k) (fun i => ∑ l : Fin d, D k i l * (dU (k+1) (l+1) + if str then dU (l+1) (k+1) else 0)) (-(scale * fe.detJxW))) fun e => ?_) (fun v => ?_)
    · rw [hdiff k]; rfl
    · rw [neg_mul]
      congr 2
      simp only [Finset.sum_mul]
      rw [Finset.sum_comm]
      exact Finset.sum_congr rfl fun l _ => Finset.sum_congr rfl fun i _ => by ring
  · unfold compResLaplacian
    rw [hb.1]
    refine foldlM_congr_mem _ _ _ (fun k hk EV => ?_) EV
    have hk := List.mem_range.1 hk
    have e1 := hdiff ⟨k, hk⟩
    dsimp only at e1
    rw [e1]; rfl

theorem compFlux_form (hb : Bases fe N D) (U UC : Nat → R) (coef : R) (k : Fin d) :
    AddsVec (nn k) (fun E => compFlux E fe U UC coef k d) (fun v => coef * ∑ l : Fin d, U k * UC l * ∑ i, D k i l * v i) := by
  unfold compFlux
  rw [(hb.2 k).values, List.length_ofFn]
  refine AddsVec.congr (addEntriesV (List.range (nn k)) _ (fun i => i) (fun i => if h : i < nn k then (∑ l : Fin d, U k * UC l * D k ⟨i, h⟩ l) * coef else 0)
    (fun i hi => List.mem_range.1 hi) (fun e i hi => ?_)) (fun v => ?_)
  · have hi := List.mem_range.1 hi
    rw [C60_getRow (hb.2 k).grads ⟨i, hi⟩, dif_pos hi]
    have hget : (List.ofFn e)[i]? = some (e ⟨i, hi⟩) := by rw [List.getElem?_ofFn, dif_pos hi]
    rw [← set_modify (List.ofFn e) _ _ _ hget]
    simp only [Option.bind_eq_bind, Option.bind_some, hget]
    rw [sum_range_fin]
    simp only [ofFn_getD]
  · rw [sum_range_fin]
    have : ∀ i : Fin (nn k), (if h : i.1 < nn k then v ⟨i.1, h⟩ * (if h : i.1 < nn k then (∑ l : Fin d, U k * UC l * D k ⟨i.1, h⟩ l) * coef else 0) else 0) =
        ∑ l : Fin d, coef * (U k * UC l * (D k i l * v i)) := by
      intro i
      rw [dif_pos i.2, dif_pos i.2, Finset.sum_mul, Finset.mul_sum]
      exact Finset.sum_congr rfl fun l _ => by ring
    rw [Finset.sum_congr rfl fun i _ => this i, Finset.sum_comm, Finset.mul_sum]
    refine Finset.sum_congr rfl fun l _ => ?_
    rw [Finset.mul_sum, Finset.mul_sum]

/-- `Residual::Convection` subtracts the transport of every component by the given velocity. -/
theorem C72_compatible_residual_convection (hb : Bases fe N D) (hn : ∀ k, 0 < nn k) (idx : Nat → Nat) (hi : Function.Injective fun k : Fin d => idx k)
    (U : Nat → R) (dU : Nat → Nat → R) (UC : Nat → R) (scale : R) (form : Form) :
    AddsVecs nn (fun k : Fin d => idx k) (fun EV => compResConvection EV fe U dU UC idx scale form)
      (fun k v => -(scale * fe.detJxW * transport1 form (fun l : Fin d => UC l) (U k) (fun l => dU (k+1) (l+1)) (∑ i, N k i * v i) (fun l => ∑ i, D k i l * v i))) := by
  refine AddsVecs.of_eq (vecs_loop idx hi (fun k E => compResConvBlock E fe U dU UC scale form k d) _ fun k => ?_) fun EV => ?_
  · have hadd : ∀ a : R, AddsVec (nn k) (fun E => some (addStr E (fe.basis (k.1+1)) (scale * ((List.range d).map fun l => -(UC l) * dU (k+1) (l+1)).sum * fe.detJxW * a) 0 1))
        (fun v => -(scale * fe.detJxW * a * ∑ l : Fin d, UC l * dU (k+1) (l+1) * ∑ i, N k i * v i)) := by
      intro a
      refine AddsVec.congr (AddsVec.of_eq (addStr_one (hn k) (N k) (scale * ((List.range d).map fun l => -(UC l) * dU (k+1) (l+1)).sum * fe.detJxW * a)) fun e => ?_) (fun v => ?_)
      · rw [(hb.2 k).values]
      · rw [sum_range_fin, ← Finset.sum_mul]
        simp only [neg_mul, Finset.sum_neg_distrib]
        ring
    cases form with
    | convective =>
      refine AddsVec.congr (AddsVec.of_eq (hadd 1) fun e => ?_) (fun v => ?_)
      · show some (addStr _ _ _ 0 1) = _
        rw [mul_one]
      · unfold transport1 transport
        simp only [Fin.sum_univ_one, mul_one]
    | conservative =>
      refine AddsVec.congr (AddsVec.of_eq (compFlux_form hb U UC (scale * fe.detJxW) k) fun e => rfl) (fun v => ?_)
      unfold transport1 transport
      simp only [Fin.sum_univ_one]
      rw [mul_neg, neg_neg]
      congr 1
      exact Finset.sum_congr rfl fun l _ => by ring
    | skew =>
      refine AddsVec.congr (AddsVec.of_eq (AddsVec.comp (hadd (1/2)) (compFlux_form hb U UC (scale * fe.detJxW / 2) k)) fun e => ?_) (fun v => ?_)
      · show compFlux (addStr _ _ _ 0 1) fe U UC _ k d = _
        simp only [Option.bind_some]
        congr 2
        ring
      · unfold transport1 transport
        simp only [Fin.sum_univ_one]
        have : (∑ l : Fin d, U k * UC l * ∑ i, D k i l * v i) = ∑ l : Fin d, UC l * (∑ i, D k i l * v i) * U k :=
          Finset.sum_congr rfl fun l _ => by ring
        rw [this]
        ring
  · unfold compResConvection
    rw [hb.1]

end IFEM.Props
