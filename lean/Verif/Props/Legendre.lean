import Verif.Lemmas.LegendreEig
import Verif.Lemmas.LegendreEval
import Verif.Lemmas.FELookup

/-!
# C65: integration rules of spectral elements
-/
namespace IFEM.Props
open Polynomial IFEM.Spec IFEM.Legendre

/-- **C65** (values). For every degree from one and every point of `[-1,1]`, the value and the derivative of the Legendre polynomial are computed.  Everything else is refused. -/
theorem C65_values (n : Int) (x : ℝ) :
    (1 ≤ n → -1 ≤ x → x ≤ 1 → IFEM.Legendre.eval n x = some ((legendre n.toNat).eval x) ∧ derEval n x = some ((derivative (legendre n.toNat)).eval x)) ∧
    ((n < 1 ∨ x < -1 ∨ 1 < x) → IFEM.Legendre.eval n x = none ∧ derEval n x = none) := by
  refine ⟨fun h h1 h2 => ?_, fun h => ?_⟩
  · obtain ⟨m, rfl⟩ : ∃ m : Nat, n = (m : Int) := ⟨n.toNat, by omega⟩
    rw [Int.toNat_natCast]
    exact ⟨eval_ok m (by omega) x h1 h2, derEval_ok m (by omega) x h1 h2⟩
  · unfold IFEM.Legendre.eval derEval
    by_cases hn : n < 1
    · rw [if_pos hn, if_pos hn]; exact ⟨rfl, rfl⟩
    · have hx : x < -1 ∨ x > 1 := by rcases h with h | h | h; exacts [absurd h hn, .inl h, .inr h]
      rw [if_neg hn, if_neg hn, if_pos hx, if_pos hx]; exact ⟨rfl, rfl⟩

/-- A solver for eigenvalue problems: if it succeeds, it returns all eigenvalues of the matrix. -/
def EigSolver (eig : Nat → (Nat → Nat → ℝ) → Option (List ℝ × List ℝ)) : Prop :=
  ∀ n A re im, eig n A = some (re, im) → Eigenvalues (leading n A) re im

theorem getD_eq {l : List ℝ} {i : Nat} (h : i < l.length) : l.getD i 0 = l[i] := by rw [List.getD_eq_getElem?_getD, List.getElem?_eq_getElem h, Option.getD_some]

theorem GL_spec (eig : Nat → (Nat → Nat → ℝ) → Option (List ℝ × List ℝ)) (he : EigSolver eig) (n : Nat) (hn : 3 ≤ n) (re im : List ℝ)
    (hs : eig n (glMatrix n) = some (re, im)) :
    ∃ x, gaussGL eig n = some (x.map fun a => 2/((1 - a*a) * (derivative (legendre n)).eval a ^ 2), x) ∧ x.length = n ∧ x.Pairwise (· < ·) ∧ ∀ a ∈ x, (legendre n).eval a = 0 := by
  obtain ⟨l1, l2, l3⟩ := gl_eig n hn re im (he n _ re im hs)
  have hperm := List.mergeSort_perm re (fun a b => decide (a ≤ b))
  refine ⟨re.mergeSort (fun a b => decide (a ≤ b)), ?_, by rw [hperm.length_eq, l1], ?_, fun a ha => l3 a (hperm.mem_iff.1 ha)⟩
  · unfold gaussGL
    rw [if_neg (by omega), Int.toNat_natCast, hs]
    simp only [Option.bind_eq_bind, Option.bind_some]
    rw [mapM_some _ _ (fun a => 2/((1 - a*a) * (derivative (legendre n)).eval a ^ 2))]
    · rfl
    · intro a ha
      have := root_inside n a (l3 a (hperm.mem_iff.1 ha))
      rw [derEval_ok n (by omega) a this.1.le this.2.le]
      simp only [Option.bind_some]
      congr 1; ring
  · have hp : (re.mergeSort (fun a b => decide (a ≤ b))).Pairwise (· ≤ ·) := List.pairwise_mergeSort' (· ≤ ·) re
    have hnd : (re.mergeSort (fun a b => decide (a ≤ b))).Nodup := hperm.nodup_iff.2 l2
    exact (hp.and hnd).imp fun h => lt_of_le_of_ne h.1 h.2

/-- **C65** (Gauss). For every number of points from three the rule is the one of Gauss: increasing points inside of the interval, positive weights, and all polynomials of degree
less than twice the number of points are integrated exactly.  The rule is only refused if the eigenvalue solver fails, or for less than two points. -/
theorem C65_gauss (eig : Nat → (Nat → Nat → ℝ) → Option (List ℝ × List ℝ)) (he : EigSolver eig) (n : Int) :
    (n < 2 → gaussGL eig n = none) ∧ ((∀ m A, (eig m A).isSome) → 2 ≤ n → n ≠ 2 → (gaussGL eig n).isSome) ∧
    (3 ≤ n → ∀ w x, gaussGL eig n = some (w, x) → GaussRule n.toNat 0 x w ∧
      ∀ f : ℝ[X], f.natDegree < 2*n.toNat → (∑ i ∈ Finset.range n.toNat, w.getD i 0 * f.eval (x.getD i 0)) = ∫ s in (-1 : ℝ)..1, f.eval s) := by
  refine ⟨fun h => by unfold gaussGL; rw [if_pos h], fun h h1 h2 => ?_, fun h w x hw => ?_⟩
  · obtain ⟨m, rfl⟩ : ∃ m : Nat, n = (m : Int) := ⟨n.toNat, by omega⟩
    obtain ⟨⟨re, im⟩, hs⟩ := Option.isSome_iff_exists.1 (h m (glMatrix m))
    obtain ⟨x, hx, _⟩ := GL_spec eig he m (by omega) re im hs
    rw [hx]; rfl
  · obtain ⟨m, rfl⟩ : ∃ m : Nat, n = (m : Int) := ⟨n.toNat, by omega⟩
    rw [Int.toNat_natCast]
    have hs : ∃ re im, eig m (glMatrix m) = some (re, im) := by
      unfold gaussGL at hw
      rw [if_neg (by omega), Int.toNat_natCast] at hw
      cases hq : eig m (glMatrix m) with
      | none => rw [hq] at hw; exact absurd hw (by simp)
      | some ab => exact ⟨ab.1, ab.2, rfl⟩
    obtain ⟨re, im, hs⟩ := hs
    obtain ⟨x', hx', hl, hp, hr⟩ := GL_spec eig he m (by omega) re im hs
    rw [hw, Option.some.injEq, Prod.mk.injEq] at hx'
    obtain ⟨rfl, rfl⟩ := hx'
    obtain ⟨N, rfl⟩ : ∃ N, m = N+1 := ⟨m-1, by omega⟩
    have hmem : ∀ i, i < N+1 → x.getD i 0 ∈ x := fun i hi => by rw [getD_eq (by omega)]; exact List.getElem_mem _
    have hinc : ∀ i j, i < j → j < N+1 → x.getD i 0 < x.getD j 0 := fun i j hij hj => by
      rw [getD_eq (by omega), getD_eq (by omega)]
      exact List.pairwise_iff_getElem.1 hp i j (by omega) (by omega) hij
    have hinj : Function.Injective (fun i : Fin (N+1) => x.getD i 0) := by
      intro i j hij
      rcases lt_trichotomy i.1 j.1 with h | h | h
      · exact absurd hij (hinc i j h j.2).ne
      · exact Fin.ext h
      · exact absurd hij (hinc j i h i.2).ne'
    have hwt : ∀ i, i < N+1 → (x.map fun a => 2/((1 - a*a) * (derivative (legendre (N+1))).eval a ^ 2)).getD i 0 =
        2/((1 - x.getD i 0 * x.getD i 0) * (derivative (legendre (N+1))).eval (x.getD i 0) ^ 2) := fun i hi => by
      rw [getD_eq (by rw [List.length_map]; omega), List.getElem_map, getD_eq (by omega)]
    have hex : ∀ f : ℝ[X], f.natDegree < 2*(N+1) → (∑ i ∈ Finset.range (N+1), (x.map fun a => 2/((1 - a*a) * (derivative (legendre (N+1))).eval a ^ 2)).getD i 0 *
        f.eval (x.getD i 0)) = ∫ s in (-1 : ℝ)..1, f.eval s := fun f hf => by
      have := gauss_exact N (fun i => x.getD i 0) hinj (fun i => hr _ (hmem i i.2)) f (by omega)
      unfold J at this
      rw [← this, Finset.sum_range]
      exact Finset.sum_congr rfl fun i _ => by rw [hwt i i.2]
    refine ⟨⟨hl, by rw [List.length_map, hl], fun i hi => root_inside _ _ (hr _ (hmem i hi)), hinc, fun i hi => ?_, fun k hk => ?_⟩, hex⟩
    · rw [hwt i hi]
      exact div_pos two_pos (gauss_den_pos N _ (hr _ (hmem i hi)))
    · have := hex (X^k) (by rw [natDegree_X_pow]; exact hk)
      simp only [eval_pow, eval_X] at this
      rw [this]; simp

/-- Solvers exist: every real matrix has its complex eigenvalues. -/
theorem eigSolver_exists : ∃ eig, EigSolver eig ∧ ∀ m A, (eig m A).isSome := by
  have h : ∀ (m : Nat) (A : Nat → Nat → ℝ), ∃ ri : List ℝ × List ℝ, Eigenvalues (leading m A) ri.1 ri.2 := by
    intro m A
    set B := (leading m A).map (fun a : ℝ => (a : ℂ)) with hB
    have hs : B.charpoly.Splits := IsAlgClosed.splits _
    have hm := hs.eq_prod_roots_of_monic (Matrix.charpoly_monic B)
    have hc : Multiset.card B.charpoly.roots = m := by rw [IsAlgClosed.card_roots_eq_natDegree, Matrix.charpoly_natDegree_eq_dim, Fintype.card_fin]
    set l := B.charpoly.roots.toList with hl
    have hlen : l.length = m := by rw [hl, Multiset.length_toList, hc]
    refine ⟨(l.map Complex.re, l.map Complex.im), by simp [hlen], by simp [hlen], ?_⟩
    rw [← hB, hm]
    have e : ((l.map Complex.re).zip (l.map Complex.im)).map (fun ab : ℝ × ℝ => (X - C ((ab.1 : ℂ) + ab.2 * Complex.I) : ℂ[X])) = l.map (fun z => X - C z) := by
      rw [List.zip_map', List.map_map]
      refine List.map_congr_left fun z _ => ?_
      simp only [Function.comp]
      rw [Complex.re_add_im]
    simp only
    rw [e, ← Multiset.prod_coe, ← Multiset.map_coe, hl, Multiset.coe_toList]
  choose f hf using h
  exact ⟨fun m A => some (f m A), fun n A re im h => by rw [Option.some.injEq] at h; have := hf n A; rw [h] at this; exact this, fun _ _ => rfl⟩

theorem gl_two (re im : List ℝ) (h2 : Eigenvalues (leading 2 (glMatrix 2)) re im) : re.mergeSort (fun a b => decide (a ≤ b)) = [0, 0] := by
  obtain ⟨l1, l2, hp⟩ := h2
  have l1 : re.length = 2 := l1
  have l2 : im.length = 2 := l2
  obtain ⟨r1, r2, rfl⟩ := List.length_eq_two.1 l1
  obtain ⟨i1, i2, rfl⟩ := List.length_eq_two.1 l2
  have hc : ((leading 2 (glMatrix 2)).map (fun a : ℝ => (a : ℂ))).charpoly = X^2 := by
    rw [Matrix.charpoly_fin_two, Matrix.trace_fin_two, Matrix.det_fin_two]
    simp [leading, glMatrix, setE]
  have hp : ((leading 2 (glMatrix 2)).map (fun a : ℝ => (a : ℂ))).charpoly = _ := hp
  rw [hc] at hp
  simp only [List.zip_cons_cons, List.zip_nil_left, List.map_cons, List.map_nil, List.prod_cons, List.prod_nil, mul_one] at hp
  have e1 := congrArg (Polynomial.eval ((r1 : ℂ) + i1 * Complex.I)) hp
  have e2 := congrArg (Polynomial.eval ((r2 : ℂ) + i2 * Complex.I)) hp
  simp only [eval_pow, eval_X, eval_mul, eval_sub, eval_C, sub_self, zero_mul, mul_zero] at e1 e2
  have z1 := congrArg Complex.re (pow_eq_zero_iff (two_ne_zero) |>.1 e1)
  have z2 := congrArg Complex.re (pow_eq_zero_iff (two_ne_zero) |>.1 e2)
  simp at z1 z2
  subst z1 z2
  exact List.mergeSort_eq_self (r := (· ≤ ·)) (by simp)

/-- **C65** (two points). Counterexample: one element of the matrix is missing for two points, so both points are in the origin and no two-point rule of Gauss comes out. -/
theorem C65_two_points_counterexample (eig : Nat → (Nat → Nat → ℝ) → Option (List ℝ × List ℝ)) (he : EigSolver eig) (w x : List ℝ) (h : gaussGL eig 2 = some (w, x)) :
    x = [0, 0] ∧ ∀ δ, ¬ GaussRule 2 δ x w := by
  have hx : x = [0, 0] := by
    unfold gaussGL at h
    rw [if_neg (by omega)] at h
    cases hq : eig (2:ℤ).toNat (glMatrix (2:ℤ).toNat) with
    | none => rw [hq] at h; exact absurd h (by simp)
    | some ab =>
      obtain ⟨re, im⟩ := ab
      have h2 := he _ _ _ _ hq
      rw [hq] at h
      simp only [Option.bind_eq_bind, Option.bind_some] at h
      obtain ⟨a, -, ha⟩ := Option.bind_eq_some_iff.1 h
      rw [Option.some.injEq, Prod.mk.injEq] at ha
      rw [← ha.2]
      exact gl_two re im h2
  refine ⟨hx, fun δ hg => ?_⟩
  have := hg.increasing 0 1 (by omega) (by omega)
  rw [hx] at this
  simp at this

end IFEM.Props
