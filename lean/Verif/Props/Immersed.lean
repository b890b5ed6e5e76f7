import Verif.Lemmas.Immersed
import Mathlib.Algebra.Order.BigOperators.Group.List
import Mathlib.Tactic.NormNum
import Mathlib.Algebra.Polynomial.Degree.Lemmas

/-!
# C80: integration points of elements that are cut by a geometry
-/
namespace IFEM.Immersed
open IFEM.Immersed.Spec
variable {K : Type} [Field K] [LinearOrder K] [IsStrictOrderedRing K]

/-- **C80.** The integration points of an element are, in some order, those Gauss points of the quadtree of the element that are inside the geometry. -/
theorem C80_quadtree (E : Elm K) (rule : List (K × K)) (m : Int) :
    ∃ l, quadrature E (some rule) m = some l ∧ l.Perm ((allPoints E rule m.toNat).filter fun g => E.alpha (image E g.1 g.2.1) > 0) := by
  refine ⟨_, rfl, ?_⟩
  have h := below_leaves E m.toNat (good0 E)
  have p := levels_below E m.toNat
  unfold cells allPoints
  refine (List.Perm.flatMap_right _ p).trans ?_
  have e : (below E m.toNat (cell0 E)).flatMap (cellPoints E rule) =
      ((below E m.toNat (cell0 E)).map fun c => (c.depth, c.xi, c.eta)).flatMap (fun c => (scaled rule c).filter fun g => E.alpha (image E g.1 g.2.1) > 0) := by
    rw [List.flatMap_def, List.flatMap_def, List.map_map, List.map_congr_left fun c hc => cellPoints_eq (rule := rule) (h.2 c hc)]
    rfl
  rw [e, ← List.filter_flatMap]
  exact (List.Perm.flatMap_right _ h.1).filter _

/-- Without a Gauss rule there is no result. -/
theorem C80_no_rule (E : Elm K) (m : Int) : quadrature E none m = none := rfl

/-! ## The quadtree -/

/-- A cell of the quadtree below `(d, ξ, η)` is inside that cell; it is not cut unless it is at the largest depth. -/
theorem leaves_mem (E : Elm K) (n d : Nat) (ξ η : K) : ∀ c ∈ leaves E n d ξ η, d ≤ c.1 ∧ c.1 ≤ d+n ∧ (c.1 < d+n → ¬ Cut E c.1 c.2.1 c.2.2) ∧
    ξ - half K d ≤ c.2.1 - half K c.1 ∧ c.2.1 + half K c.1 ≤ ξ + half K d ∧ η - half K d ≤ c.2.2 - half K c.1 ∧ c.2.2 + half K c.1 ≤ η + half K d := by
  induction n generalizing d ξ η with
  | zero =>
    intro c hc
    simp only [leaves, List.mem_singleton] at hc
    subst hc
    refine ⟨le_refl _, by simp, fun h => by simp at h, le_refl _, le_refl _, le_refl _, le_refl _⟩
  | succ n ih =>
    intro c hc
    rw [leaves] at hc
    have hh := half_succ (K := K) d
    have hp := half_pos (K := K) (d+1)
    split at hc
    · simp only [List.mem_append] at hc
      rcases hc with ((hc | hc) | hc) | hc <;>
      · obtain ⟨h1, h2, h3, h4, h5, h6, h7⟩ := ih _ _ _ c hc
        exact ⟨by omega, by omega, fun h => h3 (by omega), by linarith, by linarith, by linarith, by linarith⟩
    · rename_i hcut
      simp only [List.mem_singleton] at hc
      subst hc
      exact ⟨le_refl _, by simp, fun _ => hcut, le_refl _, le_refl _, le_refl _, le_refl _⟩

/-- A function of cells that is additive has the same sum over the quadtree as at its root. -/
theorem leaves_sum (E : Elm K) (F : Nat × K × K → K) (hF : ∀ d ξ η, F (d, ξ, η) = F (d+1, ξ - half K (d+1), η - half K (d+1)) + F (d+1, ξ + half K (d+1), η - half K (d+1)) +
      F (d+1, ξ + half K (d+1), η + half K (d+1)) + F (d+1, ξ - half K (d+1), η + half K (d+1))) (n d : Nat) (ξ η : K) : ((leaves E n d ξ η).map F).sum = F (d, ξ, η) := by
  induction n generalizing d ξ η with
  | zero => simp [leaves]
  | succ n ih =>
    rw [leaves]
    split
    · simp only [List.map_append, List.sum_append, ih]
      rw [hF d]
    · simp

theorem leaves_length (E : Elm K) (n d : Nat) (ξ η : K) : (leaves E n d ξ η).length ≤ 4^n := by
  induction n generalizing d ξ η with
  | zero => simp [leaves]
  | succ n ih =>
    rw [leaves]
    split
    · simp only [List.length_append]
      have h1 := ih (d+1) (ξ - half K (d+1)) (η - half K (d+1))
      have h2 := ih (d+1) (ξ + half K (d+1)) (η - half K (d+1))
      have h3 := ih (d+1) (ξ + half K (d+1)) (η + half K (d+1))
      have h4 := ih (d+1) (ξ - half K (d+1)) (η + half K (d+1))
      rw [pow_succ]
      omega
    · simpa using Nat.one_le_pow _ _ (by omega)

/-- The cells cover the square: every point of it is in a cell. -/
theorem leaves_cover (E : Elm K) (n d : Nat) (ξ η x y : K) (h : ξ - half K d ≤ x ∧ x ≤ ξ + half K d ∧ η - half K d ≤ y ∧ y ≤ η + half K d) :
    ∃ c ∈ leaves E n d ξ η, c.2.1 - half K c.1 ≤ x ∧ x ≤ c.2.1 + half K c.1 ∧ c.2.2 - half K c.1 ≤ y ∧ y ≤ c.2.2 + half K c.1 := by
  induction n generalizing d ξ η with
  | zero => exact ⟨(d, ξ, η), by simp [leaves], h⟩
  | succ n ih =>
    rw [leaves]
    split
    · have hh := half_succ (K := K) d
      obtain ⟨a, b, c, e⟩ := h
      simp only [List.mem_append]
      rcases le_total x ξ with hx | hx <;> rcases le_total y η with hy | hy
      · obtain ⟨k, hk, hk'⟩ := ih (d+1) (ξ - half K (d+1)) (η - half K (d+1)) ⟨by linarith, by linarith, by linarith, by linarith⟩
        exact ⟨k, .inl (.inl (.inl hk)), hk'⟩
      · obtain ⟨k, hk, hk'⟩ := ih (d+1) (ξ - half K (d+1)) (η + half K (d+1)) ⟨by linarith, by linarith, by linarith, by linarith⟩
        exact ⟨k, .inr hk, hk'⟩
      · obtain ⟨k, hk, hk'⟩ := ih (d+1) (ξ + half K (d+1)) (η - half K (d+1)) ⟨by linarith, by linarith, by linarith, by linarith⟩
        exact ⟨k, .inl (.inl (.inr hk)), hk'⟩
      · obtain ⟨k, hk, hk'⟩ := ih (d+1) (ξ + half K (d+1)) (η + half K (d+1)) ⟨by linarith, by linarith, by linarith, by linarith⟩
        exact ⟨k, .inl (.inr hk), hk'⟩
    · exact ⟨(d, ξ, η), by simp, h⟩

/-- **C80, the cells**: they cover the bi-unit square, stay in it, are never divided more often than asked for, and only cells that are not cut are left undivided before that; their areas add
up to the area of the square. -/
theorem C80_cells (E : Elm K) (m : Nat) :
    (∀ c ∈ leaves E m 0 0 0, c.1 ≤ m ∧ (c.1 < m → ¬ Cut E c.1 c.2.1 c.2.2) ∧ -1 ≤ c.2.1 - half K c.1 ∧ c.2.1 + half K c.1 ≤ 1 ∧ -1 ≤ c.2.2 - half K c.1 ∧ c.2.2 + half K c.1 ≤ 1) ∧
    (∀ x y : K, -1 ≤ x → x ≤ 1 → -1 ≤ y → y ≤ 1 → ∃ c ∈ leaves E m 0 0 0, c.2.1 - half K c.1 ≤ x ∧ x ≤ c.2.1 + half K c.1 ∧ c.2.2 - half K c.1 ≤ y ∧ y ≤ c.2.2 + half K c.1) ∧
    ((leaves E m 0 0 0).map fun c => (2*half K c.1)^2).sum = 4 ∧ (leaves E m 0 0 0).length ≤ 4^m := by
  have h0 : half K 0 = 1 := by simp [half]
  refine ⟨fun c hc => ?_, fun x y h1 h2 h3 h4 => leaves_cover E m 0 0 0 x y (by rw [h0]; exact ⟨by linarith, by linarith, by linarith, by linarith⟩), ?_, leaves_length E m 0 0 0⟩
  · obtain ⟨-, h2, h3, h4, h5, h6, h7⟩ := leaves_mem E m 0 0 0 c hc
    rw [h0] at h4 h5 h6 h7
    exact ⟨by omega, fun h => h3 (by omega), by linarith, by linarith, by linarith, by linarith⟩
  · rw [leaves_sum E (fun c => (2*half K c.1)^2) (fun d ξ η => by simp only; rw [half_succ d]; ring), h0]
    norm_num

/-! ## What the points are good for -/

omit [LinearOrder K] [IsStrictOrderedRing K] in
theorem mem_scaled {rule : List (K × K)} {c : Nat × K × K} {g : Gp K} : g ∈ scaled rule c ↔
    ∃ gi ∈ rule, ∃ gj ∈ rule, g = (c.2.1 + half K c.1*gi.1, c.2.2 + half K c.1*gj.1, half K c.1^2*(gi.2*gj.2)) := by
  unfold scaled
  simp only [List.mem_flatMap, List.mem_map]
  constructor
  · rintro ⟨gj, hj, gi, hi, rfl⟩; exact ⟨gi, hi, gj, hj, rfl⟩
  · rintro ⟨gi, hi, gj, hj, rfl⟩; exact ⟨gj, hj, gi, hi, rfl⟩

/-- **C80, every point**: it is in the bi-unit square, its weight is positive, and it is inside the geometry. -/
theorem C80_points {E : Elm K} {rule : List (K × K)} {m : Int} {l : List (Gp K)} (hr : ∀ g ∈ rule, -1 < g.1 ∧ g.1 < 1 ∧ 0 < g.2) (h : quadrature E (some rule) m = some l) :
    ∀ g ∈ l, -1 < g.1 ∧ g.1 < 1 ∧ -1 < g.2.1 ∧ g.2.1 < 1 ∧ 0 < g.2.2 ∧ E.alpha (image E g.1 g.2.1) > 0 := by
  obtain ⟨l', e, p⟩ := C80_quadtree E rule m
  cases h.symm.trans e
  intro g hg
  obtain ⟨h1, h2⟩ := List.mem_filter.1 (p.mem_iff.1 hg)
  obtain ⟨c, hc, hg'⟩ := List.mem_flatMap.1 h1
  obtain ⟨gi, hi, gj, hj, rfl⟩ := mem_scaled.1 hg'
  obtain ⟨-, -, b1, b2, b3, b4⟩ := (C80_cells E m.toNat).1 c hc
  obtain ⟨r1, r2, r3⟩ := hr gi hi
  obtain ⟨s1, s2, s3⟩ := hr gj hj
  have hp := half_pos (K := K) c.1
  refine ⟨?_, ?_, ?_, ?_, by positivity, of_decide_eq_true h2⟩ <;> simp only <;> nlinarith

open Polynomial in
omit [LinearOrder K] [IsStrictOrderedRing K] in
/-- A rule that is exact over `[-1,1]` is exact over every interval when scaled. -/
theorem exact_scaled {rule : List (K × K)} {N : Nat} (hE : Exact rule N) (x h : K) (P : K[X]) (hP : P.natDegree ≤ N+1) :
    (rule.map fun g => h*g.2*(derivative P).eval (x + h*g.1)).sum = P.eval (x+h) - P.eval (x-h) := by
  have hd : (P.comp (C x + C h*X)).natDegree ≤ N+1 := by
    refine (natDegree_comp_le).trans ?_
    have : (C x + C h*X : K[X]).natDegree ≤ 1 := by
      refine (natDegree_add_le _ _).trans ?_
      simp only [natDegree_C, zero_le, sup_of_le_right]
      exact natDegree_mul_le.trans (by simp)
    calc P.natDegree * (C x + C h*X : K[X]).natDegree ≤ P.natDegree * 1 := Nat.mul_le_mul_left _ this
      _ ≤ N+1 := by omega
  have := hE _ hd
  simp only [derivative_comp, derivative_add, derivative_C, derivative_mul, derivative_X, eval_mul, eval_comp, eval_add, eval_C, eval_X, zero_add, zero_mul, mul_one, eval_zero] at this
  rw [show x + h*(-1) = x - h by ring] at this
  rw [← this]
  congr 1
  refine List.map_congr_left fun g _ => ?_
  ring

omit [LinearOrder K] [IsStrictOrderedRing K] in
theorem total_append (l l' : List (Gp K)) (f : K → K → K) : total (l ++ l') f = total l f + total l' f := by simp [total]

omit [LinearOrder K] [IsStrictOrderedRing K] in
theorem total_flatMap {A : Type} (l : List A) (F : A → List (Gp K)) (f : K → K → K) : total (l.flatMap F) f = (l.map fun a => total (F a) f).sum := by
  induction l with
  | nil => simp [total]
  | cons a t ih => rw [List.flatMap_cons, total_append, ih, List.map_cons, List.sum_cons]

omit [LinearOrder K] [IsStrictOrderedRing K] in
theorem sum_mul_sum (l l' : List (K × K)) (a b : K × K → K) : (l.map fun x => (l'.map fun y => b y*a x).sum).sum = (l'.map b).sum*(l.map a).sum := by
  induction l with
  | nil => simp
  | cons x t ih =>
    rw [List.map_cons, List.sum_cons, ih, List.map_cons, List.sum_cons, List.sum_map_mul_right]
    ring

open Polynomial in
/-- **C80, exactness**: the points of the whole quadtree integrate the products `P'(ξ) Q'(η)` exactly over the bi-unit square, whatever the geometry is and however often it is divided, if the rule is exact for
the two factors. -/
theorem C80_exact (E : Elm K) {rule : List (K × K)} {N : Nat} (hE : Exact rule N) (m : Nat) (P Q : K[X]) (hP : P.natDegree ≤ N+1) (hQ : Q.natDegree ≤ N+1) :
    total (allPoints E rule m) (fun ξ η => (derivative P).eval ξ*(derivative Q).eval η) = (P.eval 1 - P.eval (-1))*(Q.eval 1 - Q.eval (-1)) := by
  unfold allPoints
  rw [total_flatMap]
  have e : ∀ c : Nat × K × K, total (scaled rule c) (fun ξ η => (derivative P).eval ξ*(derivative Q).eval η) =
      (P.eval (c.2.1 + half K c.1) - P.eval (c.2.1 - half K c.1))*(Q.eval (c.2.2 + half K c.1) - Q.eval (c.2.2 - half K c.1)) := by
    intro c
    rw [← exact_scaled hE _ _ P hP, ← exact_scaled hE _ _ Q hQ, ← sum_mul_sum]
    unfold scaled
    rw [total_flatMap]
    congr 1
    refine List.map_congr_left fun gj _ => ?_
    unfold total
    rw [List.map_map]
    congr 1
    refine List.map_congr_left fun gi _ => ?_
    simp only [Function.comp]
    ring
  simp only [e]
  rw [leaves_sum E (fun c => (P.eval (c.2.1 + half K c.1) - P.eval (c.2.1 - half K c.1))*(Q.eval (c.2.2 + half K c.1) - Q.eval (c.2.2 - half K c.1)))]
  · simp [half]
  · intro d ξ η
    simp only
    rw [half_succ d, show ξ - half K (d+1) + half K (d+1) = ξ by ring, show ξ + half K (d+1) - half K (d+1) = ξ by ring, show η - half K (d+1) + half K (d+1) = η by ring,
      show η + half K (d+1) - half K (d+1) = η by ring, show ξ + 2*half K (d+1) = ξ + half K (d+1) + half K (d+1) by ring, show ξ - 2*half K (d+1) = ξ - half K (d+1) - half K (d+1) by ring,
      show η + 2*half K (d+1) = η + half K (d+1) + half K (d+1) by ring, show η - 2*half K (d+1) = η - half K (d+1) - half K (d+1) by ring]
    ring

omit [LinearOrder K] [IsStrictOrderedRing K] in
theorem total_perm {l l' : List (Gp K)} (p : l.Perm l') (f : K → K → K) : total l f = total l' f := (p.map _).sum_eq

theorem mem_all {E : Elm K} {rule : List (K × K)} {m : Nat} (hr : ∀ g ∈ rule, -1 ≤ g.1 ∧ g.1 ≤ 1) : ∀ g ∈ allPoints E rule m, -1 ≤ g.1 ∧ g.1 ≤ 1 ∧ -1 ≤ g.2.1 ∧ g.2.1 ≤ 1 := by
  intro g hg
  obtain ⟨c, hc, hg'⟩ := List.mem_flatMap.1 hg
  obtain ⟨gi, hi, gj, hj, rfl⟩ := mem_scaled.1 hg'
  obtain ⟨-, -, b1, b2, b3, b4⟩ := (C80_cells E m).1 c hc
  obtain ⟨r1, r2⟩ := hr gi hi
  obtain ⟨s1, s2⟩ := hr gj hj
  have hp := half_pos (K := K) c.1
  refine ⟨?_, ?_, ?_, ?_⟩ <;> simp only <;> nlinarith

open Polynomial in
/-- **C80, elements inside**: in an element that is completely inside the geometry, the points integrate polynomials exactly over the whole element. -/
theorem C80_inside {E : Elm K} {rule : List (K × K)} {N : Nat} (hE : Exact rule N) (hr : ∀ g ∈ rule, -1 ≤ g.1 ∧ g.1 ≤ 1) {m : Int} {l : List (Gp K)} (h : quadrature E (some rule) m = some l)
    (hin : ∀ ξ η : K, -1 ≤ ξ → ξ ≤ 1 → -1 ≤ η → η ≤ 1 → E.alpha (image E ξ η) > 0) (P Q : K[X]) (hP : P.natDegree ≤ N+1) (hQ : Q.natDegree ≤ N+1) :
    total l (fun ξ η => (derivative P).eval ξ*(derivative Q).eval η) = (P.eval 1 - P.eval (-1))*(Q.eval 1 - Q.eval (-1)) := by
  obtain ⟨l', e, p⟩ := C80_quadtree E rule m
  cases h.symm.trans e
  rw [total_perm p, List.filter_eq_self.2, C80_exact E hE _ P Q hP hQ]
  intro g hg
  obtain ⟨h1, h2, h3, h4⟩ := mem_all hr g hg
  exact decide_eq_true (hin _ _ h1 h2 h3 h4)

/-- **C80, elements outside**: in an element that is completely outside there are no points. -/
theorem C80_outside {E : Elm K} {rule : List (K × K)} (hr : ∀ g ∈ rule, -1 ≤ g.1 ∧ g.1 ≤ 1) {m : Int} {l : List (Gp K)} (h : quadrature E (some rule) m = some l)
    (hout : ∀ ξ η : K, -1 ≤ ξ → ξ ≤ 1 → -1 ≤ η → η ≤ 1 → ¬ E.alpha (image E ξ η) > 0) : l = [] := by
  obtain ⟨l', e, p⟩ := C80_quadtree E rule m
  cases h.symm.trans e
  refine List.Perm.eq_nil (p.trans (List.Perm.of_eq (List.filter_eq_nil_iff.2 fun g hg => ?_)))
  obtain ⟨h1, h2, h3, h4⟩ := mem_all hr g hg
  simpa using hout _ _ h1 h2 h3 h4

/-- **C80, area**: the weights of the points inside and of those left out add up to the area of the bi-unit square; the sum over the points is therefore at most that. -/
theorem C80_area {E : Elm K} {rule : List (K × K)} (hE : Exact rule 0) (hr : ∀ g ∈ rule, 0 < g.2) {m : Int} {l : List (Gp K)} (h : quadrature E (some rule) m = some l) :
    total l (fun _ _ => 1) + total ((allPoints E rule m.toNat).filter fun g => ¬ E.alpha (image E g.1 g.2.1) > 0) (fun _ _ => 1) = 4 ∧ 0 ≤ total l (fun _ _ => 1) ∧ total l (fun _ _ => 1) ≤ 4 := by
  obtain ⟨l', e, p⟩ := C80_quadtree E rule m
  cases h.symm.trans e
  have split : ∀ (q : List (Gp K)) (f : Gp K → Prop) [DecidablePred f], total (q.filter fun g => f g) (fun _ _ => 1) + total (q.filter fun g => ¬ f g) (fun _ _ => 1) = total q (fun _ _ => 1) := by
    intro q f _
    induction q with
    | nil => simp [total]
    | cons a t ih =>
      by_cases ha : f a
      · simp only [List.filter_cons, ha, decide_true, if_true, not_true, decide_false]
        simp only [total, List.map_cons, List.sum_cons] at ih ⊢
        rw [← ih]
        simp
        ring
      · simp only [List.filter_cons, ha, decide_true, if_true, not_false_iff, decide_false]
        simp only [total, List.map_cons, List.sum_cons] at ih ⊢
        rw [← ih]
        simp
        ring
  have hall : total (allPoints E rule m.toNat) (fun _ _ => 1) = 4 := by
    have := C80_exact E hE m.toNat Polynomial.X Polynomial.X (by simp) (by simp)
    simp at this
    rw [this]; norm_num
  have pos : ∀ q : List (Gp K), (∀ g ∈ q, g ∈ allPoints E rule m.toNat) → 0 ≤ total q (fun _ _ => 1) := by
    intro q hq
    refine List.sum_nonneg fun x hx => ?_
    obtain ⟨g, hg, rfl⟩ := List.mem_map.1 hx
    obtain ⟨c, hc, hg'⟩ := List.mem_flatMap.1 (hq g hg)
    obtain ⟨gi, hi, gj, hj, rfl⟩ := mem_scaled.1 hg'
    have h1 := hr gi hi
    have h2 := hr gj hj
    have hp := half_pos (K := K) c.1
    simp only [mul_one]
    positivity
  have hs := split (allPoints E rule m.toNat) (fun g => E.alpha (image E g.1 g.2.1) > 0)
  rw [hall] at hs
  rw [total_perm p]
  refine ⟨hs, pos _ fun g hg => List.mem_of_mem_filter hg, ?_⟩
  have := pos ((allPoints E rule m.toNat).filter fun g => ¬ E.alpha (image E g.1 g.2.1) > 0) fun g hg => List.mem_of_mem_filter hg
  linarith

/-- **C80, effort**: the number of points is at most that of a uniform division. -/
theorem C80_count {E : Elm K} {rule : List (K × K)} {m : Int} {l : List (Gp K)} (h : quadrature E (some rule) m = some l) : l.length ≤ 4^m.toNat*rule.length^2 := by
  obtain ⟨l', e, p⟩ := C80_quadtree E rule m
  cases h.symm.trans e
  rw [p.length_eq]
  refine (List.length_filter_le _ _).trans ?_
  have hs : ∀ c, (scaled rule c).length = rule.length^2 := by
    intro c
    simp [scaled, List.length_flatMap, sq]
  have : (allPoints E rule m.toNat).length = (leaves E m.toNat 0 0 0).length*rule.length^2 := by
    simp [allPoints, List.length_flatMap, hs]
  rw [this]
  exact Nat.mul_le_mul_right _ (leaves_length E _ _ _ _)

end IFEM.Immersed
