import Mathlib.LinearAlgebra.Lagrange
import Verif.Model.LagrangeBasis
import Verif.Spec.LagrangeBasis
/-!
# Lemmas on Lagrange basis functions
-/
namespace IFEM.Lag
open Polynomial IFEM.Spec
variable {K : Type} [Field K]

theorem foldl_mul_filter (p : Nat → Prop) [DecidablePred p] (f : Nat → K) (r0 : K) : ∀ n,
    (List.range n).foldl (fun r j => if p j then r * f j else r) r0 = r0 * ∏ j ∈ (Finset.range n).filter p, f j
  | 0 => by simp
  | n+1 => by
    rw [List.range_succ, List.foldl_append, foldl_mul_filter p f r0 n, Finset.range_add_one, Finset.filter_insert]
    simp only [List.foldl_cons, List.foldl_nil]
    split_ifs with h
    · rw [Finset.prod_insert (by simp)]; ring
    · rfl

theorem foldl_add_filter (p : Nat → Prop) [DecidablePred p] (f : Nat → K) (r0 : K) : ∀ n,
    (List.range n).foldl (fun r j => if p j then r + f j else r) r0 = r0 + ∑ j ∈ (Finset.range n).filter p, f j
  | 0 => by simp
  | n+1 => by
    rw [List.range_succ, List.foldl_append, foldl_add_filter p f r0 n, Finset.range_add_one, Finset.filter_insert]
    simp only [List.foldl_cons, List.foldl_nil]
    split_ifs with h
    · rw [Finset.sum_insert (by simp)]; ring
    · rfl

/-- The Lagrange polynomial of Mathlib for point `i`. -/
noncomputable def lagP (points : List K) (i : Nat) : K[X] := Lagrange.basis (Finset.range points.length) (fun j => points.getD j 0) i

theorem eval_divisor (x y t : K) : (Lagrange.basisDivisor x y).eval t = (t - y) / (x - y) := by
  simp only [Lagrange.basisDivisor, eval_mul, eval_C, eval_sub, eval_X]
  rw [div_eq_mul_inv, mul_comm]

theorem deriv_divisor (x y t : K) : (derivative (Lagrange.basisDivisor x y)).eval t = 1 / (x - y) := by
  simp [Lagrange.basisDivisor]

theorem evalLoop_eq (points : List K) (i : Nat) (x : K) : evalLoop points i x = (lagP points i).eval x := by
  unfold evalLoop lagP Lagrange.basis
  rw [foldl_mul_filter (fun j => j ≠ i), Finset.filter_ne', eval_prod, one_mul]
  exact Finset.prod_congr rfl fun j _ => (eval_divisor _ _ _).symm

theorem prodLoop_eq (points : List K) (i j : Nat) (x : K) :
    prodLoop points i j x = (∏ k ∈ ((Finset.range points.length).erase i).erase j, Lagrange.basisDivisor (points.getD i 0) (points.getD k 0)).eval x := by
  unfold prodLoop
  rw [foldl_mul_filter (fun k => k ≠ i ∧ k ≠ j), eval_prod, one_mul]
  have : (Finset.range points.length).filter (fun k => k ≠ i ∧ k ≠ j) = ((Finset.range points.length).erase i).erase j := by
    ext k; simp only [Finset.mem_filter, Finset.mem_erase]; tauto
  rw [this]
  exact Finset.prod_congr rfl fun j _ => (eval_divisor _ _ _).symm

theorem derivLoop_eq (points : List K) (i : Nat) (x : K) : derivLoop points i x = (derivative (lagP points i)).eval x := by
  unfold derivLoop lagP Lagrange.basis
  rw [foldl_add_filter (fun j => j ≠ i), Finset.filter_ne', derivative_prod_finset, eval_finset_sum, zero_add]
  refine Finset.sum_congr rfl fun j _ => ?_
  rw [eval_mul, deriv_divisor, prodLoop_eq, mul_one_div]

theorem injOn_of_nodup {points : List K} (h : points.Nodup) : Set.InjOn (fun j => points.getD j 0) (Finset.range points.length : Set ℕ) := by
  intro a ha b hb hab
  have ha : a < points.length := by simpa using ha
  have hb : b < points.length := by simpa using hb
  simp only [List.getD_eq_getElem?_getD, List.getElem?_eq_getElem ha, List.getElem?_eq_getElem hb, Option.getD_some] at hab
  exact (List.Nodup.getElem_inj_iff h).mp hab

theorem lagP_spec {points : List K} (h : points.Nodup) {i : Nat} (hi : i < points.length) : IsLagrange points i (lagP points i) := by
  have hinj := injOn_of_nodup h
  have hmem : i ∈ Finset.range points.length := Finset.mem_range.mpr hi
  refine ⟨?_, fun x hx => ?_, fun j x hx hj => ?_⟩
  · unfold lagP
    rw [Lagrange.degree_basis hinj hmem, Finset.card_range]
    exact_mod_cast (show points.length - 1 < points.length by omega)
  · have := Lagrange.eval_basis_self hinj hmem
    rw [List.getD_eq_getElem?_getD, hx] at this
    exact this
  · have hjl := (List.getElem?_eq_some_iff.mp hx).1
    have := Lagrange.eval_basis_of_ne (v := fun j => points.getD j 0) (fun h => hj h.symm) (Finset.mem_range.mpr hjl)
    rw [List.getD_eq_getElem?_getD, hx] at this
    exact this

theorem lagrange_unique {points : List K} (h : points.Nodup) {i : Nat} {P Q : K[X]} (hP : IsLagrange points i P) (hQ : IsLagrange points i Q) : P = Q := by
  refine eq_of_degrees_lt_of_eval_index_eq (Finset.range points.length) (injOn_of_nodup h) (by rw [Finset.card_range]; exact hP.deg) (by rw [Finset.card_range]; exact hQ.deg) fun j hj => ?_
  have hjl : j < points.length := Finset.mem_range.mp hj
  have hg : points[j]? = some (points.getD j 0) := by
    rw [List.getD_eq_getElem?_getD, List.getElem?_eq_getElem hjl]; rfl
  by_cases hji : j = i
  · subst hji
    rw [hP.one _ hg, hQ.one _ hg]
  · rw [hP.zero j _ hg hji, hQ.zero j _ hg hji]

/-- The function of a direction used by the code. -/
noncomputable def dirP (points : List K) (i : Nat) : K[X] := if points = [] then 1 else lagP points i

theorem dirP_spec {points : List K} (h : points.Nodup) {i : Nat} (hi : i < dirSize points) : IsDirFun points i (dirP points i) := by
  unfold dirP
  by_cases he : points = []
  · rw [if_pos he]; exact Or.inl ⟨he, rfl⟩
  · rw [if_neg he]
    have hpos : 0 < points.length := List.length_pos_iff.mpr he
    exact Or.inr ⟨he, lagP_spec h (by unfold dirSize at hi; rw [if_pos hpos] at hi; exact hi)⟩

theorem dirP_unique {points : List K} (h : points.Nodup) {i : Nat} (hi : i < dirSize points) {P : K[X]} (hP : IsDirFun points i P) : P = dirP points i := by
  rcases dirP_spec h hi with ⟨q1, q2⟩ | ⟨q1, q2⟩
  · rcases hP with ⟨_, p2⟩ | ⟨p1, _⟩
    · rw [p2, q2]
    · exact absurd q1 p1
  · rcases hP with ⟨p1, _⟩ | ⟨_, p2⟩
    · exact absurd p1 q1
    · exact lagrange_unique h p2 q2

theorem flatMap_range_length {α : Type} (g : Nat → List α) (m : Nat) : ∀ n, (∀ k < n, (g k).length = m) → ((List.range n).flatMap g).length = n * m
  | 0, _ => by simp
  | n+1, h => by
    rw [List.range_succ, List.flatMap_append, List.length_append, flatMap_range_length g m n (fun k hk => h k (by omega))]
    simp only [List.flatMap_cons, List.flatMap_nil, List.append_nil]
    rw [h n (by omega)]; ring

theorem flatMap_range_get {α : Type} (g : Nat → List α) (m : Nat) : ∀ n, (∀ k < n, (g k).length = m) → ∀ k i, k < n → i < m → ((List.range n).flatMap g)[k*m+i]? = (g k)[i]?
  | 0, _, k, _, hk, _ => by omega
  | n+1, h, k, i, hk, hi => by
    rw [List.range_succ, List.flatMap_append]
    have hl := flatMap_range_length g m n (fun k hk => h k (by omega))
    by_cases hkn : k < n
    · have : k*m+i < n*m := by
        calc k*m+i < k*m+m := by omega
          _ = (k+1)*m := by ring
          _ ≤ n*m := Nat.mul_le_mul_right m (by omega)
      rw [List.getElem?_append_left (by rw [hl]; exact this)]
      exact flatMap_range_get g m n (fun k hk => h k (by omega)) k i hkn hi
    · obtain rfl : k = n := by omega
      rw [List.getElem?_append_right (by rw [hl]; omega), hl]
      simp

theorem tensor_length {α : Type} (n1 n2 n3 : Nat) (f : Nat → Nat → Nat → α) : (tensorLoop n1 n2 n3 f).length = n1*n2*n3 := by
  unfold tensorLoop
  rw [flatMap_range_length _ (n2*n1) n3]
  · ring
  · intro k _
    rw [flatMap_range_length _ n1 n2]
    intro j _; simp

theorem tensor_get {α : Type} {n1 n2 n3 : Nat} (f : Nat → Nat → Nat → α) {i j k : Nat} (hi : i < n1) (hj : j < n2) (hk : k < n3) :
    (tensorLoop n1 n2 n3 f)[(k*n2+j)*n1+i]? = some (f i j k) := by
  unfold tensorLoop
  have h1 : j*n1+i < n2*n1 := by
    calc j*n1+i < j*n1+n1 := by omega
      _ = (j+1)*n1 := by ring
      _ ≤ n2*n1 := Nat.mul_le_mul_right n1 (by omega)
  rw [show (k*n2+j)*n1+i = k*(n2*n1)+(j*n1+i) by ring, flatMap_range_get _ (n2*n1) n3 _ k _ hk h1, flatMap_range_get _ n1 n2 _ j i hj hi]
  · simp [hi]
  · intro j _; simp
  · intro k _
    rw [flatMap_range_length _ n1 n2]
    intro j _; simp

theorem flatMap_range_sum (g : Nat → List K) : ∀ n, ((List.range n).flatMap g).sum = ∑ k ∈ Finset.range n, (g k).sum
  | 0 => by simp
  | n+1 => by
    rw [List.range_succ, List.flatMap_append, List.sum_append, flatMap_range_sum g n, Finset.sum_range_succ]
    simp

theorem map_range_sum (g : Nat → K) (n : Nat) : ((List.range n).map g).sum = ∑ k ∈ Finset.range n, g k := by
  induction n with
  | zero => simp
  | succ n ih => rw [List.range_succ, List.map_append, List.sum_append, ih, Finset.sum_range_succ]; simp

theorem tensor_sum (n1 n2 n3 : Nat) (f : Nat → Nat → Nat → K) :
    (tensorLoop n1 n2 n3 f).sum = ∑ k ∈ Finset.range n3, ∑ j ∈ Finset.range n2, ∑ i ∈ Finset.range n1, f i j k := by
  unfold tensorLoop
  rw [flatMap_range_sum]
  refine Finset.sum_congr rfl fun k _ => ?_
  rw [flatMap_range_sum]
  exact Finset.sum_congr rfl fun j _ => map_range_sum _ _

/-- A polynomial of degree below the number of points is reproduced. -/
theorem lag_reproduce {points : List K} (h : points.Nodup) {P : K[X]} (hP : P.degree < (points.length : WithBot ℕ)) (x : K) :
    ∑ i ∈ Finset.range points.length, P.eval (points.getD i 0) * (lagP points i).eval x = P.eval x := by
  have := Lagrange.eq_interpolate (injOn_of_nodup h) (f := P) (by rw [Finset.card_range]; exact hP)
  conv_rhs => rw [this, Lagrange.interpolate_apply]
  rw [eval_finset_sum]
  exact Finset.sum_congr rfl fun i _ => by rw [eval_mul, eval_C]; rfl

theorem dir_reproduce {points : List K} (h : points.Nodup) {a : Nat} (ha : a < dirSize points) (x : K) :
    ∑ i ∈ Finset.range (dirSize points), (points.getD i 0)^a * (dirP points i).eval x = x^a := by
  unfold dirP dirSize at *
  by_cases he : points = []
  · subst he
    have : a = 0 := by simpa using ha
    subst this
    simp
  · have hpos : 0 < points.length := List.length_pos_iff.mpr he
    rw [if_pos hpos] at ha ⊢
    simp only [if_neg he]
    have hd : ((X : K[X])^a).degree < (points.length : WithBot ℕ) := by
      rw [degree_X_pow]; exact_mod_cast ha
    have := lag_reproduce h hd x
    simpa only [eval_pow, eval_X] using this

variable [LinearOrder K]

theorem eval1D_val {points : List K} {i : Nat} (hi : i < points.length) (x : K) : eval1D points (i : Int) x false = some ((lagP points i).eval x) := by
  unfold eval1D
  rw [if_neg (by omega), if_neg (by simp)]
  simp [evalLoop_eq]

theorem eval1D_der {points : List K} {i : Nat} (hi : i < points.length) {x : K} (h1 : points.headD 0 ≤ x) (h2 : x ≤ points.getLastD 0) :
    eval1D points (i : Int) x true = some ((derivative (lagP points i)).eval x) := by
  unfold eval1D
  rw [if_neg (by omega), if_neg (by rintro ⟨_, h | h⟩ <;> exact absurd h (not_lt.mpr (by assumption)))]
  simp [derivLoop_eq]

theorem setLoop_spec {f : Nat → Option K} {g : Nat → K} : ∀ n (init : List K), (∀ i < n, f i = some (g i)) → n ≤ init.length →
    ∃ v, (List.range n).foldlM (fun (v : List K) (i : Nat) => (f i).map fun e => v.set i e) init = some v ∧ v.length = init.length ∧
      ∀ i, v.getD i 0 = if i < n then g i else init.getD i 0
  | 0, init, _, _ => ⟨init, rfl, rfl, by simp⟩
  | n+1, init, h, hl => by
    obtain ⟨v, e, l, q⟩ := setLoop_spec n init (fun i hi => h i (by omega)) (by omega)
    refine ⟨v.set n (g n), ?_, by simp [l], fun i => ?_⟩
    · rw [List.range_succ, List.foldlM_append, e]
      simp [h n (by omega)]
    · by_cases hi : i = n
      · subst hi
        rw [if_pos (by omega)]
        simp [show i < v.length by omega]
      · rw [show (v.set n (g n)).getD i 0 = v.getD i 0 by
          rw [List.getD_eq_getElem?_getD, List.getD_eq_getElem?_getD, List.getElem?_set_ne (fun hh => hi hh.symm)], q]
        simp only [show i < n+1 ↔ i < n by omega]

theorem evalDir_val (points : List K) (x : K) : ∃ v, evalDir points x false (List.replicate (dirSize points) 1) = some v ∧
    ∀ i < dirSize points, v.getD i 0 = (dirP points i).eval x := by
  have hle : points.length ≤ (List.replicate (dirSize points) (1 : K)).length := by
    rw [List.length_replicate]; unfold dirSize; split_ifs <;> omega
  obtain ⟨v, e, l, q⟩ := setLoop_spec (f := fun i : Nat => eval1D points (i : Int) x false) (g := fun i => (lagP points i).eval x) points.length
    (List.replicate (dirSize points) 1) (fun i hi => eval1D_val hi x) hle
  refine ⟨v, e, fun i hi => ?_⟩
  rw [q]
  unfold dirP
  by_cases he : points = []
  · subst he
    simp only [List.length_nil, Nat.not_lt_zero, if_false, if_true, eval_one]
    simp [List.getElem?_replicate, hi]
  · have hpos : 0 < points.length := List.length_pos_iff.mpr he
    unfold dirSize at hi
    rw [if_pos hpos] at hi
    rw [if_pos hi, if_neg he]

theorem evalDir_der (points : List K) {x : K} (hx : points = [] ∨ (points.headD 0 ≤ x ∧ x ≤ points.getLastD 0)) :
    ∃ v, evalDir points x true (List.replicate points.length 0) = some v ∧ ∀ i < points.length, v.getD i 0 = (derivative (dirP points i)).eval x := by
  rcases hx with rfl | ⟨h1, h2⟩
  · exact ⟨[], rfl, by simp⟩
  obtain ⟨v, e, l, q⟩ := setLoop_spec (f := fun i : Nat => eval1D points (i : Int) x true) (g := fun i => (derivative (lagP points i)).eval x) points.length
    (List.replicate points.length 0) (fun i hi => eval1D_der hi h1 h2) (by simp)
  refine ⟨v, e, fun i hi => ?_⟩
  rw [q, if_pos hi]
  unfold dirP
  rw [if_neg (by rintro rfl; simp at hi)]

/-- Everything the code computes, in terms of polynomials. -/
theorem computeBasis_val (old points1 points2 points3 : List K) (x1 x2 x3 : K) :
    computeBasis old false points1 x1 points2 x2 points3 x3 =
      some ⟨tensorLoop (dirSize points1) (dirSize points2) (dirSize points3) (fun i j k => (dirP points1 i).eval x1 * (dirP points2 j).eval x2 * (dirP points3 k).eval x3) ++
        old.drop (dirSize points1 * dirSize points2 * dirSize points3), none⟩ := by
  obtain ⟨v1, e1, q1⟩ := evalDir_val points1 x1
  obtain ⟨v2, e2, q2⟩ := evalDir_val points2 x2
  obtain ⟨v3, e3, q3⟩ := evalDir_val points3 x3
  unfold computeBasis
  dsimp only
  rw [e1, e2, e3]
  dsimp only
  rw [if_neg (by simp)]
  congr 3
  unfold tensorLoop
  refine List.flatMap_congr fun k hk => List.flatMap_congr fun j hj => List.map_congr_left fun i hi => ?_
  dsimp only
  rw [q1 i (List.mem_range.mp hi), q2 j (List.mem_range.mp hj), q3 k (List.mem_range.mp hk)]

theorem computeBasis_der (old points1 points2 points3 : List K) {x1 x2 x3 : K} (h1 : points1 = [] ∨ (points1.headD 0 ≤ x1 ∧ x1 ≤ points1.getLastD 0))
    (h2 : points2 = [] ∨ (points2.headD 0 ≤ x2 ∧ x2 ≤ points2.getLastD 0)) (h3 : points3 = [] ∨ (points3.headD 0 ≤ x3 ∧ x3 ≤ points3.getLastD 0)) :
    computeBasis old true points1 x1 points2 x2 points3 x3 =
      some ⟨tensorLoop (dirSize points1) (dirSize points2) (dirSize points3) (fun i j k => (dirP points1 i).eval x1 * (dirP points2 j).eval x2 * (dirP points3 k).eval x3) ++
        old.drop (dirSize points1 * dirSize points2 * dirSize points3),
        some (tensorLoop (dirSize points1) (dirSize points2) (dirSize points3) fun i j k =>
          [(derivative (dirP points1 i)).eval x1 * (dirP points2 j).eval x2 * (dirP points3 k).eval x3,
           (dirP points1 i).eval x1 * (derivative (dirP points2 j)).eval x2 * (dirP points3 k).eval x3,
           (dirP points1 i).eval x1 * (dirP points2 j).eval x2 * (derivative (dirP points3 k)).eval x3].take
             (if points3.length > 0 then 3 else if points2.length > 0 then 2 else 1))⟩ := by
  obtain ⟨v1, e1, q1⟩ := evalDir_val points1 x1
  obtain ⟨v2, e2, q2⟩ := evalDir_val points2 x2
  obtain ⟨v3, e3, q3⟩ := evalDir_val points3 x3
  obtain ⟨d1, f1, r1⟩ := evalDir_der points1 h1
  obtain ⟨d2, f2, r2⟩ := evalDir_der points2 h2
  obtain ⟨d3, f3, r3⟩ := evalDir_der points3 h3
  have hz : ∀ (points : List K) (x : K) (i : Nat) (d : List K), i < dirSize points → (∀ i < points.length, d.getD i 0 = (derivative (dirP points i)).eval x) → ∀ y : K,
      (if points.length > 0 then d.getD i 0 * y else 0) = (derivative (dirP points i)).eval x * y := by
    intro points x i d hi hd y
    unfold dirSize at hi
    split_ifs at hi ⊢ with h0
    · rw [hd i hi]
    · have : points = [] := List.length_eq_zero_iff.mp (by omega)
      subst this
      simp [dirP]
  unfold computeBasis
  dsimp only
  rw [e1, e2, e3]
  dsimp only
  rw [if_pos rfl, f1, f2, f3]
  dsimp only
  congr 3
  · unfold tensorLoop
    refine List.flatMap_congr fun k hk => List.flatMap_congr fun j hj => List.map_congr_left fun i hi => ?_
    dsimp only
    rw [q1 i (List.mem_range.mp hi), q2 j (List.mem_range.mp hj), q3 k (List.mem_range.mp hk)]
  · unfold tensorLoop
    refine List.flatMap_congr fun k hk => List.flatMap_congr fun j hj => List.map_congr_left fun i hi => ?_
    have hi := List.mem_range.mp hi
    have hj := List.mem_range.mp hj
    have hk := List.mem_range.mp hk
    have g1 := hz points1 x1 i d1 hi r1 (v2.getD j 0 * v3.getD k 0)
    have g2 := hz points2 x2 j d2 hj r2 (v1.getD i 0 * v3.getD k 0)
    have g3 := hz points3 x3 k d3 hk r3 (v1.getD i 0 * v2.getD j 0)
    have g1' : (if points1.length > 0 then d1.getD i 0 * v2.getD j 0 * v3.getD k 0 else 0) = (derivative (dirP points1 i)).eval x1 * (dirP points2 j).eval x2 * (dirP points3 k).eval x3 := by
      rw [mul_assoc, g1, q2 j hj, q3 k hk, mul_assoc]
    have g2' : (if points2.length > 0 then v1.getD i 0 * d2.getD j 0 * v3.getD k 0 else 0) = (dirP points1 i).eval x1 * (derivative (dirP points2 j)).eval x2 * (dirP points3 k).eval x3 := by
      rw [show v1.getD i 0 * d2.getD j 0 * v3.getD k 0 = d2.getD j 0 * (v1.getD i 0 * v3.getD k 0) by ring, g2, q1 i hi, q3 k hk]; ring
    have g3' : (if points3.length > 0 then v1.getD i 0 * v2.getD j 0 * d3.getD k 0 else 0) = (dirP points1 i).eval x1 * (dirP points2 j).eval x2 * (derivative (dirP points3 k)).eval x3 := by
      rw [show v1.getD i 0 * v2.getD j 0 * d3.getD k 0 = d3.getD k 0 * (v1.getD i 0 * v2.getD j 0) by ring, g3, q1 i hi, q2 j hj]; ring
    dsimp only
    rw [g1', g2', g3']

end IFEM.Lag
