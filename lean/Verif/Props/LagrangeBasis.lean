import Mathlib.Analysis.Calculus.Deriv.Polynomial
import Verif.Lemmas.LagrangeBasis
/-!
# C36: Lagrange basis functions
-/
namespace IFEM.Props
open Polynomial IFEM.Lag IFEM.Spec
variable {K : Type} [Field K]

/-- **C36**: the Lagrange polynomials exist and are unique, for any distinct points. -/
theorem C36_polynomials {points : List K} (h : points.Nodup) {i : Nat} (hi : i < points.length) : ∃! P : K[X], IsLagrange points i P :=
  ⟨lagP points i, lagP_spec h hi, fun _ hQ => lagrange_unique h hQ (lagP_spec h hi)⟩

variable [LinearOrder K]

/-- **C36**: for any distinct interpolation points and any evaluation point the values are computed, and function number `(k*n2+j)*n1+i` has the value of the product of the
Lagrange polynomials `i`, `j` and `k` in the three directions.  Directions without points are absent.  Further elements of the value array are not touched. -/
theorem C36_values (old points1 points2 points3 : List K) (x1 x2 x3 : K) (h1 : points1.Nodup) (h2 : points2.Nodup) (h3 : points3.Nodup) :
    ∃ B, computeBasis old false points1 x1 points2 x2 points3 x3 = some B ∧
      B.val.length = max old.length (dirSize points1 * dirSize points2 * dirSize points3) ∧
      (∀ c : Nat, dirSize points1 * dirSize points2 * dirSize points3 ≤ c → B.val[c]? = old[c]?) ∧
      ∀ (i j k : Nat) (P1 P2 P3 : K[X]), i < dirSize points1 → j < dirSize points2 → k < dirSize points3 → IsDirFun points1 i P1 → IsDirFun points2 j P2 → IsDirFun points3 k P3 →
        B.val[(k * dirSize points2 + j) * dirSize points1 + i]? = some (P1.eval x1 * P2.eval x2 * P3.eval x3) := by
  refine ⟨_, computeBasis_val old points1 points2 points3 x1 x2 x3, ?_, fun c hc => ?_, fun i j k P1 P2 P3 hi hj hk q1 q2 q3 => ?_⟩
  · rw [List.length_append, tensor_length, List.length_drop]; omega
  · dsimp only
    rw [List.getElem?_append_right (by rw [tensor_length]; exact hc), tensor_length, List.getElem?_drop, Nat.add_sub_cancel' hc]
  · have hg := tensor_get (fun i j k => (dirP points1 i).eval x1 * (dirP points2 j).eval x2 * (dirP points3 k).eval x3) hi hj hk
    rw [dirP_unique h1 hi q1, dirP_unique h2 hj q2, dirP_unique h3 hk q3]
    dsimp only
    rw [List.getElem?_append_left (List.getElem?_eq_some_iff.mp hg).1]
    exact hg

/-- **C36**: at an interpolation point the function of that point is one and all others are zero. -/
theorem C36_kronecker (points1 points2 points3 : List K) (h1 : points1.Nodup) (h2 : points2.Nodup) (h3 : points3.Nodup) (x1 x2 x3 : K) (a b c : Nat)
    (ha : a < dirSize points1) (hb : b < dirSize points2) (hc : c < dirSize points3)
    (e1 : points1 = [] ∨ points1[a]? = some x1) (e2 : points2 = [] ∨ points2[b]? = some x2) (e3 : points3 = [] ∨ points3[c]? = some x3) :
    ∃ B, computeBasis [] false points1 x1 points2 x2 points3 x3 = some B ∧
      ∀ i j k : Nat, i < dirSize points1 → j < dirSize points2 → k < dirSize points3 →
        B.val[(k * dirSize points2 + j) * dirSize points1 + i]? = some (if i = a ∧ j = b ∧ k = c then 1 else 0) := by
  obtain ⟨B, q1, _, _, q4⟩ := C36_values [] points1 points2 points3 x1 x2 x3 h1 h2 h3
  refine ⟨B, q1, fun i j k hi hj hk => ?_⟩
  rw [q4 i j k _ _ _ hi hj hk (dirP_spec h1 hi) (dirP_spec h2 hj) (dirP_spec h3 hk)]
  have key : ∀ (points : List K), points.Nodup → ∀ (x : K) (a i : Nat), a < dirSize points → i < dirSize points → (points = [] ∨ points[a]? = some x) →
      (dirP points i).eval x = if i = a then 1 else 0 := by
    intro points h x a i ha hi he
    rcases dirP_spec h hi with ⟨p1, p2⟩ | ⟨p1, p2⟩
    · subst p1
      have hi : i = 0 := by simpa [dirSize] using hi
      have ha : a = 0 := by simpa [dirSize] using ha
      rw [p2, hi, ha]; simp
    · have he := he.resolve_left p1
      by_cases hia : i = a
      · rw [if_pos hia]; exact p2.one x (hia ▸ he)
      · rw [if_neg hia]; exact p2.zero a x he (fun hh => hia hh.symm)
  rw [key points1 h1 x1 a i ha hi e1, key points2 h2 x2 b j hb hj e2, key points3 h3 x3 c k hc hk e3]
  by_cases g1 : i = a <;> by_cases g2 : j = b <;> by_cases g3 : k = c <;> simp [g1, g2, g3]

/-- **C36**: every polynomial of degree less than the number of points in each direction is reproduced by its values at the interpolation points, everywhere. -/
theorem C36_reproduction (points1 points2 points3 : List K) (h1 : points1.Nodup) (h2 : points2.Nodup) (h3 : points3.Nodup) (x1 x2 x3 : K)
    (terms : List (K × Nat × Nat × Nat)) (ht : ∀ t ∈ terms, t.2.1 < dirSize points1 ∧ t.2.2.1 < dirSize points2 ∧ t.2.2.2 < dirSize points3) :
    ∃ B, computeBasis [] false points1 x1 points2 x2 points3 x3 = some B ∧
      ∑ k ∈ Finset.range (dirSize points3), ∑ j ∈ Finset.range (dirSize points2), ∑ i ∈ Finset.range (dirSize points1),
        poly3 terms (points1.getD i 0) (points2.getD j 0) (points3.getD k 0) * B.val.getD ((k * dirSize points2 + j) * dirSize points1 + i) 0 = poly3 terms x1 x2 x3 := by
  obtain ⟨B, q1, _, _, q4⟩ := C36_values [] points1 points2 points3 x1 x2 x3 h1 h2 h3
  refine ⟨B, q1, ?_⟩
  have hv : ∀ i j k : Nat, i < dirSize points1 → j < dirSize points2 → k < dirSize points3 →
      B.val.getD ((k * dirSize points2 + j) * dirSize points1 + i) 0 = (dirP points1 i).eval x1 * (dirP points2 j).eval x2 * (dirP points3 k).eval x3 := by
    intro i j k hi hj hk
    rw [List.getD_eq_getElem?_getD, q4 i j k _ _ _ hi hj hk (dirP_spec h1 hi) (dirP_spec h2 hj) (dirP_spec h3 hk)]
    rfl
  induction terms with
  | nil => simp [poly3]
  | cons t terms ih =>
    have ih := ih (fun t ht' => ht t (by simp [ht']))
    obtain ⟨t1, t2, t3⟩ := ht t (by simp)
    have hsplit0 : ∀ x y z : K, poly3 (t :: terms) x y z = t.1 * x ^ t.2.1 * y ^ t.2.2.1 * z ^ t.2.2.2 + poly3 terms x y z := fun x y z => by simp [poly3]
    have hsplit : ∀ x y z b : K, poly3 (t :: terms) x y z * b = t.1 * x ^ t.2.1 * y ^ t.2.2.1 * z ^ t.2.2.2 * b + poly3 terms x y z * b := fun x y z b => by rw [hsplit0, add_mul]
    simp only [hsplit, Finset.sum_add_distrib]
    rw [hsplit0]
    rw [ih]
    congr 1
    have hterm : ∀ k ∈ Finset.range (dirSize points3), ∀ j ∈ Finset.range (dirSize points2), ∀ i ∈ Finset.range (dirSize points1),
        t.1 * points1.getD i 0 ^ t.2.1 * points2.getD j 0 ^ t.2.2.1 * points3.getD k 0 ^ t.2.2.2 * B.val.getD ((k * dirSize points2 + j) * dirSize points1 + i) 0 =
        t.1 * (points3.getD k 0 ^ t.2.2.2 * (dirP points3 k).eval x3) * (points2.getD j 0 ^ t.2.2.1 * (dirP points2 j).eval x2) * (points1.getD i 0 ^ t.2.1 * (dirP points1 i).eval x1) := by
      intro k hk j hj i hi
      rw [hv i j k (Finset.mem_range.mp hi) (Finset.mem_range.mp hj) (Finset.mem_range.mp hk)]; ring
    rw [Finset.sum_congr rfl fun k hk => Finset.sum_congr rfl fun j hj => Finset.sum_congr rfl fun i hi => hterm k hk j hj i hi]
    simp only [← Finset.mul_sum]
    rw [dir_reproduce h1 t1]
    simp only [← Finset.sum_mul, ← Finset.mul_sum]
    rw [dir_reproduce h2 t2, dir_reproduce h3 t3]
    ring

/-- **C36**: the values add up to one, everywhere. -/
theorem C36_unity (points1 points2 points3 : List K) (h1 : points1.Nodup) (h2 : points2.Nodup) (h3 : points3.Nodup) (x1 x2 x3 : K) :
    ∃ B, computeBasis [] false points1 x1 points2 x2 points3 x3 = some B ∧ B.val.sum = 1 := by
  refine ⟨_, computeBasis_val [] points1 points2 points3 x1 x2 x3, ?_⟩
  dsimp only
  rw [List.drop_nil, List.append_nil, tensor_sum]
  have key : ∀ (points : List K), points.Nodup → ∀ x : K, ∑ i ∈ Finset.range (dirSize points), (dirP points i).eval x = 1 := by
    intro points h x
    have := dir_reproduce (a := 0) h (by unfold dirSize; split_ifs <;> omega) x
    simpa using this
  simp only [← Finset.mul_sum, ← Finset.sum_mul]
  rw [key points1 h1, key points2 h2, key points3 h3]
  ring

/-- **C36**: for evaluation points within the range of the interpolation points the derivatives are computed: row `(k*n2+j)*n1+i` holds the partial derivatives of the product of the Lagrange polynomials,
and the values are the same as without derivatives. -/
theorem C36_derivatives (old points1 points2 points3 : List K) (x1 x2 x3 : K) (h1 : points1.Nodup) (h2 : points2.Nodup) (h3 : points3.Nodup)
    (r1 : points1 = [] ∨ (points1.headD 0 ≤ x1 ∧ x1 ≤ points1.getLastD 0)) (r2 : points2 = [] ∨ (points2.headD 0 ≤ x2 ∧ x2 ≤ points2.getLastD 0))
    (r3 : points3 = [] ∨ (points3.headD 0 ≤ x3 ∧ x3 ≤ points3.getLastD 0)) :
    ∃ B B0 D, computeBasis old true points1 x1 points2 x2 points3 x3 = some B ∧ computeBasis old false points1 x1 points2 x2 points3 x3 = some B0 ∧ B.val = B0.val ∧ B.der = some D ∧
      D.length = dirSize points1 * dirSize points2 * dirSize points3 ∧
      ∀ (i j k : Nat) (P1 P2 P3 : K[X]), i < dirSize points1 → j < dirSize points2 → k < dirSize points3 → IsDirFun points1 i P1 → IsDirFun points2 j P2 → IsDirFun points3 k P3 →
        ∃ row, D[(k * dirSize points2 + j) * dirSize points1 + i]? = some row ∧
          row.length = (if points3 ≠ [] then 3 else if points2 ≠ [] then 2 else 1) ∧
          row[0]? = some ((derivative P1).eval x1 * P2.eval x2 * P3.eval x3) ∧
          (points2 ≠ [] → row[1]? = some (P1.eval x1 * (derivative P2).eval x2 * P3.eval x3)) ∧
          (points3 ≠ [] → row[2]? = some (P1.eval x1 * P2.eval x2 * (derivative P3).eval x3)) := by
  refine ⟨_, _, _, computeBasis_der old points1 points2 points3 r1 r2 r3, computeBasis_val old points1 points2 points3 x1 x2 x3, rfl, rfl, ?_, fun i j k P1 P2 P3 hi hj hk q1 q2 q3 => ?_⟩
  · rw [tensor_length]
  · refine ⟨_, tensor_get _ hi hj hk, ?_⟩
    rw [dirP_unique h1 hi q1, dirP_unique h2 hj q2, dirP_unique h3 hk q3]
    by_cases g3 : points3 = []
    · by_cases g2 : points2 = []
      · simp [g2, g3]
      · have : 0 < points2.length := List.length_pos_iff.mpr g2
        simp [g2, g3, this]
    · have : 0 < points3.length := List.length_pos_iff.mpr g3
      simp [g3, this]

/-- **C36**: derivatives outside the range of the interpolation points are refused. -/
theorem C36_out_of_range (old points1 points2 points3 : List K) (x1 x2 x3 : K) (hp : points1 ≠ []) (hx : x1 < points1.headD 0 ∨ points1.getLastD 0 < x1) :
    computeBasis old true points1 x1 points2 x2 points3 x3 = none := by
  obtain ⟨v1, e1, _⟩ := evalDir_val points1 x1
  obtain ⟨v2, e2, _⟩ := evalDir_val points2 x2
  obtain ⟨v3, e3, _⟩ := evalDir_val points3 x3
  have hd : evalDir points1 x1 true (List.replicate points1.length 0) = none := by
    unfold evalDir
    obtain ⟨n, hn⟩ : ∃ n, points1.length = n+1 := ⟨points1.length - 1, by have := List.length_pos_iff.mpr hp; omega⟩
    have h0 : eval1D points1 ((0 : Nat) : Int) x1 true = none := by
      unfold eval1D
      rw [if_neg (by rw [hn]; omega), if_pos ⟨rfl, hx⟩]
    rw [hn, List.range_succ_eq_map, List.foldlM_cons, h0]
    rfl
  unfold computeBasis
  dsimp only
  rw [e1, e2, e3]
  dsimp only
  rw [if_pos rfl, hd]

variable [IsStrictOrderedRing K]

/-- **C36**: the equidistant points used when only the number of points is given are distinct and run from -1 to 1. -/
theorem C36_uniform (p : Nat) (hp : 2 ≤ p) : (uniformPoints p : List K).length = p ∧ (uniformPoints p : List K).Nodup ∧
    (uniformPoints p : List K).headD 0 = -1 ∧ (uniformPoints p : List K).getLastD 0 = 1 := by
  have hpos : (0 : K) < ((p - 1 : Nat) : K) := by exact_mod_cast (show 0 < p - 1 by omega)
  unfold uniformPoints
  refine ⟨by simp, ?_, ?_, ?_⟩
  · refine List.Nodup.map ?_ List.nodup_range
    intro a b hab
    have hab : ((a + a : Nat) : K) / ((p - 1 : Nat) : K) = ((b + b : Nat) : K) / ((p - 1 : Nat) : K) := add_left_cancel hab
    rw [div_left_inj' hpos.ne'] at hab
    have : a + a = b + b := by exact_mod_cast hab
    omega
  · obtain ⟨n, rfl⟩ : ∃ n, p = n+1 := ⟨p-1, by omega⟩
    rw [List.range_succ_eq_map]
    simp
  · obtain ⟨n, rfl⟩ : ∃ n, p = n+1 := ⟨p-1, by omega⟩
    rw [List.range_succ, List.map_append]
    simp only [List.map_cons, List.map_nil, List.getLastD_concat, Nat.add_sub_cancel]
    have hn : ((n : Nat) : K) ≠ 0 := by
      have : n ≠ 0 := by omega
      exact_mod_cast this
    push_cast
    field_simp
    ring

/-- **C36**: the one-dimensional interpolator reproduces polynomials of degree less than the number of grid points from their values. -/
theorem C36_interpolator (grid : List K) (h : grid.Nodup) (P : K[X]) (hP : P.degree < (grid.length : WithBot ℕ)) (x : K) :
    interpolate grid x (grid.map fun g => P.eval g) = P.eval x := by
  unfold interpolate interpEvaluate
  have := foldl_add_filter (fun _ => True) (fun i => (grid.map fun g => P.eval g).getD i 0 * evalLoop grid i x) 0 (grid.map fun g => P.eval g).length
  simp only [if_true, Finset.filter_true, zero_add] at this
  rw [this, List.length_map, ← lag_reproduce h hP x]
  refine Finset.sum_congr rfl fun i hi => ?_
  have hi := Finset.mem_range.mp hi
  rw [evalLoop_eq]
  simp [hi]

/-- **C36**: the rows of the interpolation matrix hold the values of all functions at the given points. -/
theorem C36_interpolation_matrix (grid xg : List K) (h : grid.Nodup) (r i : Nat) (x : K) (hr : xg[r]? = some x) (P : K[X]) (hP : IsLagrange grid i P) (hi : i < grid.length) :
    ∃ row, (interpMatrix grid xg)[r]? = some row ∧ row.length = grid.length ∧ row[i]? = some (P.eval x) := by
  unfold interpMatrix
  refine ⟨(List.range grid.length).map fun i => interpEvaluate grid x i, by simp [hr], by simp, ?_⟩
  rw [lagrange_unique h hP (lagP_spec h hi)]
  simp [hi, interpEvaluate, evalLoop_eq]

/-- **C36** for real numbers: the reported derivatives are the partial derivatives of the reported values. -/
theorem C36_partial_derivatives (points1 points2 points3 : List ℝ) (x1 x2 x3 : ℝ) (h1 : points1.Nodup) (h2 : points2.Nodup) (h3 : points3.Nodup)
    (n1 : points1 ≠ []) (n2 : points2 ≠ []) (n3 : points3 ≠ [])
    (r1 : points1.headD 0 ≤ x1 ∧ x1 ≤ points1.getLastD 0) (r2 : points2.headD 0 ≤ x2 ∧ x2 ≤ points2.getLastD 0) (r3 : points3.headD 0 ≤ x3 ∧ x3 ≤ points3.getLastD 0) :
    ∃ (B : Basis ℝ) (D : List (List ℝ)) (f : Nat → ℝ → ℝ → ℝ → ℝ), computeBasis [] true points1 x1 points2 x2 points3 x3 = some B ∧ B.der = some D ∧
      (∀ t1 t2 t3, ∃ B', computeBasis [] false points1 t1 points2 t2 points3 t3 = some B' ∧ ∀ c : Nat, c < points1.length * points2.length * points3.length → B'.val[c]? = some (f c t1 t2 t3)) ∧
      ∀ i j k : Nat, i < points1.length → j < points2.length → k < points3.length → ∃ d1 d2 d3, D[(k * points2.length + j) * points1.length + i]? = some [d1, d2, d3] ∧
        HasDerivAt (fun t => f ((k * points2.length + j) * points1.length + i) t x2 x3) d1 x1 ∧
        HasDerivAt (fun t => f ((k * points2.length + j) * points1.length + i) x1 t x3) d2 x2 ∧
        HasDerivAt (fun t => f ((k * points2.length + j) * points1.length + i) x1 x2 t) d3 x3 := by
  have s1 : dirSize points1 = points1.length := if_pos (List.length_pos_iff.mpr n1)
  have s2 : dirSize points2 = points2.length := if_pos (List.length_pos_iff.mpr n2)
  have s3 : dirSize points3 = points3.length := if_pos (List.length_pos_iff.mpr n3)
  let F : ℝ → ℝ → ℝ → List ℝ := fun t1 t2 t3 => tensorLoop (dirSize points1) (dirSize points2) (dirSize points3) (fun i j k => (dirP points1 i).eval t1 * (dirP points2 j).eval t2 * (dirP points3 k).eval t3)
  refine ⟨_, _, fun c t1 t2 t3 => (F t1 t2 t3).getD c 0, computeBasis_der [] points1 points2 points3 (Or.inr r1) (Or.inr r2) (Or.inr r3), rfl, fun t1 t2 t3 => ?_, fun i j k hi hj hk => ?_⟩
  · refine ⟨_, computeBasis_val [] points1 points2 points3 t1 t2 t3, fun c hc => ?_⟩
    dsimp only
    rw [List.drop_nil, List.append_nil]
    have hl : c < (F t1 t2 t3).length := by rw [tensor_length, s1, s2, s3]; exact hc
    show (F t1 t2 t3)[c]? = _
    rw [List.getD_eq_getElem?_getD, List.getElem?_eq_getElem hl]; rfl
  · rw [← s1] at hi
    rw [← s2] at hj
    rw [← s3] at hk
    rw [← s1, ← s2]
    have hF : ∀ t1 t2 t3, (F t1 t2 t3).getD ((k * dirSize points2 + j) * dirSize points1 + i) 0 = (dirP points1 i).eval t1 * (dirP points2 j).eval t2 * (dirP points3 k).eval t3 := by
      intro t1 t2 t3
      rw [List.getD_eq_getElem?_getD, tensor_get _ hi hj hk]; rfl
    refine ⟨(derivative (dirP points1 i)).eval x1 * (dirP points2 j).eval x2 * (dirP points3 k).eval x3,
      (dirP points1 i).eval x1 * (derivative (dirP points2 j)).eval x2 * (dirP points3 k).eval x3,
      (dirP points1 i).eval x1 * (dirP points2 j).eval x2 * (derivative (dirP points3 k)).eval x3, ?_, ?_, ?_, ?_⟩
    · rw [tensor_get _ hi hj hk, if_pos (List.length_pos_iff.mpr n3)]; rfl
    · simp only [hF]
      exact (((dirP points1 i).hasDerivAt x1).mul_const _).mul_const _
    · simp only [hF]
      exact (((dirP points2 j).hasDerivAt x2).const_mul _).mul_const _
    · simp only [hF]
      exact ((dirP points3 k).hasDerivAt x3).const_mul _

/-- Quadratic functions in one direction, linear in the other: the values at an inner point. -/
example : computeBasis (K := Rat) [] false (uniformPoints 3) (1/2) (uniformPoints 2) 0 [] 0 = some ⟨[-1/16, 3/8, 3/16, -1/16, 3/8, 3/16], none⟩ := by decide +kernel

/-- ... and the derivatives. -/
example : (computeBasis (K := Rat) [] true (uniformPoints 3) (1/2) (uniformPoints 2) 0 [] 0).bind Basis.der =
    some [[0, 1/16], [-1/2, -3/8], [1/2, -3/16], [0, -1/16], [-1/2, 3/8], [1/2, 3/16]] := by decide +kernel

end IFEM.Props
