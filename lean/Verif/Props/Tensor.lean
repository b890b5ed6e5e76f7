import Verif.Spec.Tensor
import Mathlib.Tactic.FinCases
import Mathlib.Tactic.IntervalCases
import Mathlib.Tactic.Ring
import Mathlib.Tactic.FieldSimp
import Mathlib.Tactic.Linarith
import Mathlib.Tactic.NormNum

/-!
# C68: tensors — components, sums, products
-/
namespace IFEM.Tens
open IFEM.Mapping Matrix

theorem fr1 : List.finRange 1 = [0] := rfl
theorem fr2 : List.finRange 2 = [0, 1] := rfl
theorem fr3 : List.finRange 3 = [0, 1, 2] := rfl

theorem ofMat1_eq (M : Matrix (Fin 1) (Fin 1) ℝ) : ofMat M = ⟨1, false, [M 0 0]⟩ := by simp [ofMat, fr1]
theorem ofMat2_eq (M : Matrix (Fin 2) (Fin 2) ℝ) : ofMat M = ⟨2, false, [M 0 0, M 1 0, M 0 1, M 1 1]⟩ := by simp [ofMat, fr2]
theorem ofMat3_eq (M : Matrix (Fin 3) (Fin 3) ℝ) :
    ofMat M = ⟨3, false, [M 0 0, M 1 0, M 2 0, M 0 1, M 1 1, M 2 1, M 0 2, M 1 2, M 2 2]⟩ := by simp [ofMat, fr3]

theorem sym_le {n : Nat} {M : Matrix (Fin n) (Fin n) ℝ} (h : M.IsSymm) (i j : Fin n) : M j i = M i j := h.apply i j

/-- **C68 (components).**  `T(i,j)` is the entry of row `i` and column `j` of the tensor, in any of the storage forms. -/
theorem C68_components :
    (∀ (M : Matrix (Fin 1) (Fin 1) ℝ) i j, (ofMat M).get (i.val+1) (j.val+1) = M i j) ∧
    (∀ (M : Matrix (Fin 2) (Fin 2) ℝ) i j, (ofMat M).get (i.val+1) (j.val+1) = M i j) ∧
    (∀ (M : Matrix (Fin 3) (Fin 3) ℝ) i j, (ofMat M).get (i.val+1) (j.val+1) = M i j) ∧
    (∀ (M : Matrix (Fin 2) (Fin 2) ℝ) (_ : M.IsSymm) i j, (ofSym2 M).get (i.val+1) (j.val+1) = M i j) ∧
    (∀ (M : Matrix (Fin 3) (Fin 3) ℝ) (_ : M.IsSymm) i j, (ofSym3 M).get (i.val+1) (j.val+1) = M i j) ∧
    (∀ (M : Matrix (Fin 3) (Fin 3) ℝ) (_ : Plane M) i j, (i.val < 2 ∧ j.val < 2 ∨ i.val = 2 ∧ j.val = 2) → (ofSym33 M).get (i.val+1) (j.val+1) = M i j) := by
  refine ⟨?_, ?_, ?_, ?_, ?_, ?_⟩
  · intro M i j; rw [ofMat1_eq]; fin_cases i; fin_cases j; rfl
  · intro M i j; rw [ofMat2_eq]; fin_cases i <;> fin_cases j <;> rfl
  · intro M i j; rw [ofMat3_eq]; fin_cases i <;> fin_cases j <;> rfl
  · intro M h i j
    fin_cases i <;> fin_cases j <;> first | rfl | exact (sym_le h _ _).symm
  · intro M h i j
    fin_cases i <;> fin_cases j <;> first | rfl | exact (sym_le h _ _).symm
  · intro M h i j hij
    fin_cases i <;> fin_cases j <;> first | rfl | exact (sym_le h.1 _ _).symm | simp at hij

/-- **C68 (representation).**  Every tensor with as many components as the constructors give it is the tensor of a matrix. -/
theorem C68_representation :
    (∀ (n : Nat) (v : List ℝ), 1 ≤ n → n ≤ 3 → v.length = n*n → ∃ M : Matrix (Fin n) (Fin n) ℝ, (⟨n, false, v⟩ : Tensor) = ofMat M) ∧
    (∀ v : List ℝ, v.length = 3 → ∃ M, M.IsSymm ∧ (⟨2, true, v⟩ : Tensor) = ofSym2 M) ∧
    (∀ v : List ℝ, v.length = 4 → ∃ M, Plane M ∧ (⟨2, true, v⟩ : Tensor) = ofSym33 M) ∧
    (∀ v : List ℝ, v.length = 6 → ∃ M, M.IsSymm ∧ (⟨3, true, v⟩ : Tensor) = ofSym3 M) := by
  refine ⟨?_, ?_, ?_, ?_⟩
  · intro n v h1 h3 h
    interval_cases n
    · obtain ⟨a, rfl⟩ := List.length_eq_one_iff.1 h
      exact ⟨!![a], by rw [ofMat1_eq]; rfl⟩
    · match v, h with
      | [a, b, c, d], _ => exact ⟨!![a, c; b, d], by rw [ofMat2_eq]; rfl⟩
    · match v, h with
      | [a, b, c, d, e, f, g, h, i], _ => exact ⟨!![a, d, g; b, e, h; c, f, i], by rw [ofMat3_eq]; rfl⟩
  · intro v h
    match v, h with
    | [a, b, c], _ =>
      refine ⟨!![a, c; c, b], ?_, rfl⟩
      apply IsSymm.ext; intro i j; fin_cases i <;> fin_cases j <;> rfl
  · intro v h
    match v, h with
    | [a, b, c, d], _ =>
      refine ⟨!![a, d, 0; d, b, 0; 0, 0, c], ⟨?_, rfl, rfl⟩, rfl⟩
      apply IsSymm.ext; intro i j; fin_cases i <;> fin_cases j <;> rfl
  · intro v h
    match v, h with
    | [a, b, c, d, e, f], _ =>
      refine ⟨!![a, d, f; d, b, e; f, e, c], ?_, rfl⟩
      apply IsSymm.ext; intro i j; fin_cases i <;> fin_cases j <;> rfl

/-- **C68 (construction).**  The constructors make the zero and the unit tensor. -/
theorem C68_construction : (∀ n, 1 ≤ n → n ≤ 3 → ofDim n false = ofMat (0 : Matrix (Fin n) (Fin n) ℝ) ∧ ofDim n true = ofMat (1 : Matrix (Fin n) (Fin n) ℝ)) ∧
    symDim 1 false = ofSym1 0 ∧ symDim 2 false = ofSym2 0 ∧ symDim 2 true = ofSym33 0 ∧ symDim 3 false = ofSym3 0 := by
  refine ⟨?_, ?_, ?_, ?_, ?_⟩
  · intro n h1 h3
    interval_cases n
    · rw [ofMat1_eq, ofMat1_eq]; simp [ofDim, List.range_succ]
    · rw [ofMat2_eq, ofMat2_eq]; simp [ofDim, List.range_succ]
    · rw [ofMat3_eq, ofMat3_eq]; simp [ofDim, List.range_succ]
  all_goals simp [symDim, ofSym1, ofSym2, ofSym3, ofSym33, List.replicate]

theorem pr1 : pairs 1 false = [(1,1)] := by decide
theorem pr2 : pairs 2 false = [(1,1), (1,2), (2,1), (2,2)] := by decide
theorem pr3 : pairs 3 false = [(1,1), (1,2), (1,3), (2,1), (2,2), (2,3), (3,1), (3,2), (3,3)] := by decide
theorem pt1 : pairs 1 true = [(1,1)] := by decide
theorem pt2 : pairs 2 true = [(1,1), (1,2), (2,2)] := by decide
theorem pt3 : pairs 3 true = [(1,1), (1,2), (1,3), (2,2), (2,3), (3,3)] := by decide

/-- **C68 (products).**  Post- and pre-multiplication, in place, and the product of two tensors are the matrix products. -/
theorem C68_products {n : Nat} (h1 : 1 ≤ n) (h3 : n ≤ 3) (A B : Matrix (Fin n) (Fin n) ℝ) :
    mul (ofMat A) (ofMat B) = ofMat (A*B) ∧ (ofMat A).postMult (ofMat B) = ofMat (A*B) ∧ (ofMat A).preMult (ofMat B) = ofMat (B*A) := by
  interval_cases n
  · simp [ofMat1_eq, mul, Tensor.postMult, Tensor.preMult, prodInto, pr1, Tensor.put, Tensor.get, Tensor.at, Tensor.index, prodEntry, ofDim, List.range_succ, Matrix.mul_apply]
  · simp [ofMat2_eq, mul, Tensor.postMult, Tensor.preMult, prodInto, pr2, Tensor.put, Tensor.get, Tensor.at, Tensor.index, prodEntry, ofDim, List.range_succ, Matrix.mul_apply, Fin.sum_univ_two]
  · simp [ofMat3_eq, mul, Tensor.postMult, Tensor.preMult, prodInto, pr3, Tensor.put, Tensor.get, Tensor.at, Tensor.index, prodEntry, ofDim, List.range_succ, Matrix.mul_apply, Fin.sum_univ_three]

/-- The loops over a vector product, the dimension 3 only. -/
theorem vec_ext {u w : V3} (h : vec u = vec w) : u = w := by
  have h0 := congrFun h 0
  have h1 := congrFun h 1
  have h2 := congrFun h 2
  cases u; cases w
  simp [vec] at h0 h1 h2
  simp [h0, h1, h2]

/-- **C68 (vectors).**  The products with a vector from the right and from the left are the matrix products; a tensor of fewer dimensions leaves the further components alone. -/
theorem C68_vectors (u : V3) :
    (∀ M : Matrix (Fin 3) (Fin 3) ℝ, vec (mulVec (ofMat M) u) = M *ᵥ vec u ∧ vec (vecMul u (ofMat M)) = vec u ᵥ* M) ∧
    (∀ M : Matrix (Fin 2) (Fin 2) ℝ, vec (mulVec (ofMat M) u) = pad2 M *ᵥ vec u ∧ vec (vecMul u (ofMat M)) = vec u ᵥ* pad2 M) ∧
    (∀ M : Matrix (Fin 1) (Fin 1) ℝ, vec (mulVec (ofMat M) u) = pad1 M *ᵥ vec u ∧ vec (vecMul u (ofMat M)) = vec u ᵥ* pad1 M) ∧
    (∀ M : Matrix (Fin 3) (Fin 3) ℝ, M.IsSymm → vec (mulVec (ofSym3 M) u) = M *ᵥ vec u ∧ vec (vecMul u (ofSym3 M)) = M *ᵥ vec u) := by
  refine ⟨?_, ?_, ?_, ?_⟩
  · intro M
    rw [ofMat3_eq]
    constructor <;> funext i <;> fin_cases i <;>
      simp [vec, mulVec, vecMul, Tensor.get, Tensor.at, Tensor.index, Matrix.mulVec, Matrix.vecMul, dotProduct, Fin.sum_univ_three] <;> ring
  · intro M
    rw [ofMat2_eq]
    constructor <;> funext i <;> fin_cases i <;>
      simp [vec, mulVec, vecMul, Tensor.get, Tensor.at, Tensor.index, Matrix.mulVec, Matrix.vecMul, dotProduct, Fin.sum_univ_three, pad2] <;> ring
  · intro M
    rw [ofMat1_eq]
    constructor <;> funext i <;> fin_cases i <;>
      simp [vec, mulVec, vecMul, Tensor.get, Tensor.at, Tensor.index, Matrix.mulVec, Matrix.vecMul, dotProduct, Fin.sum_univ_three, pad1] <;> ring
  · intro M h
    have a := sym_le h 0 1
    have b := sym_le h 0 2
    have c := sym_le h 1 2
    constructor <;> funext i <;> fin_cases i <;>
      simp [ofSym3, vec, mulVec, vecMul, Tensor.get, Tensor.at, Tensor.index, Matrix.mulVec, Matrix.vecMul, dotProduct, Fin.sum_univ_three, a, b, c]

/-- **C68 (outer product).** -/
theorem C68_outer (a b : V3) :
    (∀ M : Matrix (Fin 3) (Fin 3) ℝ, (ofMat M).outerProd a b = ofMat (vecMulVec (vec a) (vec b))) ∧
    (∀ M : Matrix (Fin 2) (Fin 2) ℝ, (ofMat M).outerProd a b = ofMat (vecMulVec ![a.x, a.y] ![b.x, b.y])) ∧
    (∀ M : Matrix (Fin 3) (Fin 3) ℝ, (ofSym3 M).outerSym a = ofSym3 (vecMulVec (vec a) (vec a))) ∧
    (∀ M : Matrix (Fin 2) (Fin 2) ℝ, (ofSym2 M).outerSym a = ofSym2 (vecMulVec ![a.x, a.y] ![a.x, a.y])) := by
  refine ⟨?_, ?_, ?_, ?_⟩
  · intro M
    simp [ofMat3_eq, Tensor.outerProd, pr3, Tensor.put, Tensor.index, comp, vecMulVec, vec]
  · intro M
    simp [ofMat2_eq, Tensor.outerProd, pr2, Tensor.put, Tensor.index, comp, vecMulVec]
  · intro M
    simp [ofSym3, Tensor.outerSym, Tensor.write, vecMulVec, vec]
  · intro M
    simp [ofSym2, Tensor.outerSym, Tensor.write, vecMulVec]

/-- **C68 (sums).**  The sum, the difference, the multiple of tensors and the sum with a multiple of the unit tensor. -/
theorem C68_sums {n : Nat} (h1 : 1 ≤ n) (h3 : n ≤ 3) (A B : Matrix (Fin n) (Fin n) ℝ) (c : ℝ) :
    (ofMat A).add (ofMat B) = ofMat (A + B) ∧ (ofMat A).sub (ofMat B) = ofMat (A - B) ∧ (ofMat A).scale c = ofMat (c • A) ∧
    (ofMat A).addDiag c = ofMat (A + c • 1) := by
  interval_cases n
  · simp [ofMat1_eq, Tensor.add, Tensor.sub, Tensor.scale, Tensor.addDiag, Tensor.at, mul_comm, List.range_succ]
  · simp [ofMat2_eq, Tensor.add, Tensor.sub, Tensor.scale, Tensor.addDiag, Tensor.at, mul_comm, List.range_succ]
  · simp [ofMat3_eq, Tensor.add, Tensor.sub, Tensor.scale, Tensor.addDiag, Tensor.at, mul_comm, List.range_succ]

/-- **C68 (sums, symmetric).** -/
theorem C68_sums_symmetric (A B : Matrix (Fin 3) (Fin 3) ℝ) (c : ℝ) (A2 B2 : Matrix (Fin 2) (Fin 2) ℝ) :
    ((ofSym3 A).add (ofSym3 B) = ofSym3 (A + B) ∧ (ofSym3 A).sub (ofSym3 B) = ofSym3 (A - B) ∧ (ofSym3 A).scale c = ofSym3 (c • A) ∧
      (ofSym3 A).addDiag c = ofSym3 (A + c • 1)) ∧
    ((ofSym33 A).add (ofSym33 B) = ofSym33 (A + B) ∧ (ofSym33 A).sub (ofSym33 B) = ofSym33 (A - B) ∧ (ofSym33 A).scale c = ofSym33 (c • A) ∧
      (ofSym33 A).addDiag c = ofSym33 (A + c • 1)) ∧
    ((ofSym2 A2).add (ofSym2 B2) = ofSym2 (A2 + B2) ∧ (ofSym2 A2).sub (ofSym2 B2) = ofSym2 (A2 - B2) ∧ (ofSym2 A2).scale c = ofSym2 (c • A2) ∧
      (ofSym2 A2).addDiag c = ofSym2 (A2 + c • 1)) := by
  refine ⟨?_, ?_, ?_⟩ <;>
  simp [ofSym3, ofSym33, ofSym2, Tensor.add, Tensor.sub, Tensor.scale, Tensor.addDiag, Tensor.at, mul_comm, List.range_succ]

/-- **C68 (inner product).**  For tensors which are not symmetric ones, the inner product is the double contraction. -/
theorem C68_inner {n : Nat} (h1 : 1 ≤ n) (h3 : n ≤ 3) (A B : Matrix (Fin n) (Fin n) ℝ) : innerProd (ofMat A) (ofMat B) = ddot A B := by
  interval_cases n
  · simp [ofMat1_eq, innerProd, ddot]
  · simp [ofMat2_eq, innerProd, ddot, Fin.sum_univ_two]; ring
  · simp [ofMat3_eq, innerProd, ddot, Fin.sum_univ_three]; ring

/-- **C68 (counterexample, inner product).**  For symmetric tensors it is not: every off-diagonal term is counted once. -/
theorem C68_inner_counterexample : ∃ A : Matrix (Fin 2) (Fin 2) ℝ, A.IsSymm ∧ ddot A A = 2 ∧ innerProd (ofSym2 A) (ofSym2 A) = 1 ∧ l2norm2 (ofSym2 A) = 2 := by
  refine ⟨!![0, 1; 1, 0], ?_, ?_, ?_, ?_⟩
  · apply IsSymm.ext; intro i j; fin_cases i <;> fin_cases j <;> rfl
  · simp [ddot, Fin.sum_univ_two]; norm_num
  · simp [ofSym2, innerProd]
  · simp [ofSym2, l2norm2, Tensor.at, List.range_succ]

/-- **C68 (transposition).**  Transposition and the symmetric part. -/
theorem C68_transpose {n : Nat} (h1 : 1 ≤ n) (h3 : n ≤ 3) (A : Matrix (Fin n) (Fin n) ℝ) :
    (ofMat A).transpose = ofMat Aᵀ ∧ (ofMat A).symmetrize = ofMat ((1/2 : ℝ) • (A + Aᵀ)) := by
  interval_cases n
  · simp [ofMat1_eq, Tensor.transpose, Tensor.symmetrize]; ring
  · simp [ofMat2_eq, Tensor.transpose, Tensor.symmetrize, Tensor.swap, Tensor.avg, Tensor.at, ← two_mul, add_comm]; ring
  · simp [ofMat3_eq, Tensor.transpose, Tensor.symmetrize, Tensor.swap, Tensor.avg, Tensor.at, ← two_mul, add_comm]
    refine ⟨?_, ?_, ?_, ?_, ?_, ?_⟩ <;> ring

/-- **C68 (cyclic shift).**  For an index above `-n` the columns move `idx` places to the right, cyclically; below, nothing happens. -/
theorem C68_shift {n : Nat} (h1 : 2 ≤ n) (h3 : n ≤ 3) (A : Matrix (Fin n) (Fin n) ℝ) (idx : Int) :
    (-(n : Int) < idx → ∃ B : Matrix (Fin n) (Fin n) ℝ, (ofMat A).shift idx = ofMat B ∧
      ∀ (i j k : Fin n), (k.val : Int) = (j.val + idx) % n → B i k = A i j) ∧
    (idx ≤ -(n : Int) → (ofMat A).shift idx = ofMat A) := by
  constructor
  · intro h
    interval_cases n
    · rcases Int.emod_two_eq_zero_or_one idx with h0 | h0
      · refine ⟨A, ?_, ?_⟩
        · rw [ofMat2_eq, Tensor.shift, if_pos]; right; right; show (2 + idx) % 2 = 0; omega
        · intro i j k hk
          have : k = j := by apply Fin.ext; push_cast at hk; omega
          rw [this]
      · refine ⟨!![A 0 1, A 0 0; A 1 1, A 1 0], ?_, ?_⟩
        · rw [ofMat2_eq, Tensor.shift, if_neg, ofMat2_eq]
          · simp [Tensor.swap, Tensor.at]
          · rintro (h' | h' | h')
            · simp at h'
            · exact absurd h' (by push_cast at h ⊢; omega)
            · have : (2 + idx) % 2 = 0 := h'
              omega
        · intro i j k hk
          fin_cases j <;> fin_cases k <;> simp at hk <;> first | omega | (fin_cases i <;> rfl)
    · have h0 : idx % 3 = 0 ∨ idx % 3 = 1 ∨ idx % 3 = 2 := by omega
      have ne (h : -((3 : Nat) : Int) < idx) (h0 : idx % 3 ≠ 0) (v : List ℝ) : ¬ ((⟨3, false, v⟩ : Tensor).sym = true ∨ idx ≤ -((⟨3, false, v⟩ : Tensor).n : Int) ∨ (((⟨3, false, v⟩ : Tensor).n : Int) + idx) % ((⟨3, false, v⟩ : Tensor).n : Int) = 0) := by
        rintro (h' | h' | h')
        · simp at h'
        · exact absurd h' (by push_cast at h ⊢; omega)
        · have : (3 + idx) % 3 = 0 := h'
          omega
      rcases h0 with h0 | h0 | h0
      · refine ⟨A, ?_, ?_⟩
        · rw [ofMat3_eq, Tensor.shift, if_pos]; right; right; show (3 + idx) % 3 = 0; omega
        · intro i j k hk
          have : k = j := by apply Fin.ext; push_cast at hk; omega
          rw [this]
      · refine ⟨!![A 0 2, A 0 0, A 0 1; A 1 2, A 1 0, A 1 1; A 2 2, A 2 0, A 2 1], ?_, ?_⟩
        · rw [ofMat3_eq, Tensor.shift, if_neg (ne h (by omega) _), ofMat3_eq]
          have : (idx % 3).toNat = 1 := by omega
          simp [this, Tensor.swap, Tensor.at, List.range_succ]
        · intro i j k hk
          fin_cases j <;> fin_cases k <;> simp at hk <;> first | omega | (fin_cases i <;> rfl)
      · refine ⟨!![A 0 1, A 0 2, A 0 0; A 1 1, A 1 2, A 1 0; A 2 1, A 2 2, A 2 0], ?_, ?_⟩
        · rw [ofMat3_eq, Tensor.shift, if_neg (ne h (by omega) _), ofMat3_eq]
          have : (idx % 3).toNat = 2 := by omega
          simp [this, Tensor.swap, Tensor.at, List.range_succ]
        · intro i j k hk
          fin_cases j <;> fin_cases k <;> simp at hk <;> first | omega | (fin_cases i <;> rfl)
  · intro h
    rw [Tensor.shift, if_pos]
    exact Or.inr (Or.inl h)

/-- **C68 (trace and determinant).** -/
theorem C68_trace_det :
    (∀ {n : Nat} (M : Matrix (Fin n) (Fin n) ℝ), 1 ≤ n → n ≤ 3 → (ofMat M).trace = M.trace ∧ (ofMat M).det = M.det) ∧
    (∀ M : Matrix (Fin 3) (Fin 3) ℝ, M.IsSymm → (ofSym3 M).trace = M.trace ∧ (ofSym3 M).det = M.det) ∧
    (∀ M : Matrix (Fin 2) (Fin 2) ℝ, M.IsSymm → (ofSym2 M).trace = M.trace ∧ (ofSym2 M).det = M.det) ∧
    (∀ M : Matrix (Fin 3) (Fin 3) ℝ, Plane M → (ofSym33 M).trace = M.trace ∧ (ofSym33 M).det = M.det) := by
  refine ⟨?_, ?_, ?_, ?_⟩
  · intro n M h1 h3
    interval_cases n
    · simp [ofMat1_eq, Tensor.trace, Tensor.det, Tensor.at, Matrix.trace]
    · simp [ofMat2_eq, Tensor.trace, Tensor.det, Tensor.at, Matrix.trace, Fin.sum_univ_two, det_fin_two]; ring
    · simp [ofMat3_eq, Tensor.trace, Tensor.det, Tensor.at, Matrix.trace, Fin.sum_univ_three, det_fin_three]; ring
  · intro M h
    simp [ofSym3, Tensor.trace, Tensor.det, Tensor.at, Matrix.trace, Fin.sum_univ_three, det_fin_three, sym_le h 0 1, sym_le h 0 2, sym_le h 1 2]; ring
  · intro M h
    simp [ofSym2, Tensor.trace, Tensor.det, Tensor.at, Tensor.back, Matrix.trace, Fin.sum_univ_two, det_fin_two, sym_le h 0 1]
  · intro M h
    simp [ofSym33, Tensor.trace, Tensor.det, Tensor.at, Tensor.back, Matrix.trace, Fin.sum_univ_three, det_fin_three, sym_le h.1 0 1, sym_le h.1 0 2, sym_le h.1 1 2, h.2.1, h.2.2]; ring

end IFEM.Tens
