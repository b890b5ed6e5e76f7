import Verif.Lemmas.Matrix
import Mathlib.LinearAlgebra.Matrix.Determinant.Basic
import Mathlib.Algebra.Field.Rat
import Mathlib.Algebra.Order.Ring.Unbundled.Rat
import Mathlib.Tactic.FieldSimp
import Mathlib.Tactic.LinearCombination
import Mathlib.Algebra.Order.Field.Basic
import Mathlib.Tactic.FinCases
/-!
# C60: dense matrix algebra
-/
namespace IFEM.Props
open IFEM IFEM.Spec IFEM.Lem IFEM.Mat

variable {R : Type} {r c k : Nat}

/-- An entry is found at its 1-based row and column, and there is nothing anywhere else. -/
theorem C60_access {m : Mat R} {A : Matrix (Fin r) (Fin c) R} (h : Rep m A) :
    (∀ (i : Fin r) (j : Fin c), m.get? ((i.1 : Int) + 1) ((j.1 : Int) + 1) = some (A i j)) ∧
    ∀ i j : Int, ¬ (1 ≤ i ∧ i ≤ r ∧ 1 ≤ j ∧ j ≤ c) → m.get? i j = none := by
  refine ⟨fun i j => rep_get h i j i.2 j.2, fun i j hij => ?_⟩
  unfold Mat.get?
  rw [h.rows, h.cols, if_neg hij]

/-- A matrix object holds exactly one matrix, and a matrix is held in exactly one way. -/
theorem C60_unique {m m' : Mat R} {A B : Matrix (Fin r) (Fin c) R} (h : Rep m A) : (Rep m B → A = B) ∧ (Rep m' A → m = m') :=
  ⟨rep_unique h, rep_eq h⟩

/-- Storing an entry changes that entry and no other. -/
theorem C60_set {m : Mat R} {A : Matrix (Fin r) (Fin c) R} (h : Rep m A) (i : Fin r) (j : Fin c) (v : R) :
    ∃ m', m.setAt? (i + 1) (j + 1) v = some m' ∧ Rep m' (fun i' j' => if i' = i ∧ j' = j then v else A i' j') := by
  have hb := rep_block h [()] (by simp) (fun m' _ => m'.setAt? (i + 1) (j + 1) v) (fun _ => i.1) (fun _ => j.1) (fun _ _ => v)
    (fun i' j' => if i' = i ∧ j' = j then v else A i' j') (fun _ _ => i.2)
    (fun m' a b d _ _ => by
      have := setAt_modify m' (i + 1) (j + 1) v ⟨by omega, by omega, by omega, by omega⟩ (by rw [a, b]; exact d)
      simp only [Nat.add_sub_cancel] at this
      rw [this, a])
    (fun i' j' => by
      by_cases e : i = i' ∧ j = j'
      · obtain ⟨rfl, rfl⟩ := e
        left
        exact ⟨(), by simp, fun y _ => by simp, by simp⟩
      · right
        refine ⟨fun x _ ⟨e1, e2⟩ => e ⟨Fin.ext e1, Fin.ext e2⟩, ?_⟩
        show (if i' = i ∧ j' = j then v else A i' j') = A i' j'
        rw [if_neg fun e' => e ⟨e'.1.symm, e'.2.symm⟩])
  obtain ⟨m', h1, h2⟩ := hb
  refine ⟨m', ?_, h2⟩
  rw [List.foldlM_cons] at h1
  cases hs : m.setAt? (i + 1) (j + 1) v with
  | none => rw [hs] at h1; simp at h1
  | some x => rw [hs] at h1; simpa using h1

/-- `resize(r,c,true)` gives the zero matrix of the new size, whatever the matrix was before. -/
theorem C60_resize_clear [Zero R] (m : Mat R) (hw : m.WF) (M N : Nat) : Rep (m.resize M N true) (0 : Matrix (Fin M) (Fin N) R) :=
  resize_force m hw M N

section field
variable [Field R]

/-- The loop of a product: every entry gets its sum of products added. -/
theorem product_loop {C A B : Mat R} {tA tB : Bool} {A' : Matrix (Fin r) (Fin k) R} {B' : Matrix (Fin k) (Fin c) R} {C' : Matrix (Fin r) (Fin c) R}
    (hA : RepOp A tA A') (hB : RepOp B tB B') (hC : Rep C C') (α : R) :
    ∃ m', (triples r c k).foldlM (fun C q => do
        let a ← opGet? A tA q.1 q.2.2
        let b ← opGet? B tB q.2.2 q.2.1
        C.addAt? ((q.1 : Int) + 1) ((q.2.1 : Int) + 1) (α * a * b)) C = some m' ∧ Rep m' (C' + α • (A' * B')) := by
  obtain ⟨m', h1, h2⟩ := rep_fold hC (triples r c k) (fun (C : Mat R) (q : Nat × Nat × Nat) => do
        let a ← opGet? A tA q.1 q.2.2
        let b ← opGet? B tB q.2.2 q.2.1
        C.addAt? ((q.1 : Int) + 1) ((q.2.1 : Int) + 1) (α * a * b))
      (fun q => q.1 + r * q.2.1) (fun q y => y + α * (opGet? A tA q.1 q.2.2).getD 0 * (opGet? B tB q.2.2 q.2.1).getD 0)
      (fun m' a b d q hq => by
        obtain ⟨q1, q2, q3⟩ := (mem_triples _ _ _ _).mp hq
        rw [rep_opGet hA _ _ q1 q3, rep_opGet hB _ _ q3 q2]
        simp only [Option.bind_eq_bind, Option.bind_some, Option.getD_some]
        have := addAt_modify m' (q.1 + 1) (q.2.1 + 1) (α * A' ⟨q.1, q1⟩ ⟨q.2.2, q3⟩ * B' ⟨q.2.2, q3⟩ ⟨q.2.1, q2⟩)
          ⟨by omega, by omega, by omega, by omega⟩ (by rw [a, b]; exact d)
        simp only [Nat.add_sub_cancel, Nat.cast_add, Nat.cast_one] at this
        rw [this, a])
  refine ⟨m', h1, ?_⟩
  have : C' + α • (A' * B') = fun i j => ((triples r c k).filter fun q => decide (q.1 + r * q.2.1 = i.1 + r * j.1)).foldl
      (fun y q => y + α * (opGet? A tA q.1 q.2.2).getD 0 * (opGet? B tB q.2.2 q.2.1).getD 0) (C' i j) := by
    funext i j
    rw [foldl_add_sum, sum_filter, sum_triples, Matrix.add_apply, Matrix.smul_apply, Matrix.mul_apply]
    congr 1
    rw [Finset.sum_eq_single i, Finset.sum_eq_single j, smul_eq_mul, Finset.mul_sum]
    · refine Finset.sum_congr rfl fun l _ => ?_
      rw [if_pos rfl, rep_opGet hA _ _ i.2 l.2, rep_opGet hB _ _ l.2 j.2]
      simp [mul_assoc]
    · intro j' _ hne
      refine Finset.sum_eq_zero fun l _ => if_neg fun e => hne ?_
      have hr : 0 < r := Nat.lt_of_le_of_lt (Nat.zero_le _) i.2
      exact Fin.ext (Nat.eq_of_mul_eq_mul_left hr (Nat.add_left_cancel e))
    · simp
    · intro i' _ hne
      refine Finset.sum_eq_zero fun j' _ => Finset.sum_eq_zero fun l _ => if_neg fun e => hne ?_
      have := congrArg (· % r) e
      simp [Nat.add_mul_mod_self_left, Nat.mod_eq_of_lt i'.2, Nat.mod_eq_of_lt i.2] at this
      exact Fin.ext this
    · simp
  rw [this]; exact h2

/-- `C.multiply(A,B,transA,transB,false,alpha)` makes `C` the product of the (possibly transposed) matrices times `alpha`, whatever `C` was before. -/
theorem C60_multiply {C A B : Mat R} {tA tB : Bool} {A' : Matrix (Fin r) (Fin k) R} {B' : Matrix (Fin k) (Fin c) R}
    (hA : RepOp A tA A') (hB : RepOp B tB B') (hC : C.WF) (α : R) :
    ∃ m', C.multiply A B tA tB false α = some m' ∧ Rep m' (α • (A' * B')) := by
  obtain ⟨a1, a2⟩ := repOp_dims hA
  obtain ⟨b1, b2⟩ := repOp_dims hB
  obtain ⟨m', h1, h2⟩ := product_loop hA hB (C60_resize_clear C hC r c) α
  refine ⟨m', ?_, ?_⟩
  · unfold multiply
    dsimp only
    rw [a1, a2, b1, b2, if_neg (by simp)]
    simpa using h1
  · simpa using h2

/-- With `addTo` it adds the product to `C`. -/
theorem C60_multiply_add {C A B : Mat R} {tA tB : Bool} {A' : Matrix (Fin r) (Fin k) R} {B' : Matrix (Fin k) (Fin c) R} {C' : Matrix (Fin r) (Fin c) R}
    (hA : RepOp A tA A') (hB : RepOp B tB B') (hC : Rep C C') (α : R) :
    ∃ m', C.multiply A B tA tB true α = some m' ∧ Rep m' (C' + α • (A' * B')) := by
  obtain ⟨a1, a2⟩ := repOp_dims hA
  obtain ⟨b1, b2⟩ := repOp_dims hB
  by_cases he : C.elem.isEmpty = true
  · have hw : C.WF := by
      show C.elem.length = C.nrow * C.ncol
      rw [hC.rows, hC.cols]; exact hC.size
    obtain ⟨m', h1, h2⟩ := product_loop hA hB (C60_resize_clear C hw r c) α
    have hz : C' = 0 := by
      funext i j
      have := hC.ent i j
      rw [List.isEmpty_iff.mp he] at this
      simp at this
    refine ⟨m', ?_, by rw [hz]; exact h2⟩
    unfold multiply
    dsimp only
    rw [a1, a2, b1, b2, if_neg (by simp), he]
    simpa using h1
  · obtain ⟨m', h1, h2⟩ := product_loop hA hB hC α
    refine ⟨m', ?_, h2⟩
    unfold multiply
    dsimp only
    rw [a1, a2, b1, b2, if_neg (by simp), if_neg (by simp [he])]
    simpa using h1

/-- Matrices whose dimensions do not fit are not multiplied: the result is the empty matrix. -/
theorem C60_multiply_mismatch {C A B : Mat R} (tA tB addTo : Bool) (α : R)
    (h : (if tA then A.nrow else A.ncol) ≠ (if tB then B.ncol else B.nrow)) : C.multiply A B tA tB addTo α = some ⟨0, 0, []⟩ := by
  unfold multiply
  dsimp only
  rw [if_pos h]

/-- Matrix-vector product: `Y = A*X`, `Y += A*X` or `Y -= A*X`, with `A` possibly transposed. -/
theorem C60_mulVec {A : Mat R} {t : Bool} {A' : Matrix (Fin r) (Fin c) R} (hA : RepOp A t A') (hr : 0 < r) (hc : 0 < c) (x : Fin c → R) :
    (∀ Y, A.mulVec (List.ofFn x) Y t 0 = some (true, List.ofFn (A'.mulVec x))) ∧
    ∀ (y : Fin r → R) (s : Int), s ≠ 0 →
      A.mulVec (List.ofFn x) (List.ofFn y) t s = some (true, List.ofFn fun i => if 0 < s then y i + A'.mulVec x i else y i - A'.mulVec x i) := by
  obtain ⟨a1, a2⟩ := repOp_dims hA
  have hdim : A.nrow > 0 ∧ A.ncol > 0 ∧ (if t = true then A.nrow else A.ncol) = (List.ofFn x).length := by
    cases t <;> simp at a1 a2 ⊢ <;> omega
  have key : ∀ (y : Fin r → R) (s : Int), (pairs r c).foldlM (fun (Y : List R) (q : Nat × Nat) => do
      let a ← opGet? A t q.1 q.2
      let x ← (List.ofFn x)[q.2]?
      let y ← Y[q.1]?
      some (Y.set q.1 (y + a * (if s < 0 then -x else x)))) (List.ofFn y) =
        some (List.ofFn fun i => y i + ∑ j, A' i j * (if s < 0 then -x j else x j)) := by
    intro y s
    rw [listFold (pairs r c) _ (fun q => q.1) (fun q z => z + (opGet? A t q.1 q.2).getD 0 * (if s < 0 then -((List.ofFn x)[q.2]?).getD 0 else ((List.ofFn x)[q.2]?).getD 0)) _
      (fun e he q hq => by
        obtain ⟨q1, q2⟩ := (mem_pairs _ _ _).mp hq
        have hx : (List.ofFn x)[q.2]? = some (x ⟨q.2, q2⟩) := by
          rw [List.getElem?_eq_getElem (by simpa using q2), List.getElem_ofFn]
        have hy : ∃ y, e[q.1]? = some y := by
          rw [List.length_ofFn] at he
          exact ⟨_, List.getElem?_eq_getElem (by omega)⟩
        obtain ⟨y, hy⟩ := hy
        rw [rep_opGet hA _ _ q1 q2, hx, hy]
        simp only [Option.bind_eq_bind, Option.bind_some, Option.getD_some]
        congr 1
        exact set_modify e q.1 (fun z => z + A' ⟨q.1, q1⟩ ⟨q.2, q2⟩ * (if s < 0 then -x ⟨q.2, q2⟩ else x ⟨q.2, q2⟩)) y hy)]
    congr 1
    apply List.ext_getElem?
    intro p
    rw [modFold_get]
    by_cases hp : p < r
    · rw [List.getElem?_eq_getElem (by simpa using hp), List.getElem?_eq_getElem (by simpa using hp), List.getElem_ofFn, List.getElem_ofFn, Option.map_some,
        foldl_add_sum, sum_filter, sum_pairs, Finset.sum_eq_single ⟨p, hp⟩]
      · congr 2
        refine Finset.sum_congr rfl fun j _ => ?_
        have hx : (List.ofFn x)[j.1]? = some (x j) := by
          rw [List.getElem?_eq_getElem (by simp), List.getElem_ofFn]
        rw [if_pos rfl, rep_opGet hA _ _ hp j.2, hx]; simp
      · intro i _ hne
        exact Finset.sum_eq_zero fun j _ => if_neg fun e => hne (Fin.ext e)
      · simp
    · rw [List.getElem?_eq_none (by simpa using hp), List.getElem?_eq_none (by simpa using hp)]; rfl
  constructor
  · intro Y
    unfold mulVec
    rw [if_neg (not_not.mpr hdim), if_pos (Or.inl rfl), a1]
    dsimp only
    rw [List.length_replicate, List.length_ofFn, show List.replicate r (0 : R) = List.ofFn (fun _ : Fin r => (0 : R)) by rw [List.ofFn_const], key]
    simp only [lt_self_iff_false, if_false, zero_add, Option.map_some]
    rfl
  · intro y s hs
    unfold mulVec
    rw [if_neg (not_not.mpr hdim), if_neg (by
      rintro (h | h)
      · exact hs h
      · have := congrArg List.length h
        simp at this; omega)]
    dsimp only
    rw [List.length_ofFn, List.length_ofFn, key]
    simp only [Option.map_some, Matrix.mulVec, dotProduct]
    congr 3
    funext i
    by_cases h : 0 < s
    · rw [if_pos h]
      simp [show ¬ s < 0 by omega]
    · rw [if_neg h]
      simp [show s < 0 by omega, sub_eq_add_neg]

/-- The general matrix-vector product `Y = alpha*A*X + beta*Y`, with `A` possibly transposed; for `beta = 0` the old content of `Y` does not matter. -/
theorem C60_gemv [DecidableEq R] {A : Mat R} {t : Bool} {A' : Matrix (Fin r) (Fin c) R} (hA : RepOp A t A') (hr : 0 < r) (hc : 0 < c) (x : Fin c → R) (α : R) :
    (∀ Y, A.gemv (List.ofFn x) Y α 0 t = some (true, List.ofFn (α • A'.mulVec x))) ∧
    ∀ (y : Fin r → R) (β : R), A.gemv (List.ofFn x) (List.ofFn y) α β t = some (true, List.ofFn (α • A'.mulVec x + β • y)) := by
  obtain ⟨a1, a2⟩ := repOp_dims hA
  have hdim : A.nrow > 0 ∧ A.ncol > 0 ∧ (if t = true then A.nrow else A.ncol) = (List.ofFn x).length := by
    cases t <;> simp at a1 a2 ⊢ <;> omega
  have key : ∀ (y : Fin r → R), (pairs r c).foldlM (fun (Y : List R) (q : Nat × Nat) => do
      let a ← opGet? A t q.1 q.2
      let x ← (List.ofFn x)[q.2]?
      let y ← Y[q.1]?
      some (Y.set q.1 (y + α * a * x))) (List.ofFn y) = some (List.ofFn (α • A'.mulVec x + y)) := by
    intro y
    rw [listFold (pairs r c) _ (fun q => q.1) (fun q z => z + α * (opGet? A t q.1 q.2).getD 0 * ((List.ofFn x)[q.2]?).getD 0) _
      (fun e he q hq => by
        obtain ⟨q1, q2⟩ := (mem_pairs _ _ _).mp hq
        have hx : (List.ofFn x)[q.2]? = some (x ⟨q.2, q2⟩) := by
          rw [List.getElem?_eq_getElem (by simpa using q2), List.getElem_ofFn]
        have hy : ∃ y, e[q.1]? = some y := by
          rw [List.length_ofFn] at he
          exact ⟨_, List.getElem?_eq_getElem (by omega)⟩
        obtain ⟨y, hy⟩ := hy
        rw [rep_opGet hA _ _ q1 q2, hx, hy]
        simp only [Option.bind_eq_bind, Option.bind_some, Option.getD_some]
        congr 1
        exact set_modify e q.1 (fun z => z + α * A' ⟨q.1, q1⟩ ⟨q.2, q2⟩ * x ⟨q.2, q2⟩) y hy)]
    congr 1
    apply List.ext_getElem?
    intro p
    rw [modFold_get]
    by_cases hp : p < r
    · rw [List.getElem?_eq_getElem (by simpa using hp), List.getElem?_eq_getElem (by simpa using hp), List.getElem_ofFn, List.getElem_ofFn, Option.map_some,
        foldl_add_sum, sum_filter, sum_pairs, Finset.sum_eq_single ⟨p, hp⟩]
      · rw [Pi.add_apply, Pi.smul_apply, add_comm, smul_eq_mul, Matrix.mulVec, dotProduct, Finset.mul_sum]
        congr 2
        refine Finset.sum_congr rfl fun j _ => ?_
        have hx : (List.ofFn x)[j.1]? = some (x j) := by
          rw [List.getElem?_eq_getElem (by simp), List.getElem_ofFn]
        rw [if_pos rfl, rep_opGet hA _ _ hp j.2, hx]; simp [mul_assoc]
      · intro i _ hne
        exact Finset.sum_eq_zero fun j _ => if_neg fun e => hne (Fin.ext e)
      · simp
    · rw [List.getElem?_eq_none (by simpa using hp), List.getElem?_eq_none (by simpa using hp)]; rfl
  have zero : ∀ Y, A.gemv (List.ofFn x) Y α 0 t = some (true, List.ofFn (α • A'.mulVec x)) := by
    intro Y
    unfold gemv
    rw [if_neg (not_not.mpr hdim), if_pos (Or.inl rfl), a1]
    dsimp only
    rw [List.length_replicate, List.length_ofFn, show List.replicate r (0 : R) = List.ofFn (fun _ : Fin r => (0 : R)) by rw [List.ofFn_const], key]
    simp only [Option.map_some]
    congr 3
    exact add_zero _
  refine ⟨zero, fun y β => ?_⟩
  by_cases hβ : β = 0
  · rw [hβ, zero, zero_smul, add_zero]
  · unfold gemv
    rw [if_neg (not_not.mpr hdim), if_neg (by
      rintro (h | h)
      · exact hβ h
      · have := congrArg List.length h
        simp at this; omega)]
    dsimp only
    have hY : (if β ≠ 1 then (List.ofFn y).map fun z => z * β else List.ofFn y) = List.ofFn (β • y) := by
      by_cases h1 : β = 1
      · rw [if_neg (not_not.mpr h1), h1, one_smul]
      · rw [if_pos h1, List.map_ofFn]
        congr 1
        funext i
        exact mul_comm _ _
    rw [hY, List.length_ofFn, List.length_ofFn, key]; rfl

/-- A vector of the wrong length is refused and nothing is changed. -/
theorem C60_mulVec_mismatch (A : Mat R) (X Y : List R) (t : Bool) (s : Int) (h : X.length ≠ (if t then A.nrow else A.ncol)) :
    A.mulVec X Y t s = some (false, Y) := by
  unfold mulVec
  rw [if_pos fun e => h e.2.2.symm]

/-- Adding a multiple of a matrix, and multiplying by a number. -/
theorem C60_add {m B : Mat R} {A B' : Matrix (Fin r) (Fin c) R} (hA : Rep m A) (hB : Rep B B') (α : R) :
    Rep (m.add B α) (A + α • B') ∧ Rep (m.scalar α) (α • A) := by
  constructor
  · refine ⟨hA.rows, hA.cols, by simp [Mat.add, hA.size], fun i j => ?_⟩
    have hb := hB.ent i j
    obtain ⟨hlt, _⟩ := List.getElem?_eq_some_iff.mp hb
    simp only [Mat.add, List.getElem?_map, List.getElem?_zipIdx, hA.ent i j, Option.map_some, Nat.zero_add, if_pos hlt]
    simp [List.getD_eq_getElem?_getD, hb]
  · refine ⟨hA.rows, hA.cols, by simp [Mat.scalar, hA.size], fun i j => ?_⟩
    simp [Mat.scalar, hA.ent i j, mul_comm]

/-- `scale` multiplies the matrix from the right by a diagonal matrix. -/
theorem C60_scale {m : Mat R} {A : Matrix (Fin r) (Fin c) R} (hA : Rep m A) (d : Fin c → R) :
    ∃ m', m.scale (List.ofFn d) c = some m' ∧ Rep m' (A * Matrix.diagonal d) := by
  unfold scale
  rw [hA.rows, hA.cols, min_self]
  refine rep_block hA (pairs c r) (nodup_pairs _ _) _ (fun q => q.2) (fun q => q.1) (fun q y => y * ((List.ofFn d)[q.1]?).getD 0) _
    (fun q hq => ((mem_pairs _ _ _).mp hq).2) (fun m' a b e q hq => ?_) (fun i j => Or.inl ⟨(j.1, i.1), ?_, fun y _ => ?_, ?_⟩)
  · obtain ⟨q1, q2⟩ := (mem_pairs _ _ _).mp hq
    rw [List.getElem?_eq_getElem (by simpa using q1)]
    simp only [Option.bind_eq_bind, Option.bind_some, Option.getD_some]
    rw [readSet_modify m' q.2 q.1 (fun y => y * (List.ofFn d)[q.1]'(by simpa using q1)) (by omega) (by omega) (by rw [a, b]; exact e), a]
  · exact (mem_pairs _ _ _).mpr ⟨j.2, i.2⟩
  · obtain ⟨a, b⟩ := y
    simp [and_comm]
  · rw [Matrix.mul_diagonal, List.getElem?_eq_getElem (by simp)]
    simp

/-- The outer product of two vectors, stored or added. -/
theorem C60_outer (m : Mat R) (x : Fin r → R) (y : Fin c → R) (α : R) :
    (m.WF → ∃ m', m.outer (List.ofFn x) (List.ofFn y) false α = some (true, m') ∧ Rep m' (fun i j => α * x i * y j)) ∧
    ∀ A : Matrix (Fin r) (Fin c) R, Rep m A → ∃ m', m.outer (List.ofFn x) (List.ofFn y) true α = some (true, m') ∧
      Rep m' (fun i j => A i j + α * x i * y j) := by
  have key : ∀ (add : Bool) (m : Mat R) (A : Matrix (Fin r) (Fin c) R), Rep m A →
      ∃ m', (pairs m.ncol m.nrow).foldlM (fun (m : Mat R) (q : Nat × Nat) => do
        let x ← (List.ofFn x)[q.2]?
        let y ← (List.ofFn y)[q.1]?
        let old ← m.elem[q.2 + m.nrow * q.1]?
        m.setAt? (q.2 + 1) (q.1 + 1) (if add then old + α * x * y else α * x * y)) m = some m' ∧
        Rep m' (fun i j => if add then A i j + α * x i * y j else α * x i * y j) := by
    intro add m A hA
    rw [hA.rows, hA.cols]
    refine rep_block hA (pairs c r) (nodup_pairs _ _) _ (fun q => q.2) (fun q => q.1)
      (fun q old => if add then old + α * ((List.ofFn x)[q.2]?).getD 0 * ((List.ofFn y)[q.1]?).getD 0 else α * ((List.ofFn x)[q.2]?).getD 0 * ((List.ofFn y)[q.1]?).getD 0) _
      (fun q hq => ((mem_pairs _ _ _).mp hq).2) (fun m' a b e q hq => ?_) (fun i j => Or.inl ⟨(j.1, i.1), ?_, fun y _ => ?_, ?_⟩)
    · obtain ⟨q1, q2⟩ := (mem_pairs _ _ _).mp hq
      rw [List.getElem?_eq_getElem (show q.2 < (List.ofFn x).length by simpa using q2), List.getElem?_eq_getElem (show q.1 < (List.ofFn y).length by simpa using q1)]
      simp only [Option.bind_eq_bind, Option.bind_some, Option.getD_some]
      have := readSet_modify m' q.2 q.1 (fun old => if add = true then old + α * (List.ofFn x)[q.2]'(by simpa using q2) * (List.ofFn y)[q.1]'(by simpa using q1)
        else α * (List.ofFn x)[q.2]'(by simpa using q2) * (List.ofFn y)[q.1]'(by simpa using q1)) (by omega) (by omega) (by rw [a, b]; exact e)
      rw [this, a]
    · exact (mem_pairs _ _ _).mpr ⟨j.2, i.2⟩
    · obtain ⟨a, b⟩ := y
      simp [and_comm]
    · simp
  constructor
  · intro hw
    have hr : ∃ A : Matrix (Fin r) (Fin c) R, Rep (m.resize r c false) A := by
      have hl : (m.resize r c false).elem.length = r * c ∧ (m.resize r c false).nrow = r ∧ (m.resize r c false).ncol = c := by
        have hw' : m.elem.length = m.nrow * m.ncol := hw
        unfold Mat.resize
        simp only [Bool.false_eq_true, if_false]
        by_cases h1 : m.nrow = r ∧ m.ncol = c
        · rw [if_pos h1]; exact ⟨by rw [hw', h1.1, h1.2], h1.1, h1.2⟩
        · rw [if_neg h1]
          by_cases h2 : m.nrow * m.ncol = r * c
          · rw [if_pos h2]; exact ⟨by rw [← h2]; exact hw', rfl, rfl⟩
          · rw [if_neg h2]
            refine ⟨?_, rfl, rfl⟩
            dsimp only
            rw [List.length_append, List.length_take, List.length_replicate]
            omega
      exact ⟨fun i j => (m.resize r c false).elem[i.1 + r * j.1]'(by rw [hl.1]; exact rep_idx i.2 j.2), hl.2.1, hl.2.2, hl.1, fun i j => List.getElem?_eq_getElem _⟩
    obtain ⟨A, hA⟩ := hr
    obtain ⟨m', h1, h2⟩ := key false _ A hA
    refine ⟨m', ?_, h2⟩
    unfold outer
    simp only [Bool.false_eq_true, false_and, if_false, List.length_ofFn]
    simp only [Bool.false_eq_true, if_false] at h1
    rw [h1]; rfl
  · intro A hA
    obtain ⟨m', h1, h2⟩ := key true m A hA
    refine ⟨m', ?_, h2⟩
    unfold outer
    rw [if_neg (by simp [hA.rows, hA.cols])]
    simp only [if_true]
    simp only [if_true] at h1
    rw [h1]; rfl

end field

/-- `transpose` gives the transposed matrix. -/
theorem C60_transpose {m : Mat R} {A : Matrix (Fin r) (Fin c) R} (h : Rep m A) : ∃ m', m.transpose = some m' ∧ Rep m' A.transpose := by
  have hv : ∀ q ∈ pairs r c, ∃ v, m.elem[q.1 + r * q.2]? = some v := by
    intro q hq
    obtain ⟨q1, q2⟩ := (mem_pairs _ _ _).mp hq
    exact ⟨_, h.ent ⟨q.1, q1⟩ ⟨q.2, q2⟩⟩
  have hl := listFold (pairs r c) (fun (e : List R) q => do
      let v ← m.elem[q.1 + r * q.2]?
      if q.2 + c * q.1 < e.length then some (e.set (q.2 + c * q.1) v) else none) (fun q => q.2 + c * q.1)
      (fun q y => (m.elem[q.1 + r * q.2]?).getD y) m.elem (fun e he q hq => by
        obtain ⟨q1, q2⟩ := (mem_pairs _ _ _).mp hq
        obtain ⟨v, hv⟩ := hv q hq
        have hlt : q.2 + c * q.1 < e.length := by
          rw [he, h.size, Nat.mul_comm r c]; exact rep_idx q2 q1
        simp only [hv, Option.bind_eq_bind, Option.bind_some, Option.getD_some, if_pos hlt]
        congr 1
        exact set_modify e _ (fun _ => v) _ (List.getElem?_eq_getElem hlt))
  refine ⟨⟨c, r, (pairs r c).foldl (fun e q => e.modify (q.2 + c * q.1) fun y => (m.elem[q.1 + r * q.2]?).getD y) m.elem⟩, ?_, ⟨rfl, rfl, ?_, fun j i => ?_⟩⟩
  · unfold Mat.transpose
    rw [h.rows, h.cols, hl]
    rfl
  · dsimp only
    rw [modFold_length, h.size, Nat.mul_comm]
  · dsimp only
    have hlt : j.1 + c * i.1 < m.elem.length := by rw [h.size, Nat.mul_comm r c]; exact rep_idx j.2 i.2
    rw [modFold_get, List.getElem?_eq_getElem hlt, filter_single _ _ (i.1, j.1) (nodup_pairs _ _) ((mem_pairs _ _ _).mpr ⟨i.2, j.2⟩)]
    · simp [h.ent i j]
    · intro q hq
      obtain ⟨q1, q2⟩ := (mem_pairs _ _ _).mp hq
      rw [decide_eq_true_eq]
      constructor
      · intro e
        have e1 := congrArg (· % c) e
        simp [Nat.add_mul_mod_self_left, Nat.mod_eq_of_lt q2, Nat.mod_eq_of_lt j.2] at e1
        rw [e1] at e
        have e2 := Nat.eq_of_mul_eq_mul_left (Nat.lt_of_le_of_lt (Nat.zero_le _) j.2) (Nat.add_left_cancel e)
        exact Prod.ext e2 e1
      · rintro rfl; rfl

end IFEM.Props
